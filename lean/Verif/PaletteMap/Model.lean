import Verif.KdTree.Model

/-!
# Model of `display::impl::PaletteMap`

`src/archon/display/noinst/palette_map.hpp` and `src/archon/display/noinst/palette_map.cpp`.

Components in floating point form are elements of an ordered ring. `none` means undefined behavior,
unless stated otherwise.
-/

namespace Verif.PaletteMap

/-- The data members that matter (`src/archon/display/noinst/palette_map.hpp:78-86`). The components in
native form are represented by their address. -/
structure Map (R : Type) where
  numChannels : Nat := 0
  numChannelsExt : Nat := 1
  size : Nat := 0
  native : Option Nat := none
  components : Option (List R) := none
  kdtree : Option (List Nat) := none

/-! ## Lookup -/

section
variable {R : Type} [CommRing R] [LinearOrder R]

/-- `get_comp` in `reverse_lookup()` and in `setup_kdtree()`
(`src/archon/display/noinst/palette_map.cpp:64-67` and `:134-137`). -/
def getComp (numChannelsExt : Nat) (components : List R) (color comp : Nat) : R :=
  components.getD (color * numChannelsExt + comp) 0

/-- Whether `get_comp` stays inside the array of components for the specified colors. -/
def inBounds (numChannels numChannelsExt : Nat) (components : List R) (colors : List Nat) : Bool :=
  colors.all fun p => (List.range numChannels).all fun i =>
    decide (p * numChannelsExt + i < components.length)

/-- `setup_kdtree()` (`src/archon/display/noinst/palette_map.cpp:128-144`). `nth` is
`std::nth_element()`. -/
def setupKdtree (nth : Nat → Nat → Nat → List Nat → List Nat) (maxLevels : Nat) (m : Map R) :
    Option (Map R) :=
  match m.components with
  | none => none
  | some components =>
    if inBounds m.numChannels m.numChannelsExt components (List.range m.size) then
      match KdTree.sort ⟨m.numChannels, getComp m.numChannelsExt components, maxLevels⟩ nth
        (List.range m.size) with
      | none => none
      | some tree => some { m with kdtree := some tree }
    else none

/-- `convert()` (`src/archon/display/noinst/palette_map.cpp:105-125`). `conv` is
`comp_repr_convert()`: it is given the components of a color in native form. -/
def convert {C : Type} [Inhabited C] (conv : (Nat → C) → Nat → R) (numChannelsExt size : Nat)
    (native : List C) : List R :=
  (List.range size).flatMap fun i =>
    (List.range numChannelsExt).map (conv fun c => native.getD (i * numChannelsExt + c) default)

/-- `init()` (`src/archon/display/noinst/palette_map.hpp:215-243`) for components in a native form that
is not floating point. The outer `none` means undefined behavior, and the inner one that
`std::invalid_argument` is thrown. `address` is the address of the array of components. -/
def init {C : Type} [Inhabited C] (conv : (Nat → C) → Nat → R)
    (nth : Nat → Nat → Nat → List Nat → List Nat) (maxLevels numChannels numChannelsExt size : Nat)
    (address : Nat) (native : List C) : Option (Option (Map R)) :=
  if native.length ≠ numChannelsExt * size then some none
  else (setupKdtree nth maxLevels
    { numChannels := numChannels, numChannelsExt := numChannelsExt, size := size,
      native := some address, components := some (convert conv numChannelsExt size native) }).map some

/-- `reverse_lookup()` (`src/archon/display/noinst/palette_map.cpp:60-74`). The inner `none` means that no
color is found. -/
def lookup (maxLevels : Nat) (m : Map R) (color : Nat → R) : Option (Option Nat) :=
  match m.components, m.kdtree with
  | some components, some tree =>
    if inBounds m.numChannels m.numChannelsExt components tree then
      (KdTree.find ⟨m.numChannels, getComp m.numChannelsExt components, maxLevels⟩ id tree color
        none).map (Option.map Prod.fst)
    else none
  | _, _ => if m.size = 0 then some none else none

end

/-- `move_from()` (`src/archon/display/noinst/palette_map.cpp:90-102`). The result is the new state of the
target and of the origin. -/
def moveFrom {R : Type} (target origin : Map R) : Map R × Map R :=
  ({ target with
      numChannels := origin.numChannels
      size := origin.size
      native := origin.native
      components := origin.components
      kdtree := origin.kdtree },
    { origin with native := none, components := none, kdtree := none })

/-! ## Reading of the palette -/

/-- `image::Reader` as far as it is used: size of the palette image, number of channels including alpha,
and access to components. -/
structure Reader (C : Type) where
  width : Int
  height : Int
  numChannelsExt : Nat
  comp : Nat → Nat → Nat → C

/-- Maximum value of `int`. -/
def intMax : Nat := 2 ^ 31 - 1

/-- The number of colors (`src/archon/display/noinst/palette_map.hpp:174-182`). `maxSize` is `none` when the
argument is negative. -/
def paletteSize (width height : Nat) (maxSize : Option Nat) : Nat :=
  let size := if width ≤ intMax ∧ width * height ≤ intMax then width * height else intMax
  match maxSize with
  | some n => if size > n then n else size
  | none => size

/-- The writes that are made by `Reader::get_block_a()`: index of component, and value. `x` is always
zero in the position. -/
def blockWrites {C : Type} (r : Reader C) (stride y w h : Nat) : List (Nat × C) :=
  (List.range h).flatMap fun j => (List.range w).flatMap fun i =>
    (List.range r.numChannelsExt).map fun c =>
      (((y + j) * stride + i) * r.numChannelsExt + c, r.comp i (y + j) c)

/-- Performing writes on an array of the specified size. -/
def perform {C : Type} (size : Nat) : List (Nat × C) → (Nat → C) → Option (Nat → C)
  | [], a => some a
  | (k, v) :: rest, a => if k < size then perform size rest (fun j => if j = k then v else a j) else none

/-- `read_palette()` (`src/archon/display/noinst/palette_map.hpp:167-212`). The result is the number of
colors, the number of components, and the components. The multiplications for the number of
components are assumed not to overflow, in which case an exception would be thrown. -/
def readPalette {C : Type} [Inhabited C] (r : Reader C) (maxSize : Option Nat) :
    Option (Nat × Nat × (Nat → C)) :=
  let width := r.width.toNat
  let height := r.height.toNat
  let size := paletteSize width height maxSize
  let numComponents := r.numChannelsExt * size
  if width = 0 then none
  else
    let numFullRows := size / width
    match perform numComponents (blockWrites r width 0 width numFullRows) (fun _ => default) with
    | none => none
    | some a =>
      let remain := size - numFullRows * width
      if remain > 0 then
        match perform numComponents (blockWrites r width numFullRows remain 1) a with
        | none => none
        | some a => some (size, numComponents, a)
      else some (size, numComponents, a)

/-! ## Ownership -/

/-- What can be done to variables of type `PaletteMap`. -/
inductive Op where
  /-- Default construction. -/
  | default (v : Nat)
  /-- Construction from components at a new address. `isFloat`: they are in floating point form.
  `fails`: allocation fails in `convert()`. `failsTree`: an exception is thrown by
  `setup_kdtree()`. -/
  | construct (v address : Nat) (isFloat fails failsTree : Bool)
  /-- Move construction. -/
  | moveConstruct (v w : Nat)
  /-- Move assignment. -/
  | moveAssign (v w : Nat)
  /-- End of lifetime. -/
  | destroy (v : Nat)

/-- The live arrays of native components, and for each variable that exists, the array that it owns, if
any. -/
structure State where
  live : List Nat
  vars : Nat → Option (Option Nat)

/-- Change of a variable. -/
def set (vars : Nat → Option (Option Nat)) (v : Nat) (x : Option (Option Nat)) :
    Nat → Option (Option Nat) := fun w => if w = v then x else vars w

/-- `destroy()` (`src/archon/display/noinst/palette_map.cpp:77-87`). -/
def free (live : List Nat) : Option Nat → Option (List Nat)
  | none => some live
  | some a => if a ∈ live then some (live.erase a) else none

/-- Execution of one operation. An operation that makes no sense because the variable exists, or does
not exist, or because the address is in use, has no effect. Construction:
`src/archon/display/noinst/palette_map.hpp:229-243`. If `init()` throws, the destructor is not invoked,
and the pointer to the native components is lost. Move construction and assignment:
`src/archon/display/noinst/palette_map.hpp:115-126`. Destruction: `:109-112`. -/
def step (s : State) : Op → Option State
  | .default v =>
    match s.vars v with
    | none => some { s with vars := set s.vars v (some none) }
    | some _ => some s
  | .construct v address isFloat fails failsTree =>
    match s.vars v with
    | some _ => some s
    | none =>
      if address ∈ s.live then some s
      else if isFloat then
        if failsTree then some s else some { s with vars := set s.vars v (some none) }
      else if fails || failsTree then some { s with live := address :: s.live }
      else some ⟨address :: s.live, set s.vars v (some (some address))⟩
  | .moveConstruct v w =>
    match s.vars v, s.vars w with
    | none, some p => some { s with vars := set (set s.vars v (some p)) w (some none) }
    | _, _ => some s
  | .moveAssign v w =>
    match s.vars v, s.vars w with
    | some q, some p =>
      match free s.live q with
      | none => none
      | some live => some ⟨live, set (set s.vars v (some p)) w (some none)⟩
    | _, _ => some s
  | .destroy v =>
    match s.vars v with
    | none => some s
    | some p =>
      match free s.live p with
      | none => none
      | some live => some ⟨live, set s.vars v none⟩

/-- Execution of a sequence of operations. -/
def run : State → List Op → Option State
  | s, [] => some s
  | s, op :: ops =>
    match step s op with
    | none => none
    | some s => run s ops

/-- Nothing exists. -/
def State.empty : State := ⟨[], fun _ => none⟩

end Verif.PaletteMap
