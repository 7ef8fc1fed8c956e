import Verif.ImageIter.Model
/-!
Model of the color slots of image readers: /repo/src/archon/image/reader.hpp and /repo/src/archon/image/reader.cpp, with what they use of
comp_repr.hpp and pixel_convert.hpp.

`α` is the type of the components in the representation of the image, and `φ` is `image::float_type`. If the representation of the image is
`float_`, the two are the same type, and the conversion of components is the identity. As in the model of pixel iterators, `none` as a result
of an operation is undefined behavior or a failed assertion, and memory that is not initialized cannot be read. The value-initialization
of the elements by `std::make_unique()` is ignored, so reading of such an element before something is assigned to it is also `none`. Failing
memory allocation, and exceptions thrown by color space converters are not modelled.
-/
namespace Verif.ColorSlot
open Verif.ImageIter

variable {α φ : Type}

/-- `Reader::ColorSlot`: reader.hpp:770-773. -/
inductive Slot where
  | background
  | foreground
deriving DecidableEq, Repr

/-- `int(slot)`. -/
def Slot.index : Slot → Nat
  | .background => 0
  | .foreground => 1

/-! ### Conversion between the representation of the image and `float_` -/

/-- A component representation, with the operations on components that are used for conversion: `isFloat` tells whether it is `float_`, `max`
is `comp_repr_max()`, `one` is the number 1, `mul` is multiplication, `unmul` is division by an alpha component as in
comp_repr.hpp:676-678, `toColor`, `toAlpha`, `fromColor`, and `fromAlpha` are `color_comp_to_float()`, `alpha_comp_to_float()`,
`color_comp_from_float()`, and `alpha_comp_from_float()`: comp_repr.hpp:533-590. -/
structure Scheme (α φ : Type) where
  isFloat : Bool
  max : α
  one : φ
  mul : φ → φ → φ
  unmul : φ → φ → φ
  toColor : α → φ
  toAlpha : α → φ
  fromColor : φ → α
  fromAlpha : φ → α

/-- `comp_repr_convert()` to `float_`: comp_repr.hpp:650-708, the first and the third alternative. -/
def Scheme.toFloat (s : Scheme α φ) (hasAlpha : Bool) (color : List α) : List φ :=
  if s.isFloat || !hasAlpha then color.map s.toColor
  else
    match color.getLast? with
    | none => []
    | some a => color.dropLast.map (fun c => s.mul (s.toAlpha a) (s.toColor c)) ++ [s.toAlpha a]

/-- `comp_repr_convert()` from `float_`: comp_repr.hpp:650-708, the first and the second alternative. -/
def Scheme.fromFloat (s : Scheme α φ) (hasAlpha : Bool) (color : List φ) : List α :=
  if s.isFloat || !hasAlpha then color.map s.fromColor
  else
    match color.getLast? with
    | none => []
    | some a => color.dropLast.map (fun c => s.fromColor (s.unmul a c)) ++ [s.fromAlpha a]

/-- `pixel_convert()` from `float_`, without alpha component in the origin and with alpha component in the destination:
pixel_convert.hpp:114-141. The number of channels of the color space is `n`. -/
def Scheme.opaque (s : Scheme α φ) (n : Nat) (color : List φ) : List α := s.fromFloat false (color.take n) ++ [s.max]

/-- `pixel_convert_a()` to `float_` with alpha component, from the representation and the color space of the image:
pixel_convert.hpp:145-208. -/
def Scheme.toNeutral (s : Scheme α φ) (hasAlpha : Bool) (color : List α) : List φ :=
  if hasAlpha then s.toFloat true color else s.toFloat false color ++ [s.one]

/-! ### State -/

/-- `Reader::ColorSlotCtrl`: reader.hpp:471-476. -/
structure Ctrl where
  haveNeutral : Bool
  haveRestricted : Bool
  haveUnrestricted : Bool
  isSolid : Bool
deriving DecidableEq, Repr

/-- The state of the color slots: `m_color_slot_ctrls`, `m_color_slots_f`, `m_color_slots_r`, and `m_color_slots_u`. The last three are `none`
when there is no such array. -/
structure State (α φ : Type) where
  ctrl : Slot → Ctrl
  f : Option (Mem φ)
  r : Option (Mem α)
  u : Option (Mem α)

/-- The initial state: reader.hpp:471-476. -/
def init : State α φ := ⟨fun _ => ⟨false, false, false, false⟩, none, none, none⟩

/-- Change of the control structure of a slot. -/
def State.setCtrl (st : State α φ) (slot : Slot) (c : Ctrl) : State α φ := { st with ctrl := fun s => if s = slot then c else st.ctrl s }

/-- `alloc_color_slots_f()`: reader.cpp:228-235, `alloc_color_slots_r()`: reader.hpp:1695-1705, and `alloc_color_slots_u()`:
reader.hpp:1769-1779. `k` is `m_num_channels_ext`. -/
def alloc (k : Nat) : Mem α := fun a => if 0 ≤ a ∧ a < k * 2 then some none else none

/-- `ensure_color_slots_f()`: reader.hpp:1627-1632, `ensure_color_slots_r()`: reader.hpp:1686-1692, `ensure_color_slots_u()`:
reader.hpp:1760-1766. -/
def ensureSlots (k : Nat) (mem : Option (Mem α)) : Mem α := mem.getD (alloc k)

/-- The offset of a slot in an array: reader.hpp:1623, 1657, and 1730. -/
def Slot.offset (slot : Slot) (k : Nat) : Int := slot.index * k

/-- The color at the specified place. -/
def loadColor (m : Mem α) (a : Int) (n : Nat) : Option (List α) := (List.range n).mapM fun c : Nat => load m (a + c)

/-- The color that is referred to by the result of `get_color_slot_f()`: reader.hpp:1618-1624, `get_color_slot_r()`: reader.hpp:1648-1658,
or `get_color_slot_u()`: reader.hpp:1721-1731. -/
def getSlot (k : Nat) (slot : Slot) (mem : Option (Mem α)) : Option (List α) := do
  let m ← mem
  loadColor m (slot.offset k) k

/-! ### Assignment -/

/-- What is passed to `do_set_color()`: a color in the representation and color space of the image, or any other color, represented by the
result of its conversion by `pixel_convert_a()` to `float_` in the color space of the image, with alpha component. -/
inductive Arg (α φ : Type) where
  | native (color : List α) (hasAlpha : Bool)
  | foreign (color : List φ)

/-- The first part of `do_set_color()`: reader.hpp:1799-1822. -/
def setNative [DecidableEq α] (s : Scheme α φ) (k : Nat) (slot : Slot) (color : List α) (hasAlpha : Bool) (st : State α φ) :
    Option (State α φ) := do
  let n := k - (!hasAlpha).toNat
  let m ← put color (slot.offset k) n 0 (ensureSlots k st.u)
  if hasAlpha then do
    let alpha ← load m (slot.offset k + (n - 1))
    some ({ st with u := some m }.setCtrl slot ⟨false, false, true, alpha = s.max⟩)
  else do
    let m ← store m (slot.offset k + n) s.max
    some ({ st with u := some m }.setCtrl slot ⟨false, false, true, true⟩)

/-- The second part of `do_set_color()`: reader.hpp:1824-1850. `color` is the result of `pixel_convert_a()`. -/
def setNeutral [DecidableEq φ] (s : Scheme α φ) (k : Nat) (slot : Slot) (color : List φ) (opacity : φ) (st : State α φ) :
    Option (State α φ) := do
  let m ← put (color.map fun c => s.mul c opacity) (slot.offset k) k 0 (ensureSlots k st.f)
  let alpha ← load m (slot.offset k + (k - 1))
  some ({ st with f := some m }.setCtrl slot ⟨true, false, false, alpha = s.one⟩)

/-- `do_set_color()`: reader.hpp:1790-1850. -/
def doSet [DecidableEq α] [DecidableEq φ] (s : Scheme α φ) (k : Nat) (slot : Slot) (arg : Arg α φ) (opacity : φ) (st : State α φ) :
    Option (State α φ) :=
  match arg with
  | .native color hasAlpha =>
    if opacity = s.one then setNative s k slot color hasAlpha st
    else setNeutral s k slot (s.toNeutral hasAlpha color) opacity st
  | .foreign color => setNeutral s k slot color opacity st

/-- `set_default_color()`: reader.cpp:238-264. `dflt` has the colors that are passed to `do_set_color()`. -/
def setDefault [DecidableEq α] [DecidableEq φ] (s : Scheme α φ) (k : Nat) (dflt : Slot → Arg α φ) (slot : Slot) (st : State α φ) :
    Option (State α φ) :=
  let ctrl := st.ctrl slot
  if !ctrl.haveNeutral && !ctrl.haveRestricted && !ctrl.haveUnrestricted then doSet s k slot (dflt slot) s.one st else none

/-! ### Retrieval -/

/-- The conversion in `init_color_slot_f()`: reader.cpp:213-224. -/
def convertF (s : Scheme α φ) (k : Nat) (slot : Slot) (st : State α φ) : Option (State α φ) := do
  let origin ← getSlot k slot st.u
  let m ← put (s.toFloat true origin) (slot.offset k) k 0 (ensureSlots k st.f)
  some ({ st with f := some m }.setCtrl slot { st.ctrl slot with haveNeutral := true })

/-- `init_color_slot_f()`: reader.cpp:200-225. -/
def initF [DecidableEq α] [DecidableEq φ] (s : Scheme α φ) (k : Nat) (dflt : Slot → Arg α φ) (slot : Slot) (st : State α φ) :
    Option (State α φ) :=
  if (st.ctrl slot).haveNeutral then none
  else if (st.ctrl slot).haveUnrestricted then convertF s k slot st
  else do
    let st ← setDefault s k dflt slot st
    if (st.ctrl slot).haveUnrestricted then convertF s k slot st
    else if (st.ctrl slot).haveNeutral then some st
    else none

/-- `ensure_color_slot_f()`: reader.hpp:1605-1615. -/
def ensureF [DecidableEq α] [DecidableEq φ] (s : Scheme α φ) (k : Nat) (dflt : Slot → Arg α φ) (slot : Slot) (st : State α φ) :
    Option (State α φ × List φ) :=
  if (st.ctrl slot).haveNeutral then do
    let color ← getSlot k slot st.f
    some (st, color)
  else do
    let st ← initF s k dflt slot st
    if (st.ctrl slot).haveNeutral then do
      let color ← getSlot k slot st.f
      some (st, color)
    else none

/-- The conversion in `init_color_slot_u()`: reader.hpp:1748-1756. -/
def convertU (s : Scheme α φ) (k : Nat) (slot : Slot) (st : State α φ) : Option (State α φ) := do
  let origin ← getSlot k slot st.f
  let m ← put (s.fromFloat true origin) (slot.offset k) k 0 (ensureSlots k st.u)
  some ({ st with u := some m }.setCtrl slot { st.ctrl slot with haveUnrestricted := true })

/-- `init_color_slot_u()`: reader.hpp:1733-1757. -/
def initU [DecidableEq α] [DecidableEq φ] (s : Scheme α φ) (k : Nat) (dflt : Slot → Arg α φ) (slot : Slot) (st : State α φ) :
    Option (State α φ) :=
  if (st.ctrl slot).haveUnrestricted then none
  else if (st.ctrl slot).haveNeutral then convertU s k slot st
  else do
    let st ← setDefault s k dflt slot st
    if (st.ctrl slot).haveNeutral then convertU s k slot st
    else if (st.ctrl slot).haveUnrestricted then some st
    else none

/-- `ensure_color_slot_u()`: reader.hpp:1708-1718. -/
def ensureU [DecidableEq α] [DecidableEq φ] (s : Scheme α φ) (k : Nat) (dflt : Slot → Arg α φ) (slot : Slot) (st : State α φ) :
    Option (State α φ × List α) := do
  let st ← (if (st.ctrl slot).haveUnrestricted then some st else initU s k dflt slot st)
  let color ← getSlot k slot st.u
  some (st, color)

/-- `init_color_slot_r()`: reader.hpp:1660-1683. -/
def initR [DecidableEq α] [DecidableEq φ] (s : Scheme α φ) (k : Nat) (dflt : Slot → Arg α φ) (slot : Slot) (st : State α φ) :
    Option (State α φ) :=
  if (st.ctrl slot).haveRestricted then none
  else
    let mem := ensureSlots k st.r
    if (st.ctrl slot).isSolid && (st.ctrl slot).haveUnrestricted then do
      let origin ← getSlot k slot st.u
      let m ← put origin (slot.offset k) k 0 mem
      some ({ st with r := some m }.setCtrl slot { st.ctrl slot with haveRestricted := true })
    else do
      let (st, origin) ← ensureF s k dflt slot st
      let m ← put (s.opaque (k - 1) origin) (slot.offset k) k 0 mem
      some ({ st with r := some m }.setCtrl slot { st.ctrl slot with haveRestricted := true })

/-- `ensure_color_slot_r()`: reader.hpp:1635-1645. -/
def ensureR [DecidableEq α] [DecidableEq φ] (s : Scheme α φ) (k : Nat) (dflt : Slot → Arg α φ) (slot : Slot) (st : State α φ) :
    Option (State α φ × List α) := do
  let st ← (if (st.ctrl slot).haveRestricted then some st else initR s k dflt slot st)
  let color ← getSlot k slot st.r
  some (st, color)

/-- `is_solid_color()`: reader.hpp:1148-1157. -/
def isSolid [DecidableEq α] [DecidableEq φ] (s : Scheme α φ) (k : Nat) (dflt : Slot → Arg α φ) (slot : Slot) (st : State α φ) :
    Option (State α φ × Bool) := do
  let st ← (if (st.ctrl slot).haveNeutral || (st.ctrl slot).haveUnrestricted then some st else setDefault s k dflt slot st)
  some (st, (st.ctrl slot).isSolid)

/-- A request for a color: whether `R` is the representation of the image, whether `color_space` is the color space of the image, and
`has_alpha`. -/
structure Request where
  sameRepr : Bool
  sameSpace : Bool
  hasAlpha : Bool
deriving DecidableEq, Repr

/-- A color that is passed to the caller: the components in the representation and color space of the image, or the result of the conversion by
`pixel_convert_a()` of the specified components. -/
inductive Out (α φ : Type) where
  | exact (color : List α)
  | converted (color : List φ)
deriving DecidableEq

/-- `get_color_a()`: reader.hpp:1013-1068. -/
def getColor [DecidableEq α] [DecidableEq φ] (s : Scheme α φ) (k : Nat) (dflt : Slot → Arg α φ) (slot : Slot) (q : Request)
    (st : State α φ) : Option (State α φ × Out α φ) := do
  let (st, solid) ← isSolid s k dflt slot st
  if q.sameRepr && q.sameSpace && (q.hasAlpha || s.isFloat || solid) then do
    let (st, color) ← ensureU s k dflt slot st
    some (st, .exact (color.take (k - (!q.hasAlpha).toNat)))
  else do
    let (st, color) ← ensureF s k dflt slot st
    some (st, .converted color)

/-! ### Sequences of operations -/

/-- The operations on color slots: the functions of the interface, and those that are used by the other functions of the reader and by the writer. -/
inductive Op (α φ : Type) where
  | set (slot : Slot) (arg : Arg α φ) (opacity : φ)
  | get (slot : Slot) (q : Request)
  | neutral (slot : Slot)
  | restricted (slot : Slot)
  | unrestricted (slot : Slot)
  | solid (slot : Slot)

/-- What is returned by an operation. -/
inductive Result (α φ : Type) where
  | nothing
  | color (out : Out α φ)
  | solid (val : Bool)
deriving DecidableEq

/-- One operation. -/
def step [DecidableEq α] [DecidableEq φ] (s : Scheme α φ) (k : Nat) (dflt : Slot → Arg α φ) (op : Op α φ) (st : State α φ) :
    Option (State α φ × Result α φ) :=
  match op with
  | .set slot arg opacity => (doSet s k slot arg opacity st).map fun st => (st, .nothing)
  | .get slot q => (getColor s k dflt slot q st).map fun (st, out) => (st, .color out)
  | .neutral slot => (ensureF s k dflt slot st).map fun (st, color) => (st, .color (.converted color))
  | .restricted slot => (ensureR s k dflt slot st).map fun (st, color) => (st, .color (.exact color))
  | .unrestricted slot => (ensureU s k dflt slot st).map fun (st, color) => (st, .color (.exact color))
  | .solid slot => (isSolid s k dflt slot st).map fun (st, val) => (st, .solid val)

/-- A sequence of operations. -/
def run [DecidableEq α] [DecidableEq φ] (s : Scheme α φ) (k : Nat) (dflt : Slot → Arg α φ) :
    List (Op α φ) → State α φ → Option (State α φ × List (Result α φ))
  | [], st => some (st, [])
  | op :: ops, st => do
    let (st, res) ← step s k dflt op st
    let (st, rest) ← run s k dflt ops st
    some (st, res :: rest)

end Verif.ColorSlot
