import Mathlib.Data.List.Sort
/-!
Model of `RectanglePacker`: /repo/src/archon/util/rectangle_packer.hpp.

Arithmetic on components is on integers. `none` stands for undefined behavior, in particular overflow, or failed assertion. Exceptions
(memory exhaustion) are not modelled.
-/
namespace Verif.RectPacker

/-- The type of the components: its least and its greatest value. -/
structure Env where
  lo : Int
  hi : Int

/-- The result of an arithmetic operation on components. For types that are narrower than `int`, this is stricter than the code. -/
def chk (env : Env) (v : Int) : Option Int := if env.lo ≤ v ∧ v ≤ env.hi then some v else none

/-- `Rect`: rectangle_packer.hpp:80-84. -/
structure Rect where
  w : Int
  h : Int
  x : Int
  y : Int
  bin : Nat
deriving DecidableEq

/-- `Bin`: rectangle_packer.hpp:86-89. -/
structure Bin where
  root : Nat
  maxX : Int
  maxY : Int
deriving DecidableEq

/-- `Node`: rectangle_packer.hpp:91-96. No node is `size_t(-1)` in the code. -/
structure Node where
  occupied : Bool
  x : Int
  y : Int
  w : Int
  h : Int
  right : Option Nat
  down : Option Nat
deriving DecidableEq

/-- The state of a packer (rectangle_packer.hpp:102-109). `m_order` and `m_stack` carry nothing from one call to the next. -/
structure State where
  spacing : Int
  margin : Int
  rects : List Rect
  bins : List Bin
  nodes : List Node
deriving DecidableEq

/-- Constructor: rectangle_packer.hpp:124-129. -/
def make (spacing margin : Int) : State := ⟨spacing, margin, [], [], []⟩

/-- `reset()`: rectangle_packer.hpp:132-138. -/
def reset (st : State) : State := { st with rects := [], bins := [], nodes := [] }

/-- `add_rect()`: rectangle_packer.hpp:141-149. -/
def addRect (st : State) (w h : Int) : Option State :=
  if 0 ≤ w then if 0 ≤ h then some { st with rects := st.rects ++ [⟨w, h, 0, 0, 0⟩] } else none else none

/-- The area shared by all bins (`root_x`, `root_y`, `root_w`, `root_h`): rectangle_packer.hpp:283-286. -/
structure Root where
  x : Int
  y : Int
  w : Int
  h : Int

/-- The ordering of rectangles (rectangle_packer.hpp:293-296): whether the first one must come before the second one. -/
def before (rects : List Rect) (i j : Nat) : Prop :=
  match rects[i]?, rects[j]? with
  | some a, some b => a.h > b.h ∨ (a.h = b.h ∧ a.w > b.w)
  | _, _ => False

instance (rects : List Rect) (i j : Nat) : Decidable (before rects i j) := by
  unfold before; split <;> infer_instance

/-- `m_order`: rectangle_packer.hpp:289-296. `std::stable_sort()` is an insertion sort here; its result is determined by its contract. -/
def order (rects : List Rect) : List Nat := (List.range rects.length).insertionSort (fun i j => ¬ before rects j i)

/-- What happens at `back`: rectangle_packer.hpp:379-386. -/
def back (visit : Nat → List Nat → Option (Option Nat)) : List Nat → Option (Option Nat)
  | [] => some none
  | j :: rest => visit j rest

/-- Search for a node of a bin into which the rectangle fits: rectangle_packer.hpp:325-330 and 373-387. The first number bounds the
number of turns. The inner result is nothing if there is no such node, so that the next bin must be considered. -/
def search (nodes : List Node) (w h : Int) : Nat → Nat → List Nat → Option (Option Nat)
  | 0, _, _ => none
  | fuel + 1, i, stack => do
    let node ← nodes[i]?
    if ¬ node.occupied then
      if w ≤ node.w ∧ h ≤ node.h then some (some i)
      else back (search nodes w h fuel) stack
    else
      let stack := match node.down with
        | some d => d :: stack
        | none => stack
      match node.right with
      | some r => search nodes w h fuel r stack
      | none => back (search nodes w h fuel) stack

/-- Addition of the node to the right: rectangle_packer.hpp:352-359. -/
def rightPart (env : Env) (spacing : Int) (node : Node) (w w1 h1 : Int) : Option (List Node) :=
  if w1 ≥ spacing then do
    let w1 ← chk env (w1 - spacing)
    let x ← chk env (node.x + w)
    let x ← chk env (x + spacing)
    some [⟨false, x, node.y, w1, h1, none, none⟩]
  else some []

/-- Addition of the node below: rectangle_packer.hpp:360-367. -/
def downPart (env : Env) (spacing : Int) (node : Node) (h w2 h2 : Int) : Option (List Node) :=
  if h2 ≥ spacing then do
    let h2 ← chk env (h2 - spacing)
    let y ← chk env (node.y + h)
    let y ← chk env (y + spacing)
    some [⟨false, node.x, y, w2, h2, none, none⟩]
  else some []

/-- Placement of a rectangle at a node: rectangle_packer.hpp:331-371. -/
def place (env : Env) (st : State) (b i k : Nat) (rect : Rect) : Option State := do
  let node ← st.nodes[i]?
  let bin ← st.bins[b]?
  let right ← chk env (node.x + rect.w)
  let bottom ← chk env (node.y + rect.h)
  let bin := { bin with
    maxX := if right > bin.maxX then right else bin.maxX
    maxY := if bottom > bin.maxY then bottom else bin.maxY }
  let w1 ← chk env (node.w - rect.w)
  let h2 ← chk env (node.h - rect.h)
  let h1 := if h2 ≥ w1 then rect.h else node.h
  let w2 := if h2 ≥ w1 then node.w else rect.w
  let r ← rightPart env st.spacing node rect.w w1 h1
  let d ← downPart env st.spacing node rect.h w2 h2
  let n := st.nodes.length
  let node := { node with
    occupied := true
    right := if w1 ≥ st.spacing then some n else none
    down := if h2 ≥ st.spacing then some (n + r.length) else none }
  some { st with
    rects := st.rects.set k { rect with bin := b, x := node.x, y := node.y }
    bins := st.bins.set b bin
    nodes := st.nodes.set i node ++ r ++ d }

/-- `insert_rect()` (rectangle_packer.hpp:307-389), starting at the specified bin. The first number bounds the number of turns. The
inner result is nothing if the function returns `false`. -/
def insertRect (env : Env) (root : Root) (maxBins k : Nat) (rect : Rect) : Nat → Nat → State → Option (Option State)
  | 0, _, _ => none
  | fuel + 1, b, st => do
    if b = st.bins.length then
      if b = maxBins ∨ rect.w > root.w ∨ rect.h > root.h then some none
      else
        let st := { st with
          nodes := st.nodes ++ [⟨false, root.x, root.y, root.w, root.h, none, none⟩]
          bins := st.bins ++ [⟨st.nodes.length, root.x, root.y⟩] }
        let bin ← st.bins[b]?
        match ← search st.nodes rect.w rect.h (2 ^ st.nodes.length) bin.root [] with
        | some i => do some (some (← place env st b i k rect))
        | none => insertRect env root maxBins k rect fuel (b + 1) st
    else
      let bin ← st.bins[b]?
      match ← search st.nodes rect.w rect.h (2 ^ st.nodes.length) bin.root [] with
      | some i => do some (some (← place env st b i k rect))
      | none => insertRect env root maxBins k rect fuel (b + 1) st

/-- The loop over the rectangles: rectangle_packer.hpp:390-396. -/
def packLoop (env : Env) (root : Root) (maxBins : Nat) : List Nat → State → Option (Bool × State)
  | [], st => some (true, st)
  | k :: ks, st => do
    let rect ← st.rects[k]?
    match ← insertRect env root maxBins k rect (st.bins.length + 2) 0 st with
    | some st => packLoop env root maxBins ks st
    | none => some (false, st)

/-- `pack()` and `do_pack()`: rectangle_packer.hpp:218-229 and 277-397. When the result is `false`, the bins and nodes that were
produced remain. -/
def pack (env : Env) (st : State) (width height : Int) (maxBins : Nat) : Option (Bool × State) := do
  if st.margin > width then return (false, st)
  if st.margin > (← chk env (width - st.margin)) then return (false, st)
  if st.margin > height then return (false, st)
  if st.margin > (← chk env (height - st.margin)) then return (false, st)
  let m2 ← chk env (2 * st.margin)
  let root : Root := ⟨st.margin, st.margin, ← chk env (width - m2), ← chk env (height - m2)⟩
  if st.nodes = [] then
    if st.bins = [] then packLoop env root maxBins (order st.rects) st else none
  else none

/-- `get_num_bins()`: rectangle_packer.hpp:232-236. -/
def numBins (st : State) : Nat := st.bins.length

/-- `get_utilized_width()`: rectangle_packer.hpp:239-245. -/
def utilizedWidth (env : Env) (st : State) (b : Nat) : Option Int := do
  chk env ((← st.bins[b]?).maxX + st.margin)

/-- `get_utilized_height()`: rectangle_packer.hpp:248-254. -/
def utilizedHeight (env : Env) (st : State) (b : Nat) : Option Int := do
  chk env ((← st.bins[b]?).maxY + st.margin)

/-- `get_rect_pos()`: rectangle_packer.hpp:257-274. The result is the bin index and the position. -/
def rectPos (st : State) (k : Nat) : Option (Nat × Int × Int) := do
  let rect ← st.rects[k]?
  some (rect.bin, rect.x, rect.y)

end Verif.RectPacker
