/-
Model of /repo/src/archon/core/buffer.hpp (`core::Buffer<T>`) and of `core::suggest_new_buffer_size()` of
/repo/src/archon/core/memory.hpp.

A buffer is its memory, a list of elements (all elements are initialized: the code uses value initializing
`std::make_unique<T[]>()` at buffer.hpp:712, and takes initialized seed memory). Whether the memory is the seed
memory or is owned is not modelled (it affects only deallocation). `M` is the maximum value of `std::size_t`.
`d` is the value initialized element. Allocation does not fail.
-/
namespace Verif.Buffer

/-- Outcomes other than normal return. -/
inductive Err where
  | ub            -- access outside an array, or violated precondition
  | abort         -- `ARCHON_ASSERT` failure
  | lengthError   -- `std::length_error`
  | outOfRange    -- `std::out_of_range`
deriving DecidableEq, Repr

abbrev Res := Except Err

instance [DecidableEq α] : DecidableEq (Res α)
  | .ok a, .ok b => if h : a = b then .isTrue (by rw [h]) else .isFalse (by intro hc; cases hc; exact h rfl)
  | .error a, .error b => if h : a = b then .isTrue (by rw [h]) else .isFalse (by intro hc; cases hc; exact h rfl)
  | .ok _, .error _ => .isFalse (by intro h; cases h)
  | .error _, .ok _ => .isFalse (by intro h; cases h)

/-- `core::suggest_new_buffer_size()`: memory.hpp:253-272. -/
def suggestNewBufferSize (cur min max : Nat) : Res Nat :=
  if ¬ max ≥ cur then .error .abort
  else if ¬ max ≥ min then .error .abort
  else if cur ≥ min then .ok cur
  else
    let half := cur / 2
    if half ≤ max - cur then
      let newSize := cur + half
      if newSize ≥ min then .ok newSize else .ok min
    else .ok max

/-- `std::copy_n(src.data() + i, n, dst.data() + j)`. -/
def copyN (src : List α) (i n : Nat) (dst : List α) (j : Nat) : Res (List α) :=
  if i + n ≤ src.length ∧ j + n ≤ dst.length then
    .ok (dst.take j ++ (src.drop i).take n ++ dst.drop (j + n))
  else .error .ub

/-- `std::fill_n(dst.data() + j, n, val)`. -/
def fillN (dst : List α) (j n : Nat) (val : α) : Res (List α) :=
  if j + n ≤ dst.length then .ok (dst.take j ++ List.replicate n val ++ dst.drop (j + n)) else .error .ub

/-- `Buffer::do_reserve()`: buffer.hpp:706-721. `copy` is the copy function: it gets the new memory, and returns it
with the old contents copied into it. -/
def doReserve (d : α) (mem : List α) (minSize minExtra : Nat) (copy : List α → Res (List α)) (max : Nat) :
    Res (List α) :=
  if minSize ≤ max ∧ minExtra ≤ max - minSize then do
    let newSize ← suggestNewBufferSize mem.length (minSize + minExtra) max
    copy (List.replicate newSize d)
  else .error .lengthError

/-- `Buffer::reserve_extra_a()`: buffer.hpp:607-615. -/
def reserveExtraA (d : α) (mem : List α) (minExtra used : Nat) (copy : List α → Res (List α)) (max : Nat) :
    Res (List α) :=
  if ¬ used ≤ mem.length then .error .abort
  else if minExtra ≤ mem.length - used then .ok mem
  else doReserve d mem used minExtra copy max

/-- `Buffer::reserve_a()`: buffer.hpp:618-625. -/
def reserveA (d : α) (mem : List α) (minSize : Nat) (copy : List α → Res (List α)) (max : Nat) : Res (List α) :=
  if minSize ≤ mem.length then .ok mem else doReserve d mem minSize 0 copy max

/-- `Buffer::reserve_extra()`: buffer.hpp:571-577. -/
def reserveExtra (d : α) (mem : List α) (minExtra used max : Nat) : Res (List α) :=
  reserveExtraA d mem minExtra used (fun new => copyN mem 0 used new 0) max

/-- `Buffer::reserve()`: buffer.hpp:580-586. -/
def reserve (d : α) (mem : List α) (minSize used max : Nat) : Res (List α) :=
  reserveA d mem minSize (fun new => copyN mem 0 used new 0) max

/-- `Buffer::expand_a()`: buffer.hpp:628-634. -/
def expandA (d : α) (mem : List α) (minExtra used max : Nat) : Res (List α) :=
  reserveExtraA d mem minExtra mem.length (fun new => copyN mem 0 used new 0) max

/-- `Buffer::expand()`: buffer.hpp:589-593. -/
def expand (d : α) (mem : List α) (used max : Nat) : Res (List α) := expandA d mem 1 used max

/-- `Buffer::assign()`: buffer.hpp:637-642. -/
def assign (M : Nat) (d : α) (mem data : List α) : Res (List α) := do
  let mem ← reserve d mem data.length 0 M
  copyN data 0 data.length mem 0

/-- `Buffer::append()`: buffer.hpp:653-659. Returns the new memory and the new offset. -/
def append (M : Nat) (d : α) (mem data : List α) (offset : Nat) : Res (List α × Nat) := do
  let mem ← reserveExtra d mem data.length offset M
  let mem ← copyN data 0 data.length mem offset
  .ok (mem, offset + data.length)

/-- `Buffer::append_a()`: buffer.hpp:662-668. -/
def appendA (M : Nat) (d : α) (mem : List α) (val : α) (offset n : Nat) : Res (List α × Nat) := do
  let mem ← reserveExtra d mem n offset M
  let mem ← fillN mem offset n val
  .ok (mem, offset + n)

/-- The common part of `Buffer::prepend()` and `Buffer::prepend_a()`: buffer.hpp:674-678 and 687-691. The copy
function also adjusts the offset, by the difference of the new and the old size of the memory (so by zero when
there was no reallocation). The documented precondition is that the offset is not greater than the size. -/
def prependReserve (M : Nat) (d : α) (mem : List α) (n offset : Nat) : Res (List α × Nat) :=
  if offset > mem.length then .error .ub
  else do
    let used := mem.length - offset
    let mem2 ← reserveExtraA d mem n used (fun new => copyN mem offset used new (new.length - used)) M
    .ok (mem2, offset + (mem2.length - mem.length))

/-- `Buffer::prepend()`: buffer.hpp:671-681. A negative offset would be a wrap around of `std::size_t`. -/
def prepend (M : Nat) (d : α) (mem data : List α) (offset : Nat) : Res (List α × Nat) := do
  let (mem, offset) ← prependReserve M d mem data.length offset
  if offset < data.length then .error .ub
  else do
    let offset := offset - data.length
    let mem ← copyN data 0 data.length mem offset
    .ok (mem, offset)

/-- `Buffer::prepend_a()`: buffer.hpp:684-694. -/
def prependA (M : Nat) (d : α) (mem : List α) (val : α) (offset n : Nat) : Res (List α × Nat) := do
  let (mem, offset) ← prependReserve M d mem n offset
  if offset < n then .error .ub
  else do
    let offset := offset - n
    let mem ← fillN mem offset n val
    .ok (mem, offset)

/-- `Buffer::verify_index()` and `Buffer::at()`: buffer.hpp:422-427, 697-703. -/
def at_ (mem : List α) (i : Nat) : Res α :=
  if i ≤ mem.length then
    match mem[i]? with
    | some x => .ok x
    | none => .error .ub
  else .error .outOfRange

end Verif.Buffer
