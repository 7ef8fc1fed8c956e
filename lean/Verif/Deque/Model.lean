import Verif.Uninit.Model
/-
Model of /repo/src/archon/core/deque.hpp (`core::Deque<T>`), for element types with a non-throwing move constructor.

`size_type` arithmetic is done in the natural numbers. Where the code could subtract a larger from a smaller number
there is an explicit check.
-/
namespace Verif.Deque
open Uninit

/-- A deque object: deque.hpp:219-245. `gen` counts the reallocations; it is not part of the code (it identifies the
block of memory that references to elements refer to). -/
structure Deq (α : Type u) where
  mem : Mem α
  offset : Nat
  size : Nat
  alloc : Nat
  gen : Nat

/-- `Deque()`: deque.hpp:114, 219-245. -/
def empty : Deq α := ⟨Mem.fresh 0, 0, 0, 0, 0⟩

/-- `circular_inc()`: deque.hpp:1264-1271. -/
def circularInc (d : Deq α) (i : Nat) : Nat := if i + 1 < d.alloc then i + 1 else 0

/-- `circular_dec()`: deque.hpp:1274-1280. -/
def circularDec (d : Deq α) (i : Nat) : Nat := if i > 0 then i - 1 else d.alloc - 1

/-- `wrap()`: deque.hpp:1283-1290. -/
def wrap (d : Deq α) (i : Nat) : Nat :=
  let top := d.alloc - d.offset
  if i < top then d.offset + i else i - top

/-- `unwrap()`: deque.hpp:1293-1299. -/
def unwrap (d : Deq α) (i : Nat) : Nat :=
  if i ≥ d.offset then i - d.offset else d.alloc - (d.offset - i)

/-- The deque after a change of its memory. -/
def Deq.setMem (d : Deq α) (m : Mem α) : Deq α := { d with mem := m }

/-- `destroy()`: deque.hpp:1011-1024. -/
def destroyFrom (d : Deq α) (offset : Nat) : Out (Deq α) :=
  if ¬ offset ≤ d.size then .abort
  else
    let size := d.size - offset
    let offset2 := wrap d offset
    let top := d.alloc - offset2
    if size > top then
      (((destroy d.mem 0 (size - top)).bind fun m => destroy m offset2 top).map d.setMem)
    else (destroy d.mem offset2 size).map d.setMem

/-- `realloc()`: deque.hpp:1027-1056. Nothing in the two-part branch throws, as move constructors do not throw. -/
def realloc (E : Env) (d : Deq α) (newAlloc : Nat) : Out (Deq α) :=
  if ¬ newAlloc > 1 then .abort
  else if ¬ newAlloc > d.size then .abort
  else if newAlloc * E.sz > E.M then .exc .lengthError d
  else if ¬ E.alloc (newAlloc * E.sz) then .exc .badAlloc d
  else
    let top := d.alloc - d.offset
    if d.size ≤ top then
      match safeMove d.mem d.offset (Mem.fresh newAlloc) 0 d.size with
      | .ok (old, new) => if old.clean then .ok ⟨new, 0, d.size, newAlloc, d.gen + 1⟩ else .ub
      | _ => .ub
    else
      match safeMoveA d.mem d.offset (Mem.fresh newAlloc) 0 top with
      | .ok new =>
        match safeMove d.mem 0 new top (d.size - top) with
        | .ok (old, new) =>
          match destroy old d.offset top with
          | .ok old => if old.clean then .ok ⟨new, 0, d.size, newAlloc, d.gen + 1⟩ else .ub
          | _ => .ub
        | _ => .ub
      | _ => .ub

/-- `reserve()`: deque.hpp:744-763. -/
def reserve (E : Env) (d : Deq α) (minCap : Nat) : Out (Deq α) :=
  if minCap = 0 then .ok d
  else if minCap + 1 ≤ E.M then
    if minCap + 1 ≤ d.alloc then .ok d
    else
      match Buffer.suggestNewBufferSize d.alloc (minCap + 1) E.M with
      | .ok n => realloc E d n
      | .error _ => .abort
  else .exc .lengthError d

/-- `reserve_extra()`: deque.hpp:732-741. -/
def reserveExtra (E : Env) (d : Deq α) (minExtra : Nat) : Out (Deq α) :=
  if d.size + minExtra ≤ E.M then reserve E d (d.size + minExtra) else .exc .lengthError d

/-- `shrink_to_fit()`: deque.hpp:766-782. -/
def shrinkToFit (E : Env) (d : Deq α) : Out (Deq α) :=
  if d.size > 0 then
    if d.size + 1 < d.alloc then realloc E d (d.size + 1) else .ok d
  else if d.mem.clean then .ok ⟨Mem.fresh 0, 0, d.size, 0, d.gen + 1⟩
  else .ub

/-- `capacity()`: deque.hpp:785-789. -/
def capacity (d : Deq α) : Nat := if d.alloc > 0 then d.alloc - 1 else 0

/-- `emplace_front()`, `push_front()`: deque.hpp:820-832. -/
def emplaceFront (E : Env) (d : Deq α) (x : Option α) : Out (Deq α) :=
  (reserve E d (d.size + 1)).bind fun d =>
    if ¬ d.alloc > 0 then .abort
    else
      let i := circularDec d d.offset
      ((construct d.mem i x).map d.setMem).bind fun d => .ok { d with offset := i, size := d.size + 1 }

/-- `emplace_back()`, `push_back()`: deque.hpp:835-846. -/
def emplaceBack (E : Env) (d : Deq α) (x : Option α) : Out (Deq α) :=
  (reserve E d (d.size + 1)).bind fun d =>
    if ¬ d.alloc > 0 then .abort
    else
      let i := wrap d d.size
      ((construct d.mem i x).map d.setMem).bind fun d => .ok { d with size := d.size + 1 }

/-- `push_back(d[k])`: deque.hpp:835-846, where the argument is a reference to element `k` of the deque itself. The
copy constructor does not throw. -/
def pushBackOwn (E : Env) (d : Deq α) (k : Nat) : Out (Deq α) :=
  (reserve E d (d.size + 1)).bind fun d' =>
    if ¬ d'.alloc > 0 then .abort
    else if d'.gen = d.gen ∧ wrap d k < d'.mem.size ∧ (d'.mem.get (wrap d k)).isSome then
      let i := wrap d' d'.size
      ((construct d'.mem i (d'.mem.get (wrap d k))).map d'.setMem).bind fun d => .ok { d with size := d.size + 1 }
    else .ub

/-- `pop_front()`: deque.hpp:849-858. -/
def popFront (d : Deq α) : Out (Deq α) :=
  if ¬ d.size > 0 then .abort
  else ((destroy d.mem d.offset 1).map d.setMem).bind fun d =>
    .ok { d with offset := circularInc d d.offset, size := d.size - 1 }

/-- `pop_back()`: deque.hpp:861-870. -/
def popBack (d : Deq α) : Out (Deq α) :=
  if ¬ d.size > 0 then .abort
  else ((destroy d.mem (wrap d (d.size - 1)) 1).map d.setMem).bind fun d => .ok { d with size := d.size - 1 }

/-- `do_append_1()`: deque.hpp:1059-1080 and 1083-1104. One entry of the list for each constructor call; `none` if the
constructor throws. -/
def appendFill (E : Env) (d : Deq α) (xs : List (Option α)) : Out (Deq α) :=
  (reserveExtra E d xs.length).bind fun d =>
    let offset := wrap d d.size
    let top := d.alloc - offset
    (if xs.length ≤ top then (safeFill d.mem offset 0 xs).map d.setMem
     else ((safeFill d.mem offset 0 (xs.take top)).map d.setMem).bind fun d =>
       ((safeFill d.mem 0 0 (xs.drop top)).onExc fun m => destroy m offset top).map d.setMem).bind fun d =>
    .ok { d with size := d.size + xs.length }

/-- `do_append_2()` for random access iterators: deque.hpp:1123-1145. -/
def appendRange (E : Env) (d : Deq α) (xs : List (Option α)) : Out (Deq α) :=
  (reserveExtra E d xs.length).bind fun d =>
    let offset := wrap d d.size
    let top := d.alloc - offset
    (if xs.length ≤ top then (safeCopy d.mem offset 0 xs).map d.setMem
     else ((safeCopy d.mem offset 0 (xs.take top)).map d.setMem).bind fun d =>
       ((safeCopy d.mem 0 0 (xs.drop top)).onExc fun m => destroy m offset top).map d.setMem).bind fun d =>
    .ok { d with size := d.size + xs.length }

/-- `clear()`: deque.hpp:918-924. -/
def clear (d : Deq α) : Out (Deq α) := (destroyFrom d 0).bind fun d => .ok { d with offset := 0, size := 0 }

/-- `resize()`: deque.hpp:927-937 and 940-950. The constructor does not throw. -/
def resize (E : Env) (d : Deq α) (n : Nat) (x : α) : Out (Deq α) :=
  if n ≤ d.size then (destroyFrom d n).bind fun d => .ok { d with size := n }
  else appendFill E d (List.replicate (n - d.size) (some x))

/-- `assign(size_type, const T&)`: deque.hpp:556-561. -/
def assignFill (E : Env) (d : Deq α) (xs : List (Option α)) : Out (Deq α) := (clear d).bind fun d => appendFill E d xs

/-- `assign(I, I)` for random access iterators and initializer lists: deque.hpp:539-553 and 564-569. -/
def assignRange (E : Env) (d : Deq α) (xs : List (Option α)) : Out (Deq α) :=
  (clear d).bind fun d => appendRange E d xs

/-- The first part of `erase_near_front()`: deque.hpp:1172-1201. Returns the memory and `begin_2`. -/
def eraseNearFront1 (d : Deq α) (b e : Nat) : Out (Mem α × Nat) :=
  let size := e - b
  let top := d.alloc - d.offset
  if d.size > top then
    if e ≤ top then (destroy d.mem (d.offset + b) size).map fun m => (m, b)
    else
      let last (m : Mem α) (after : Nat) : Out (Mem α × Nat) :=
        let n := Nat.min after b
        let b2 := b - n
        (moveUpwardLoop m (d.offset + b2) (after - n) n).map fun m => (m, b2)
      if b ≥ top then
        match (destroy d.mem (b - top) size).bind fun m => moveUpwards m 0 (b - top) size with
        | .ok m => last m size
        | .exc e m => .exc e (m, b)
        | .ub => .ub
        | .abort => .abort
      else
        let after := e - top
        let before := size - after
        match (destroy d.mem (d.offset + b) before).bind fun m => destroy m 0 after with
        | .ok m => last m after
        | .exc e m => .exc e (m, b)
        | .ub => .ub
        | .abort => .abort
  else (destroy d.mem (d.offset + b) size).map fun m => (m, b)

/-- `erase_near_front()`: deque.hpp:1164-1206. -/
def eraseNearFront (d : Deq α) (b e : Nat) : Out (Deq α) :=
  let size := e - b
  if ¬ size > 0 then .abort
  else
    match eraseNearFront1 d b e with
    | .ok (m, b2) =>
      ((moveUpwards m d.offset b2 size).map d.setMem).bind fun d =>
        .ok { d with offset := wrap d size, size := d.size - size }
    | .exc e (m, _) => .exc e (d.setMem m)
    | .ub => .ub
    | .abort => .abort

/-- The first part of `erase_near_back()`: deque.hpp:1217-1251. Returns the memory, `end_2` and `end_3`. -/
def eraseNearBack1 (d : Deq α) (b e : Nat) : Out (Mem α × Nat × Nat) :=
  let size := e - b
  let top := d.alloc - d.offset
  if d.size > top then
    if b ≥ top then (destroy d.mem (b - top) size).map fun m => (m, e, e - top)
    else
      let last (m : Mem α) (after before e2 : Nat) : Out (Mem α × Nat × Nat) :=
        let remain := d.size - e
        let n := Nat.min before remain
        (moveUpwardLoop m after (d.offset + (top - before)) n).map fun m => (m, e2 + n, e2 + n - top)
      if e ≤ top then
        match (destroy d.mem (d.offset + b) size).bind fun m => moveDownwards m (d.offset + e) (top - e) size with
        | .ok m => last m 0 size top
        | .exc e m => .exc e (m, 0, 0)
        | .ub => .ub
        | .abort => .abort
      else
        let after := e - top
        let before := size - after
        match (destroy d.mem (d.offset + b) before).bind fun m => destroy m 0 after with
        | .ok m => last m after before e
        | .exc e m => .exc e (m, 0, 0)
        | .ub => .ub
        | .abort => .abort
  else (destroy d.mem (d.offset + b) size).map fun m => (m, e, d.offset + b + size)

/-- `erase_near_back()`: deque.hpp:1209-1254. An `end_2` past the end makes the size of the last move wrap around. -/
def eraseNearBack (d : Deq α) (b e : Nat) : Out (Deq α) :=
  let size := e - b
  if ¬ size > 0 then .abort
  else
    match eraseNearBack1 d b e with
    | .ok (m, e2, e3) =>
      if e2 > d.size then .ub
      else
        ((moveDownwards m e3 (d.size - e2) size).map d.setMem).bind fun d => .ok { d with size := d.size - size }
    | .exc e (m, _) => .exc e (d.setMem m)
    | .ub => .ub
    | .abort => .abort

/-- `do_erase()`: deque.hpp:1148-1161. -/
def doErase (d : Deq α) (b e : Nat) : Out (Deq α) :=
  if b ≠ e then
    let before := b
    let after := d.size - e
    if after ≤ before then eraseNearBack d b e else eraseNearFront d b e
  else .ok d

/-- `erase(const_iterator, const_iterator)`: deque.hpp:905-915. Iterators are indexes into the memory. The result is
the deque and the returned iterator. -/
def erase (d : Deq α) (i j : Nat) : Out (Deq α × Nat) :=
  let b := unwrap d i
  let e := unwrap d j
  if ¬ b ≤ e then .abort
  else if ¬ e ≤ d.size then .abort
  else (if b ≠ e then doErase d b e else .ok d).map fun d => (d, wrap d b)

/-- `erase(const_iterator)`: deque.hpp:894-902. -/
def eraseOne (d : Deq α) (i : Nat) : Out (Deq α × Nat) :=
  let b := unwrap d i
  if ¬ b + 1 ≤ d.size then .abort
  else (doErase d b (b + 1)).map fun d => (d, wrap d b)

/-- Result of an element access. -/
inductive Access (α : Type u) where
  | value (x : α)
  | outOfRange
  | ub
  | abort
deriving DecidableEq, Repr

/-- Reading a slot. -/
def read (d : Deq α) (j : Nat) : Access α :=
  if j < d.mem.size then
    match d.mem.get j with
    | some x => .value x
    | none => .ub
  else .ub

/-- `operator[]`: deque.hpp:588-602 (`front()` and `back()` are `operator[]` of 0 and of `size() - 1`). -/
def index (d : Deq α) (i : Nat) : Access α := if ¬ i < d.size then .abort else read d (wrap d i)

/-- `at()`: deque.hpp:572-585. -/
def at_ (d : Deq α) (i : Nat) : Access α := if i < d.size then index d i else .outOfRange

/-! Iterators: deque.hpp:279-452. An iterator is an index into the memory. -/

/-- `begin()`: deque.hpp:633-637. -/
def begin_ (d : Deq α) : Nat := d.offset
/-- `end()`: deque.hpp:654-659. -/
def end_ (d : Deq α) : Nat := wrap d d.size
/-- `operator*()`: deque.hpp:305-309. -/
def iterDeref (d : Deq α) (i : Nat) : Access α := read d i
/-- `operator++()`: deque.hpp:323-327. -/
def iterInc (d : Deq α) (i : Nat) : Nat := circularInc d i
/-- `operator--()`: deque.hpp:329-333. -/
def iterDec (d : Deq α) (i : Nat) : Nat := circularDec d i
/-- `operator+=()`: deque.hpp:349-362. Unsigned addition modulo `M + 1`; `value` is converted to two's complement. -/
def iterAdd (M : Nat) (d : Deq α) (i : Nat) (value : Int) : Nat :=
  wrap d (((unwrap d i : Int) + value) % (M + 1)).toNat
/-- `operator-=()`: deque.hpp:364-372. -/
def iterSub (M : Nat) (d : Deq α) (i : Nat) (value : Int) : Nat :=
  wrap d (((unwrap d i : Int) - value) % (M + 1)).toNat
/-- `operator-()`: deque.hpp:395-401, `core::cast_from_twos_compl_a` of the difference modulo `M + 1` (see C21). -/
def iterDiff (d : Deq α) (M : Nat) (i j : Nat) : Int :=
  let r := ((unwrap d i : Int) - unwrap d j) % (M + 1)
  if r ≤ M / 2 then r else r - (M + 1)
/-- `operator==()`: deque.hpp:403-407. -/
def iterEq (_ : Deq α) (i j : Nat) : Bool := i == j
/-- `operator<()`: deque.hpp:414-420. -/
def iterLt (d : Deq α) (i j : Nat) : Bool := unwrap d i < unwrap d j

/-- The elements met when going from `begin()` until `end()`, at most `n` of them (`none` if an element does not
exist). -/
def iterate (d : Deq α) : Nat → Nat → Option (List α)
  | 0, _ => some []
  | n + 1, i =>
    if iterEq d i (end_ d) then some []
    else
      match iterDeref d i with
      | .value x => (iterate d n (iterInc d i)).map (x :: ·)
      | _ => none

/-- The elements between `begin()` and `end()`. -/
def contents (d : Deq α) : Option (List α) := iterate d (d.alloc + 1) (begin_ d)

/-- `operator=(const Deque&)`: deque.hpp:515-521, for two different deques. -/
def copyAssign (E : Env) (d : Deq α) (other : List (Option α)) : Out (Deq α) :=
  (clear d).bind fun d => appendRange E d other

/-- `operator=(const Deque&)`: deque.hpp:515-521, when the other deque is the same object. The range is evaluated
after `clear()`. -/
def copyAssignSelf (E : Env) (d : Deq α) : Out (Deq α) :=
  (clear d).bind fun d =>
    match contents d with
    | some xs => appendRange E d (xs.map some)
    | none => .ub

/-- `operator=(Deque&&)`: deque.hpp:524-536, for two different deques. -/
def moveAssign (d o : Deq α) : Out (Deq α × Deq α) :=
  match destroyFrom d 0 with
  | .ok d =>
    if d.mem.clean then .ok (⟨o.mem, o.offset, o.size, o.alloc, d.gen + 1⟩, ⟨Mem.fresh 0, 0, 0, 0, o.gen + 1⟩)
    else .ub
  | .exc e d => .exc e (d, o)
  | .ub => .ub
  | .abort => .abort

end Verif.Deque
