import Verif.Uninit.Model
/-
Model of /repo/src/archon/core/vector.hpp (`core::Vector<T, N>`) and
/repo/src/archon/core/impl/vector_impl.hpp (`impl::VectorImpl<T>`), for element types with a non-throwing move
constructor. The functions of `Vector` that only forward to `VectorImpl` are identified with them.
-/
namespace Verif.Vector
open Uninit

/-- What `m_data` refers to: the memory inside the vector object, owned memory (`m_owned_memory`), or nothing (a null
pointer is a block without slots). -/
inductive Data (α : Type u) where
  | static
  | heap (m : Mem α)
  | null (m : Mem α)

/-- A vector object: vector_impl.hpp:75-79 and vector.hpp:250-255 (`StaticMemAndImpl`). `gen` counts the reallocations; it is
not part of the code (it identifies the block of memory that pointers to elements point into). -/
structure Vec (α : Type u) where
  static : Mem α
  data : Data α
  cap : Nat
  size : Nat
  gen : Nat

/-- The memory that `data()` points to: vector_impl.hpp:146-150. -/
def Vec.mem (v : Vec α) : Mem α :=
  match v.data with
  | .static => v.static
  | .heap m => m
  | .null m => m

/-- The vector after a change of the memory that `data()` points to. -/
def Vec.setMem (v : Vec α) (m : Mem α) : Vec α :=
  match v.data with
  | .static => { v with static := m }
  | .heap _ => { v with data := .heap m }
  | .null _ => { v with data := .null m }

/-- `Vector()`: vector.hpp:277-281, and `reset()` on a new object: vector_impl.hpp:105-113. -/
def empty (N : Nat) : Vec α := ⟨Mem.fresh N, .static, N, 0, 0⟩

/-- `destroy()`: vector_impl.hpp:348-352, also the destructor: vector_impl.hpp:98-102. -/
def destroyAll (v : Vec α) : Out (Vec α) := (destroy v.mem 0 v.size).map v.setMem

/-- `reset()`: vector_impl.hpp:105-113. -/
def reset (N : Nat) (v : Vec α) : Out (Vec α) :=
  (destroyAll v).bind fun v => .ok { v with data := .static, cap := N, size := 0, gen := v.gen + 1 }

/-- Whether there is owned memory. -/
def Vec.owned (v : Vec α) : Bool := match v.data with | .heap _ => true | _ => false

/-- `VectorImpl::move()`: vector_impl.hpp:116-134. The state is the pair of this vector and the other vector. -/
def move (v o : Vec α) : Out (Vec α × Vec α) :=
  if v.owned then .abort
  else if ¬ v.size = 0 then .abort
  else
    match o.data with
    | .heap m =>
      .ok ({ v with data := .heap m, cap := o.cap, size := o.size }, { o with data := .null (Mem.fresh 0), cap := 0, size := 0 })
    | _ =>
      match safeMove o.mem 0 v.mem 0 o.size with
      | .ok (m1, m2) =>
        .ok ({ v.setMem m2 with cap := o.cap, size := o.size }, { o.setMem m1 with cap := 0, size := 0 })
      | .exc e _ => .exc e (v, o)
      | .ub => .ub
      | .abort => .abort

/-- `Vector(Vector&&)`: vector.hpp:284-289. -/
def moveConstruct (N : Nat) (o : Vec α) : Out (Vec α × Vec α) := move (empty N) o

/-- `Vector::operator=(Vector&&)`: vector.hpp:324-330, for two different vectors. -/
def moveAssign (N : Nat) (v o : Vec α) : Out (Vec α × Vec α) :=
  match reset N v with
  | .ok v => move v o
  | .exc e v => .exc e (v, o)
  | .ub => .ub
  | .abort => .abort

/-- `realloc()`: vector_impl.hpp:332-345. -/
def realloc (E : Env) (v : Vec α) (newCap : Nat) : Out (Vec α) :=
  if ¬ newCap ≥ v.size then .abort
  else if newCap * E.sz > E.M then .exc .lengthError v
  else if ¬ E.alloc (newCap * E.sz) then .exc .badAlloc v
  else
    match safeMove v.mem 0 (Mem.fresh newCap) 0 v.size with
    | .ok (old, new) =>
      if old.clean then .ok { v.setMem old with data := .heap new, cap := newCap, gen := v.gen + 1 } else .ub
    | .exc e _ => .exc e v
    | .ub => .ub
    | .abort => .abort

/-- `do_reserve()`: vector_impl.hpp:324-329. -/
def doReserve (E : Env) (v : Vec α) (minCap : Nat) : Out (Vec α) :=
  match Buffer.suggestNewBufferSize v.cap minCap E.M with
  | .ok n => realloc E v n
  | .error _ => .abort

/-- `do_reserve_extra()`: vector_impl.hpp:312-321. -/
def doReserveExtra (E : Env) (v : Vec α) (minExtra : Nat) : Out (Vec α) :=
  if v.size + minExtra ≤ E.M then doReserve E v (v.size + minExtra) else .exc .lengthError v

/-- `reserve_extra()`: vector_impl.hpp:174-180. -/
def reserveExtra (E : Env) (v : Vec α) (minExtra : Nat) : Out (Vec α) :=
  if minExtra ≤ v.cap - v.size then .ok v else doReserveExtra E v minExtra

/-- `reserve()`: vector_impl.hpp:183-189. -/
def reserve (E : Env) (v : Vec α) (minCap : Nat) : Out (Vec α) :=
  if minCap ≤ v.cap then .ok v else doReserveExtra E v minCap

/-- `shrink_to_fit()`: vector_impl.hpp:192-199. -/
def shrinkToFit (E : Env) (v : Vec α) : Out (Vec α) :=
  if v.owned ∧ v.size < v.cap then realloc E v v.size else .ok v

/-- `emplace_back()`, `push_back()`: vector_impl.hpp:202-208. `x` is the constructed object; `none` if the constructor
throws. -/
def emplaceBack (E : Env) (v : Vec α) (x : Option α) : Out (Vec α) :=
  (reserveExtra E v 1).bind fun v =>
    ((construct v.mem v.size x).map v.setMem).bind fun v => .ok { v with size := v.size + 1 }

/-- `push_back(v[i])`: vector_impl.hpp:202-208 where the argument is a reference to element `i` of the vector itself
(a reference into the block of memory that the vector had at the time of the call). The copy constructor does not
throw. -/
def pushBackOwn (E : Env) (v : Vec α) (i : Nat) : Out (Vec α) :=
  (reserveExtra E v 1).bind fun v' =>
    if v'.gen = v.gen ∧ i < v'.mem.size ∧ (v'.mem.get i).isSome then
      ((construct v'.mem v'.size (v'.mem.get i)).map v'.setMem).bind fun v => .ok { v with size := v.size + 1 }
    else .ub

/-- `pop_back()`: vector_impl.hpp:211-218. -/
def popBack (v : Vec α) : Out (Vec α) :=
  if ¬ v.size > 0 then .abort
  else ((destroy v.mem (v.size - 1) 1).map v.setMem).bind fun v => .ok { v with size := v.size - 1 }

/-- `append(std::size_t, const T&)`: vector_impl.hpp:221-227. One entry of the list for each copy; `none` if the copy
constructor throws. -/
def appendFill (E : Env) (v : Vec α) (xs : List (Option α)) : Out (Vec α) :=
  (reserveExtra E v xs.length).bind fun v =>
    ((safeFill v.mem v.size 0 xs).map v.setMem).bind fun v => .ok { v with size := v.size + xs.length }

/-- `append(I, I)` for random access iterators: vector_impl.hpp:230-239. -/
def appendRange (E : Env) (v : Vec α) (xs : List (Option α)) : Out (Vec α) :=
  (reserveExtra E v xs.length).bind fun v =>
    ((safeCopy v.mem v.size 0 xs).map v.setMem).bind fun v => .ok { v with size := v.size + xs.length }

/-- `append(I, I)` for input iterators: `Vector::do_append()`, vector.hpp:743-748. -/
def appendInput (E : Env) (v : Vec α) : List (Option α) → Out (Vec α)
  | [] => .ok v
  | x :: xs => (emplaceBack E v x).bind fun v => appendInput E v xs

/-- `insert()`: vector_impl.hpp:242-258. An offset past the end would make `move_size` wrap around. -/
def insert (E : Env) (v : Vec α) (offset : Nat) (x : Option α) : Out (Vec α) :=
  (reserveExtra E v 1).bind fun v =>
    if offset > v.size then .ub
    else
      let moveSize := v.size - offset
      let moveDist := 1
      ((moveUpwards v.mem offset moveSize moveDist).map v.setMem).bind fun v =>
        (((construct v.mem offset x).onExc fun m =>
          moveDownwards m (offset + moveDist) moveSize moveDist).map v.setMem).bind fun v =>
            .ok { v with size := v.size + 1 }

/-- `erase()`: vector_impl.hpp:261-273. -/
def eraseImpl (v : Vec α) (offset n : Nat) : Out (Vec α) :=
  if ¬ (offset ≤ v.size ∧ n ≤ v.size - offset) then .abort
  else if ¬ n > 0 then .abort
  else
    ((destroy v.mem offset n).map v.setMem).bind fun v =>
      let offset2 := offset + n
      let moveSize := v.size - offset2
      ((moveDownwards v.mem offset2 moveSize n).map v.setMem).bind fun v => .ok { v with size := v.size - n }

/-- `Vector::erase(const_iterator, const_iterator)`: vector.hpp:648-657. An end before the beginning would make `n` wrap
around. -/
def erase (v : Vec α) (i j : Nat) : Out (Vec α) :=
  if j < i then .abort
  else if j - i > 0 then eraseImpl v i (j - i) else .ok v

/-- `clear()`: vector_impl.hpp:276-281. -/
def clear (v : Vec α) : Out (Vec α) :=
  ((destroy v.mem 0 v.size).map v.setMem).bind fun v => .ok { v with size := 0 }

/-- `resize(std::size_t)` and `resize(std::size_t, const T&)`: vector_impl.hpp:284-295 and 298-309. `x` is the default
constructed element or the given value; the constructor does not throw. -/
def resize (E : Env) (v : Vec α) (n : Nat) (x : α) : Out (Vec α) :=
  (if n ≤ v.size then (destroy v.mem n (v.size - n)).map v.setMem
   else (reserve E v n).bind fun v => (safeFill v.mem v.size 0 (List.replicate n (some x))).map v.setMem).bind
    fun v => .ok { v with size := n }

/-- `assign(size_type, const T&)`: vector.hpp:341-346. -/
def assignFill (E : Env) (v : Vec α) (xs : List (Option α)) : Out (Vec α) :=
  (clear v).bind fun v => appendFill E v xs

/-- `assign(I, I)` for random access iterators, also `assign(std::initializer_list)`: vector.hpp:333-338, 349-354. -/
def assignRange (E : Env) (v : Vec α) (xs : List (Option α)) : Out (Vec α) :=
  (clear v).bind fun v => appendRange E v xs

/-- `operator[]`: vector.hpp:373-384 (`front()` and `back()` are `operator[]` of 0 and of `size() - 1`). -/
def index (v : Vec α) (i : Nat) : Option α := if i < v.mem.size then v.mem.get i else none

/-- Result of `at()`. -/
inductive AtResult (α : Type u) where
  | value (x : α)
  | outOfRange
  | ub
deriving DecidableEq, Repr

/-- `at()`: vector.hpp:357-370, with `verify_index()`: vector_impl.hpp:137-143. -/
def at_ (v : Vec α) (i : Nat) : AtResult α :=
  if i < v.size then
    match index v i with
    | some x => .value x
    | none => .ub
  else .outOfRange

/-- The elements between `begin()` and `end()`: vector.hpp:443-476; `none` if one of them does not exist. -/
def contents (v : Vec α) : Option (List α) := (List.range v.size).mapM (index v)

end Verif.Vector
