import Verif.Buffer.Model
/-
Model of the functions for working with uninitialized memory in /repo/src/archon/core/memory.hpp
(`core::uninit_create()`, `core::uninit_destroy()`, ...), in the version for non-trivial element types
(`Uninit_0<T, false>`).

A block of memory is a number of slots. A slot holds an object (`some x`) or is uninitialized (`none`). Constructing
an object in a slot that is outside the block, or that already holds an object, and reading or destroying an object
that does not exist are undefined behavior (`Out.ub`). (Constructing on top of a live object is in itself only a leak
in C++; it is counted as an error here, because the functions are documented to require uninitialized memory.)

Constructors that get arguments or that copy may throw: the argument of `construct` is the constructed object, or
`none` if the constructor throws. Move constructors and destructors never throw (the containers are modelled for
element types with a non-throwing move constructor).
-/
namespace Verif.Uninit

/-- Exceptions. -/
inductive Exc where
  | lengthError   -- `std::length_error`
  | outOfRange    -- `std::out_of_range`
  | badAlloc      -- `std::bad_alloc`
  | ctor          -- thrown by a constructor of the element type
deriving DecidableEq, Repr

/-- Outcome of an operation on a state: normal return, an exception (with the state left behind), undefined behavior
or an assertion failure. -/
inductive Out (σ : Type u) where
  | ok (s : σ)
  | exc (e : Exc) (s : σ)
  | ub
  | abort
deriving DecidableEq, Repr

/-- Sequencing. -/
def Out.bind (o : Out σ) (f : σ → Out σ) : Out σ :=
  match o with
  | .ok s => f s
  | .exc e s => .exc e s
  | .ub => .ub
  | .abort => .abort

/-- Operation on a part of the state. -/
def Out.map (o : Out σ) (f : σ → τ) : Out τ :=
  match o with
  | .ok s => .ok (f s)
  | .exc e s => .exc e (f s)
  | .ub => .ub
  | .abort => .abort

/-- `catch (...) { handler; throw; }`. -/
def Out.onExc (o : Out σ) (f : σ → Out σ) : Out σ :=
  match o with
  | .exc e s =>
    match f s with
    | .ok s' => .exc e s'
    | r => r
  | r => r

/-- The environment: `M` is the maximum value of `std::size_t`, `sz` is `sizeof (T)`, `alloc` tells whether an
allocation of a given number of bytes succeeds. -/
structure Env where
  M : Nat
  sz : Nat
  alloc : Nat → Bool

/-- The memory allocator can provide a block for `n` elements. -/
def Env.CanAlloc (E : Env) (n : Nat) : Prop := n * E.sz ≤ E.M ∧ E.alloc (n * E.sz)

/-- A block of memory. Only slots below `size` exist. -/
structure Mem (α : Type u) where
  size : Nat
  get : Nat → Option α

/-- A new uninitialized block: `std::make_unique<std::byte[]>()`. -/
def Mem.fresh (n : Nat) : Mem α := ⟨n, fun _ => none⟩

/-- No object exists in the block. A block is not released before this is so: release of a block with objects in it is
counted as an error (`Out.ub`), as those objects are never destroyed. -/
def Mem.clean (m : Mem α) : Bool := (List.range m.size).all fun i => (m.get i).isNone

/-- Change one slot. -/
def Mem.put (m : Mem α) (i : Nat) (v : Option α) : Mem α := ⟨m.size, fun j => if j = i then v else m.get j⟩

/-- Placement new; also `create()`: memory.hpp:281-284. -/
def construct (m : Mem α) (i : Nat) (src : Option α) : Out (Mem α) :=
  if i < m.size ∧ (m.get i).isNone then
    match src with
    | some x => .ok (m.put i (some x))
    | none => .exc .ctor m
  else .ub

/-- Explicit destructor call. -/
def destroyAt (m : Mem α) (i : Nat) : Out (Mem α) :=
  if i < m.size ∧ (m.get i).isSome then .ok (m.put i none) else .ub

/-- `destroy()`: memory.hpp:286-291. `i` is the position of `data` in the block. -/
def destroy (m : Mem α) (i : Nat) : Nat → Out (Mem α)
  | 0 => .ok m
  | n + 1 => (destroyAt m i).bind fun m => destroy m (i + 1) n

/-- The back-out loop of `safe_fill()`: memory.hpp:305-309 and 326-330. -/
def destroyDown (m : Mem α) (base : Nat) : Nat → Out (Mem α)
  | 0 => .ok m
  | i + 1 => (destroyAt m (base + i)).bind fun m => destroyDown m base i

/-- `safe_fill()`: memory.hpp:293-312 and 314-333. One entry of the list for each constructor call. -/
def safeFill (m : Mem α) (base i : Nat) : List (Option α) → Out (Mem α)
  | [] => .ok m
  | s :: rest =>
    match construct m (base + i) s with
    | .ok m => safeFill m base (i + 1) rest
    | r => r.onExc fun m => destroyDown m base i

/-- `safe_copy()`: memory.hpp:335-352. One entry of the list for each constructor call. -/
def safeCopy (m : Mem α) (base i : Nat) : List (Option α) → Out (Mem α)
  | [] => .ok m
  | s :: rest =>
    match construct m (base + i) s with
    | .ok m => safeCopy m base (i + 1) rest
    | r => r.onExc fun m => destroy m base i

/-- Move one object inside a block: `new (&b) T(std::move(a)); a.~T()`. -/
def moveAt (m : Mem α) (a b : Nat) : Out (Mem α) :=
  if a < m.size then
    match m.get a with
    | some x => (construct m b (some x)).bind fun m => destroyAt m a
    | none => .ub
  else .ub

/-- `safe_move()` (memory.hpp:354-367, the non-throwing branch) when both ranges are in the same block, and
`move_downwards()`: memory.hpp:380-391. The loop is from low to high addresses. -/
def moveUpwardLoop (m : Mem α) (a b : Nat) : Nat → Out (Mem α)
  | 0 => .ok m
  | n + 1 => (moveAt m a b).bind fun m => moveUpwardLoop m (a + 1) (b + 1) n

/-- `core::uninit_move_downwards()`: memory.hpp:380-391 and 509-513. `data - dist` must exist if anything is moved. -/
def moveDownwards (m : Mem α) (data size dist : Nat) : Out (Mem α) :=
  if ¬ dist > 0 then .abort
  else if dist ≤ data then moveUpwardLoop m data (data - dist) size
  else if size = 0 then .ok m else .ub

/-- The loop of `move_upwards()`: memory.hpp:393-405, from high to low addresses. -/
def moveDownLoop (m : Mem α) (a b : Nat) : Nat → Out (Mem α)
  | 0 => .ok m
  | n + 1 => (moveAt m (a + n) (b + n)).bind fun m => moveDownLoop m a b n

/-- `core::uninit_move_upwards()`: memory.hpp:393-405 and 516-520. -/
def moveUpwards (m : Mem α) (data size dist : Nat) : Out (Mem α) :=
  if ¬ dist > 0 then .abort else moveDownLoop m data (data + dist) size

/-- `safe_move()` between two blocks (memory.hpp:354-367, the non-throwing branch): from position `a` of the first to
position `b` of the second. -/
def safeMove (src : Mem α) (a : Nat) (dst : Mem α) (b : Nat) : Nat → Out (Mem α × Mem α)
  | 0 => .ok (src, dst)
  | n + 1 =>
    if a < src.size then
      match src.get a with
      | none => .ub
      | some x =>
        match construct dst b (some x), destroyAt src a with
        | .ok dst, .ok src => safeMove src (a + 1) dst (b + 1) n
        | _, _ => .ub
    else .ub

/-- `safe_move_a()` between two blocks (memory.hpp:369-378, the non-throwing branch): the originals are left. The
values of moved-from objects are not read by the callers, so they are left in place. -/
def safeMoveA (src : Mem α) (a : Nat) (dst : Mem α) (b : Nat) : Nat → Out (Mem α)
  | 0 => .ok dst
  | n + 1 =>
    if a < src.size then
      match src.get a with
      | none => .ub
      | some x => (construct dst b (some x)).bind fun dst => safeMoveA src (a + 1) dst (b + 1) n
    else .ub

end Verif.Uninit
