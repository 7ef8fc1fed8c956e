import Verif.Deque.Model
/-
What the deque operations are supposed to do, in terms of lists.
-/
namespace Verif.Deque.Spec
open Uninit

/-- The deque holds exactly these elements: going around its memory from `offset`, they are in the first slots, and no
other object exists in its memory. The two disjuncts are the documented invariants (deque.hpp:221-243). -/
structure Holds (E : Env) (d : Deq α) (xs : List α) : Prop where
  mem_size : d.mem.size = d.alloc
  alloc_max : d.alloc ≤ E.M
  size : d.size = xs.length
  layout : (d.alloc = 0 ∧ d.offset = 0 ∧ d.size = 0) ∨ (d.offset < d.alloc ∧ d.size < d.alloc)
  live : ∀ j, j < d.alloc → d.mem.get j = xs[(j + d.alloc - d.offset) % d.alloc]?
  none : ∀ j, d.alloc ≤ j → d.mem.get j = none

/-- Operations other than `erase`. A value `none` is a constructor call that throws. -/
inductive Op (α : Type u) where
  | pushFront (x : Option α)
  | pushBack (x : Option α)
  | popFront
  | popBack
  | appendFill (n : Nat) (x : α)
  | appendRange (xs : List (Option α))
  | clear
  | reserve (n : Nat)
  | reserveExtra (n : Nat)
  | shrinkToFit
  | assignFill (n : Nat) (x : α)
  | assignRange (xs : List (Option α))
  | resize (n : Nat) (x : α)

/-- When the operation is allowed. -/
def Op.Pre (xs : List α) : Op α → Prop
  | .popFront => xs ≠ []
  | .popBack => xs ≠ []
  | _ => True

/-- The values without the constructor calls that throw. -/
def values (xs : List (Option α)) : List α := xs.filterMap id

/-- Effect when there is no exception. -/
def Op.effect (xs : List α) : Op α → List α
  | .pushFront x => values [x] ++ xs
  | .pushBack x => xs ++ values [x]
  | .popFront => xs.tail
  | .popBack => xs.dropLast
  | .appendFill n x => xs ++ List.replicate n x
  | .appendRange ys => xs ++ values ys
  | .clear => []
  | .reserve _ => xs
  | .reserveExtra _ => xs
  | .shrinkToFit => xs
  | .assignFill n x => List.replicate n x
  | .assignRange ys => values ys
  | .resize n x => xs.take n ++ List.replicate (n - xs.length) x

/-- Effect when there is an exception: none, except that `assign` first removes all elements. -/
def Op.excEffect (xs : List α) : Op α → List α
  | .assignFill _ _ => []
  | .assignRange _ => []
  | _ => xs

/-- A constructor call of the operation throws. -/
def Op.Throws : Op α → Prop
  | .pushFront x => x = none
  | .pushBack x => x = none
  | .appendRange ys => none ∈ ys
  | .assignRange ys => none ∈ ys
  | _ => False

/-- The capacity that the operation needs. -/
def Op.need (xs : List α) : Op α → Nat
  | .pushFront _ => xs.length + 1
  | .pushBack _ => xs.length + 1
  | .appendFill n _ => xs.length + n
  | .appendRange ys => xs.length + ys.length
  | .reserve n => n
  | .reserveExtra n => xs.length + n
  | .shrinkToFit => xs.length
  | .assignFill n _ => n
  | .assignRange ys => ys.length
  | .resize n _ => n
  | _ => xs.length

/-- Carrying out an operation. -/
def run (E : Env) (d : Deq α) : Op α → Out (Deq α)
  | .pushFront x => emplaceFront E d x
  | .pushBack x => emplaceBack E d x
  | .popFront => popFront d
  | .popBack => popBack d
  | .appendFill n x => appendFill E d (List.replicate n (some x))
  | .appendRange ys => appendRange E d ys
  | .clear => clear d
  | .reserve n => reserve E d n
  | .reserveExtra n => reserveExtra E d n
  | .shrinkToFit => shrinkToFit E d
  | .assignFill n x => assignFill E d (List.replicate n (some x))
  | .assignRange ys => assignRange E d ys
  | .resize n x => resize E d n x

/-- The executions of a program that uses a deque: the deque and the list of elements that it ought to have. A program
may also erase, between iterators to positions `i` and `j`; the executions continue after it if it did not have
undefined behavior. -/
inductive Reach (E : Env) : Deq α → List α → Prop where
  | init : Reach E empty []
  | ok : Reach E d xs → op.Pre xs → run E d op = .ok d' → Reach E d' (op.effect xs)
  | exc : Reach E d xs → op.Pre xs → run E d op = .exc e d' → Reach E d' (op.excEffect xs)
  | erase : Reach E d xs → i ≤ j → j ≤ xs.length → erase d (wrap d i) (wrap d j) = .ok (d', k) →
      Reach E d' (xs.take i ++ xs.drop j)

end Verif.Deque.Spec
