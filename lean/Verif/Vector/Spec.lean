import Verif.Vector.Model
/-
What the vector operations are supposed to do, in terms of lists.
-/
namespace Verif.Vector.Spec
open Uninit

/-- The vector holds exactly these elements: they are in the first slots of its memory, and no other object exists
in its memory. -/
structure Holds (E : Env) (v : Vec α) (xs : List α) : Prop where
  size : v.size = xs.length
  le_cap : v.size ≤ v.cap
  cap_le : v.cap ≤ v.mem.size
  cap_max : v.cap ≤ E.M
  get : ∀ j, v.mem.get j = xs[j]?
  static : v.data ≠ .static → ∀ j, v.static.get j = none

/-- Operations. An entry `none` of a list of values, or value `none`, is a constructor call that throws. -/
inductive Op (α : Type u) where
  | pushBack (x : Option α)
  | popBack
  | appendFill (n : Nat) (x : α)
  | appendRange (xs : List (Option α))
  | insert (i : Nat) (x : Option α)
  | erase (i j : Nat)
  | clear
  | reserve (n : Nat)
  | reserveExtra (n : Nat)
  | shrinkToFit
  | assignFill (n : Nat) (x : α)
  | assignRange (xs : List (Option α))
  | resize (n : Nat) (x : α)

/-- When the operation is allowed. Growing a non-empty vector by `resize` is left out (see C18). -/
def Op.Pre (xs : List α) : Op α → Prop
  | .popBack => xs ≠ []
  | .insert i _ => i ≤ xs.length
  | .erase i j => i ≤ j ∧ j ≤ xs.length
  | .resize n _ => n ≤ xs.length ∨ xs = []
  | _ => True

/-- The values without the constructor calls that throw. -/
def values (xs : List (Option α)) : List α := xs.filterMap id

/-- Effect when there is no exception. -/
def Op.effect (xs : List α) : Op α → List α
  | .pushBack x => xs ++ values [x]
  | .popBack => xs.dropLast
  | .appendFill n x => xs ++ List.replicate n x
  | .appendRange ys => xs ++ values ys
  | .insert i x => xs.take i ++ values [x] ++ xs.drop i
  | .erase i j => xs.take i ++ xs.drop j
  | .clear => []
  | .reserve _ => xs
  | .reserveExtra _ => xs
  | .shrinkToFit => xs
  | .assignFill n x => List.replicate n x
  | .assignRange ys => values ys
  | .resize n x => xs.take n ++ List.replicate (n - xs.length) x

/-- Effect when there is an exception: none, except that `assign` first removes all elements. -/
def Op.excEffect (xs : List α) : Op α → List α
  | .assignFill _ _ => []
  | .assignRange _ => []
  | _ => xs

/-- A constructor call of the operation throws. -/
def Op.Throws : Op α → Prop
  | .pushBack x => x = none
  | .appendRange ys => none ∈ ys
  | .insert _ x => x = none
  | .assignRange ys => none ∈ ys
  | _ => False

/-- The capacity that the operation needs. -/
def Op.need (xs : List α) : Op α → Nat
  | .pushBack _ => xs.length + 1
  | .appendFill n _ => xs.length + n
  | .appendRange ys => xs.length + ys.length
  | .insert _ _ => xs.length + 1
  | .reserve n => xs.length + n
  | .reserveExtra n => xs.length + n
  | .shrinkToFit => xs.length
  | .assignFill n _ => n
  | .assignRange ys => ys.length
  | .resize n _ => n
  | _ => xs.length

/-- Carrying out an operation. -/
def run (E : Env) (v : Vec α) : Op α → Out (Vec α)
  | .pushBack x => emplaceBack E v x
  | .popBack => popBack v
  | .appendFill n x => appendFill E v (List.replicate n (some x))
  | .appendRange ys => appendRange E v ys
  | .insert i x => insert E v i x
  | .erase i j => erase v i j
  | .clear => clear v
  | .reserve n => reserve E v n
  | .reserveExtra n => reserveExtra E v n
  | .shrinkToFit => shrinkToFit E v
  | .assignFill n x => assignFill E v (List.replicate n (some x))
  | .assignRange ys => assignRange E v ys
  | .resize n x => resize E v n x

/-- The executions of a program that uses a vector: the vector and the list of elements that it ought to have. -/
inductive Reach (E : Env) (N : Nat) : Vec α → List α → Prop where
  | init : Reach E N (empty N) []
  | ok : Reach E N v xs → op.Pre xs → run E v op = .ok v' → Reach E N v' (op.effect xs)
  | exc : Reach E N v xs → op.Pre xs → run E v op = .exc e v' → Reach E N v' (op.excEffect xs)

end Verif.Vector.Spec
