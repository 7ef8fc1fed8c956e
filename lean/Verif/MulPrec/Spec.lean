/-!
The values of multiple precision integers.
-/
namespace Verif.MulPrec.Spec

/-- The value of a sequence of digits, the least significant first, in radix `2^w`. -/
def uval (w : Nat) : List Nat → Nat
  | [] => 0
  | x :: xs => x + 2 ^ w * uval w xs

/-- An object of the type: `N` parts of `w` bits. -/
def Valid (w N : Nat) (a : List Nat) : Prop := a.length = N ∧ ∀ x ∈ a, x < 2 ^ w

/-- The represented value: two's complement with `w * N` bits if the type is signed. -/
def value (w N : Nat) (S : Bool) (a : List Nat) : Int :=
  if S = true ∧ 2 ^ (w * N - 1) ≤ uval w a then (uval w a : Int) - 2 ^ (w * N) else uval w a

/-- The values of the type. -/
def Fits (w N : Nat) (S : Bool) (x : Int) : Prop :=
  if S then -(2 ^ (w * N - 1)) ≤ x ∧ x < 2 ^ (w * N - 1) else 0 ≤ x ∧ x < 2 ^ (w * N)

/-- The value of the type that is congruent to `x` modulo `2^(w * N)`. -/
def wrap (w N : Nat) (S : Bool) (x : Int) : Int :=
  if S then (x + 2 ^ (w * N - 1)) % 2 ^ (w * N) - 2 ^ (w * N - 1) else x % 2 ^ (w * N)

end Verif.MulPrec.Spec
