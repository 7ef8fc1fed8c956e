import Mathlib.Order.Defs.LinearOrder
/-!
The pieces of a string.
-/
namespace Verif.StringSplit.Spec
variable {C : Type}

/-- The substring with specified beginning and end is a piece: it is not empty, it does not contain the delimiter, it is bounded
to the left by the beginning of the string or by a delimiter, and it is bounded to the right by a delimiter or by the end of the
string. -/
def IsPiece (delim : C) (s : List C) (b e : Nat) : Prop :=
  b < e ∧ e ≤ s.length ∧ (∀ k, b ≤ k → k < e → s[k]? ≠ some delim) ∧ (b = 0 ∨ s[b - 1]? = some delim) ∧
    (e = s.length ∨ s[e]? = some delim)

/-- These are the pieces, from left to right. -/
def Pieces (delim : C) (s : List C) (ps : List (Nat × Nat)) : Prop :=
  (∀ b e, (b, e) ∈ ps ↔ IsPiece delim s b e) ∧ ps.Pairwise (fun x y => x.2 < y.1)

/-- What remains when delimiters are removed at both ends. -/
def Trimmed (delim : C) (s : List C) (b e : Nat) : Prop :=
  b ≤ e ∧ e ≤ s.length ∧ (∀ k, k < s.length → k < b ∨ e ≤ k → s[k]? = some delim) ∧
    (b < e → s[b]? ≠ some delim ∧ s[e - 1]? ≠ some delim)

end Verif.StringSplit.Spec
