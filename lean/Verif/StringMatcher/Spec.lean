import Mathlib.Order.Defs.LinearOrder
/-!
The language of wildcard patterns.
-/
namespace Verif.StringMatcher.Spec

/-- All characters stand for themselves, except the star, which stands for an arbitrary sequence of characters. -/
def Matches (star : Int) : List Int → List Int → Prop
  | [], w => w = []
  | c :: p, w => if c = star then ∃ u v, w = u ++ v ∧ Matches star p v else ∃ v, w = c :: v ∧ Matches star p v

/-- The pattern with the specified index matches, and none of those before it does. -/
def FirstMatch (star : Int) (patterns : List (List Int)) (w : List Int) (i : Nat) : Prop :=
  ∃ h : i < patterns.length, Matches star patterns[i] w ∧ ∀ j (hj : j < i), ¬ Matches star (patterns[j]'(by omega)) w

/-- Some string (of characters from `lo` to `hi`) is matched by two patterns. -/
def Ambiguous (star lo hi : Int) (patterns : List (List Int)) : Prop :=
  ∃ (w : List Int) (i j : Nat) (_ : i < j) (hj : j < patterns.length), (∀ c ∈ w, lo ≤ c ∧ c ≤ hi) ∧
    Matches star (patterns[i]'(by omega)) w ∧ Matches star patterns[j] w

/-- An operation on a builder: addition of a pattern with an identity, or removal of all patterns. -/
inductive Op where
  | add (pattern : List Int) (ident : Nat)
  | clear

/-- The patterns that a builder holds after a sequence of operations, in order of addition, with their identities. -/
def held : List Op → List (List Int × Nat)
  | ops => ops.foldl (fun ps op => match op with
    | .add p i => ps ++ [(p, i)]
    | .clear => []) []

/-- The characters of the added patterns are in range. -/
def Op.Valid (lo hi : Int) : Op → Prop
  | .add p _ => ∀ c ∈ p, lo ≤ c ∧ c ≤ hi
  | .clear => True

end Verif.StringMatcher.Spec
