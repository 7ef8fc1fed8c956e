import Verif.StringMatcher.Spec
import Verif.StringSplit.Spec
/-!
The language of test filters.
-/
namespace Verif.WildcardFilter.Spec
open Verif.StringMatcher.Spec Verif.StringSplit.Spec

/-- The words of a string: its pieces from left to right, when the delimiter is a space. -/
def Words (space : Int) (s : List Int) (ws : List (List Int)) : Prop :=
  ∃ ps, Pieces space s ps ∧ ws = ps.map fun p => (s.drop p.1).take (p.2 - p.1)

/-- The name matches one of the include patterns, or there are none, and it does not match any of the exclude patterns. -/
def Selected (star : Int) (incl excl : List (List Int)) (name : List Int) : Prop :=
  (incl = [] ∨ ∃ p ∈ incl, Matches star p name) ∧ ¬ ∃ p ∈ excl, Matches star p name

/-- `filter = { include-pattern }, [ '-', { exclude-pattern } ]`. -/
def Parsed (dash : Int) (ws incl excl : List (List Int)) : Prop :=
  [dash] ∉ incl ∧ [dash] ∉ excl ∧ ((ws = incl ∧ excl = []) ∨ ws = incl ++ [dash] :: excl)

end Verif.WildcardFilter.Spec
