import Verif.IntText.Spec
/-!
Specification of hex dumps.
-/
namespace Verif.HexDump.Spec

/-- The text of an element of an integer type of the given width: the digits of its two's complement representation. By
default, there is one digit for each 4 bits. -/
def elemText (width : Nat) (minDigits : Int) (x : Int) : List Nat :=
  Verif.IntText.Spec.numeral false 16 (if minDigits ≤ 0 then (width + 3) / 4 else minDigits.toNat) (x % 2 ^ width)

/-- The complete dump. -/
def complete (sep : List C) : List (List C) → List C
  | [] => []
  | [t] => t
  | t :: u :: ts => t ++ sep ++ complete sep (u :: ts)

/-- What must be shown when there is a limit: everything if it fits, otherwise as many elements as possible, followed by
an ellipsis. -/
def IsDump (sep dots : List C) (limit : Nat) (texts : List (List C)) (out : List C) : Prop :=
  ((complete sep texts).length ≤ limit → out = complete sep texts) ∧
  (limit < (complete sep texts).length → ∃ k < texts.length, out = complete sep (texts.take k) ++ dots ∧
    out.length ≤ limit ∧
    ∀ k' ≤ texts.length, (complete sep (texts.take k') ++ dots).length ≤ limit → k' ≤ k)

end Verif.HexDump.Spec
