/-!
What is expected of a random access iterator that visits every `S`'th element, in terms of the index of the element among those that are
visited.
-/
namespace Verif.StrideIter.Spec

/-- The ways to move an iterator. -/
inductive Op where
  | inc
  | dec
  | postInc
  | postDec
  | add (i : Int)
  | sub (i : Int)
deriving DecidableEq, Repr

/-- The index after the move. -/
def move (k : Int) : Op → Int
  | .inc => k + 1
  | .dec => k - 1
  | .postInc => k + 1
  | .postDec => k - 1
  | .add i => k + i
  | .sub i => k - i

/-- Each move is by a distance that is representable in the difference type. -/
def InRange (N S : Nat) : Op → Prop
  | .add i => -(2 ^ (N - 1)) ≤ i * S ∧ i * S < 2 ^ (N - 1)
  | .sub i => -(2 ^ (N - 1)) ≤ i * S ∧ i * S < 2 ^ (N - 1)
  | _ => True

end Verif.StrideIter.Spec
