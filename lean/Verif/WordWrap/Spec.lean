import Mathlib.Algebra.BigOperators.Group.Finset.Basic
import Mathlib.Algebra.BigOperators.Intervals
/-!
Ways to break a sequence of words into lines.

Words are numbered from zero. A way to break them into lines is given by the list of the numbers of those words that come first on a
line, without the first word.
-/
namespace Verif.WordWrap.Spec

/-- What is to be broken into lines: the number of words, the size of each word, the size of the space before each word, the size of the
space after the last word, and the size of each line. -/
structure Text where
  n : Nat
  size : Nat → Nat
  space : Nat → Nat
  trailing : Nat
  line : Nat → Nat

/-- The size of a line that contains the words from `i` to before `j`. Space at a line break does not count, but space before the first
word and space after the last word do. -/
def Text.width (t : Text) (i j : Nat) : Nat :=
  ∑ k ∈ Finset.Ico i j, t.size k + ∑ k ∈ Finset.Ico (i + 1) j, t.space k + (if i = 0 then t.space 0 else 0) +
    (if j = t.n then t.trailing else 0)

/-- A line can contain these words if there is only one, or if there is room for them. -/
def Text.fits (t : Text) (l i j : Nat) : Prop := j = i + 1 ∨ t.width i j ≤ t.line l

/-- A way to break the words from `i` onwards into lines, beginning with line `l`. -/
def Text.Valid (t : Text) : Nat → Nat → List Nat → Prop
  | l, i, [] => i < t.n ∧ t.fits l i t.n
  | l, i, j :: js => i < j ∧ t.fits l i j ∧ t.Valid (l + 1) j js

/-- The sum of the squares of the gaps at the end of all lines except the last one. -/
def Text.badness (t : Text) : Nat → Nat → List Nat → Nat
  | _, _, [] => 0
  | l, i, j :: js => (t.line l - t.width i j) ^ 2 + t.badness (l + 1) j js

/-- As many words as possible are put on each line. -/
def Text.Greedy (t : Text) : Nat → Nat → List Nat → Prop
  | _, _, [] => True
  | l, i, j :: js => ¬ t.fits l i (j + 1) ∧ t.Greedy (l + 1) j js

end Verif.WordWrap.Spec
