/-!
# Model of `core::stable_sort()`

Model of `/repo/src/archon/core/algorithm.hpp`.

The range is a list, and iterators are positions in it. Copying of elements is assumed not to throw. An access that is
out of range, and an iterator that is moved out of the range, is the outcome `none`. The first argument of a loop bounds
the number of iterations. Running out of it is also the outcome `none`.
-/

namespace Verif.StableSort

variable {α : Type}

/-- Write access. -/
def write (l : List α) (i : Nat) (x : α) : Option (List α) := if i < l.length then some (l.set i x) else none

/-- The `do` loop (`/repo/src/archon/core/algorithm.hpp:61-66`). `k` and `j` are the positions of those names. -/
def moveLoop (j : Nat) : Nat → List α → Nat → Option (List α)
  | 0, _, _ => none
  | fuel + 1, l, k =>
    if k = 0 then none
    else do
      let y ← l[k - 1]?
      let l ← write l k y
      if k - 1 ≠ j then moveLoop j fuel l (k - 1) else some l

/-- The inner `for` loop (`/repo/src/archon/core/algorithm.hpp:56-69`). -/
def innerLoop (compare : α → α → Bool) (i : Nat) : Nat → List α → Nat → Option (List α)
  | 0, _, _ => none
  | fuel + 1, l, j =>
    if j ≠ i then do
      let x ← l[i]?
      let y ← l[j]?
      if !compare x y then innerLoop compare i fuel l (j + 1)
      else do
        let val := x
        let l ← moveLoop j (i + 1) l i
        write l j val
    else some l

/-- The outer `for` loop (`/repo/src/archon/core/algorithm.hpp:55-70`). -/
def outerLoop (compare : α → α → Bool) : Nat → List α → Nat → Option (List α)
  | 0, _, _ => none
  | fuel + 1, l, i =>
    if i ≠ l.length then do
      let l ← innerLoop compare i (i + 1) l 0
      outerLoop compare fuel l (i + 1)
    else some l

/-- `stable_sort()` (`/repo/src/archon/core/algorithm.hpp:53-71`). -/
def stableSort (compare : α → α → Bool) (l : List α) : Option (List α) :=
  outerLoop compare (l.length + 1) l 0

end Verif.StableSort
