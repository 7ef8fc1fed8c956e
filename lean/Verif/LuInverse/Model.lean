import Mathlib.Algebra.Order.Field.Basic

/-!
# Model of decomposition, determinant, and inversion of matrices

Model of the LU decomposition, and of what is based on it in `/repo/src/archon/math/matrix.hpp`. Arithmetic is exact: components are
elements of an ordered field.

A matrix is a function from row and column index to component. Its size is passed along. Every access happens inside the specified
size (this is clear from the limits of the loops, and from `C119_pivots`).
-/

namespace Verif.LuInverse

/-- A matrix. -/
abbrev Mat (K : Type) : Type := ℕ → ℕ → K

/-- `for (int i = a; i < b; ++i) s = f(i, s)`. -/
def loopN {S : Type} (f : ℕ → S → S) : ℕ → ℕ → S → S
  | _, 0, s => s
  | a, n + 1, s => loopN f (a + 1) n (f a s)

@[inherit_doc loopN] def loop {S : Type} (a b : ℕ) (f : ℕ → S → S) (s : S) : S := loopN f a (b - a) s

/-- As `loopN`, but with the ability to return early from the surrounding function. -/
def loopON {S : Type} (f : ℕ → S → Option S) : ℕ → ℕ → S → Option S
  | _, 0, s => some s
  | a, n + 1, s => (f a s).bind (loopON f (a + 1) n)

@[inherit_doc loopON] def loopO {S : Type} (a b : ℕ) (f : ℕ → S → Option S) (s : S) : Option S := loopON f a (b - a) s

/-- `for (int j = b; j > 0; --j) s = f(j, s)`. -/
def loopDown {S : Type} (f : ℕ → S → S) : ℕ → S → S
  | 0, s => s
  | j + 1, s => loopDown f j (f (j + 1) s)

section

variable {K : Type} [Field K] [LinearOrder K]

/-- `mat[i][j] = x`. -/
def Mat.set (m : Mat K) (i j : ℕ) (x : K) : Mat K := fun a b => if a = i ∧ b = j then x else m a b

/-- `mat[i] = row`. -/
def Mat.setRow (m : Mat K) (i : ℕ) (row : ℕ → K) : Mat K := fun a => if a = i then row else m a

/-- `mat.get_col(j)`. -/
def Mat.col (m : Mat K) (j : ℕ) : ℕ → K := fun a => m a j

/-- `mat.set_col(j, col)`. -/
def Mat.setCol (m : Mat K) (j : ℕ) (col : ℕ → K) : Mat K := fun a b => if b = j then col a else m a b

/-- Search for a pivot in `decompose()` (`/repo/src/archon/math/matrix.hpp:1121-1130`). -/
def findPivot (M : ℕ) (m : Mat K) (j : ℕ) : ℕ × K :=
  loop (j + 1) M (fun i s =>
    let w := |m i j|
    if s.2 < w then (i, w) else s) (j, |m j j|)

/-- Computation of elements below the diagonal in `decompose()` (`/repo/src/archon/math/matrix.hpp:1139-1144`). -/
def scaleColumn (M : ℕ) (m : Mat K) (j : ℕ) : Mat K :=
  if j + 1 < M then
    let v := 1 / m j j
    loop (j + 1) M (fun i m => m.set i j (m i j * v)) m
  else m

/-- Update of the trailing submatrix in `decompose()` (`/repo/src/archon/math/matrix.hpp:1147-1154`). -/
def updateTrailing (M N : ℕ) (m : Mat K) (j : ℕ) : Mat K :=
  if j + 1 < N then
    loop (j + 1) M (fun i m =>
      let a := m i j
      loop (j + 1) N (fun k m => m.set i k (m i k - a * m j k)) m) m
  else m

/-- Body of the outer loop in `decompose()` (`/repo/src/archon/math/matrix.hpp:1120-1155`). -/
def decomposeStep (M N : ℕ) (j : ℕ) (s : Mat K × List ℕ) : Mat K × List ℕ :=
  let m := s.1
  let pv := findPivot M m j
  let pivots := s.2 ++ [pv.1]
  let m := if pv.2 ≠ 0 then
      let row := m j
      let m := m.setRow j (m pv.1)
      let m := m.setRow pv.1 row
      scaleColumn M m j
    else m
  (updateTrailing M N m j, pivots)

/-- `decompose()` (`/repo/src/archon/math/matrix.hpp:1114-1158`). -/
def decompose (M N : ℕ) (m : Mat K) : Mat K × List ℕ :=
  loop 0 (min M N) (decomposeStep M N) (m, [])

/-- `det()` (`/repo/src/archon/math/matrix.hpp:922-936`). -/
def det (N : ℕ) (a : Mat K) : K :=
  let (b, pivots) := decompose N N a
  let n := loop 0 N (fun i n => if pivots.getD i 0 ≠ i then n + 1 else n) 0
  let c := loop 0 N (fun i c => c * b i i) 1
  if n % 2 = 0 then c else -c

/-- `try_lower_tri_inv()` (`/repo/src/archon/math/matrix.hpp:1064-1086`). The result is absent if the function returns `false`. -/
def tryLowerTriInv (unitri : Bool) (N : ℕ) (m : Mat K) : Option (Mat K) :=
  loopO 0 N (fun i m =>
    let r : Option (Mat K × K) :=
      if unitri then some (m, -1)
      else
        let x := m i i
        if x = 0 then none
        else
          let x := 1 / x
          some (m.set i i x, -x)
    r.map fun s =>
      let x := s.2
      loop 0 i (fun j m =>
        let y := m i j
        let y := if unitri then y else y * m j j
        let y := loop (j + 1) i (fun k y => y + m k j * m i k) y
        m.set i j (x * y)) s.1) m

/-- `try_upper_tri_inv()` (`/repo/src/archon/math/matrix.hpp:1089-1111`). The result is absent if the function returns `false`. -/
def tryUpperTriInv (unitri : Bool) (N : ℕ) (m : Mat K) : Option (Mat K) :=
  loopO 0 N (fun j m =>
    let r : Option (Mat K × K) :=
      if unitri then some (m, -1)
      else
        let x := m j j
        if x = 0 then none
        else
          let x := 1 / x
          some (m.set j j x, -x)
    r.map fun s =>
      let x := s.2
      loop 0 j (fun i m =>
        let y := m i j
        let y := if unitri then y else y * m i i
        let y := loop (i + 1) j (fun k y => y + m i k * m k j) y
        m.set i j (x * y)) s.1) m

/-- Body of the first loop in `try_inv()` (`/repo/src/archon/math/matrix.hpp:1031-1044`). -/
def solveColumn (N : ℕ) (j : ℕ) (m : Mat K) : Mat K :=
  let col := m.col (j - 1)
  loop 0 N (fun i m =>
    let sum := loop j N (fun k sum => sum + m i k * col k) 0
    if i ≥ j then m.set i (j - 1) (-sum) else m.set i (j - 1) (m i (j - 1) - sum)) m

/-- Body of the second loop in `try_inv()` (`/repo/src/archon/math/matrix.hpp:1048-1055`). -/
def undoPivot (pivots : List ℕ) (j : ℕ) (m : Mat K) : Mat K :=
  let p := pivots.getD (j - 1) 0
  if p ≠ j - 1 then
    let col := m.col (j - 1)
    let m := m.setCol (j - 1) (m.col p)
    m.setCol p col
  else m

/-- `try_inv()` (`/repo/src/archon/math/matrix.hpp:1023-1061`). The result is absent if the function returns `false`. -/
def tryInv (N : ℕ) (m : Mat K) : Option (Mat K) :=
  let (m, pivots) := decompose N N m
  (tryUpperTriInv false N m).map fun m =>
    let m := loopDown (solveColumn N) (N - 1) m
    loopDown (undoPivot pivots) (N - 1) m

/-- `inv()` (`/repo/src/archon/math/matrix.hpp:939-947`). -/
def inv (N : ℕ) (a : Mat K) : Mat K :=
  match tryInv N a with
  | some b => b
  | none => fun _ _ => 0

end

end Verif.LuInverse
