import Mathlib.LinearAlgebra.Matrix.Block
import Verif.LuInverse.Model

/-!
# Specification of decomposition, determinant, and inversion of matrices

Matrices, their product, their determinant, and the identity matrix are those of Mathlib.
-/

namespace Verif.LuInverse.Spec

variable {K : Type} [Field K]

/-- The matrix of the specified size. -/
def toMat (M N : ℕ) (m : Mat K) : Matrix (Fin M) (Fin N) K := Matrix.of fun i j => m i j

/-- The lower triangular matrix with zeros above the diagonal. -/
def lowerTri (M N : ℕ) (m : Mat K) : Matrix (Fin M) (Fin N) K := Matrix.of fun i j => if j.val ≤ i.val then m i j else 0

/-- The lower unitriangular matrix: ones in the diagonal. -/
def lowerUnitri (M N : ℕ) (m : Mat K) : Matrix (Fin M) (Fin N) K :=
  Matrix.of fun i j => if j.val < i.val then m i j else if i.val = j.val then 1 else 0

/-- The upper triangular matrix with zeros below the diagonal. -/
def upperTri (M N : ℕ) (m : Mat K) : Matrix (Fin M) (Fin N) K := Matrix.of fun i j => if i.val ≤ j.val then m i j else 0

/-- The upper unitriangular matrix: ones in the diagonal. -/
def upperUnitri (M N : ℕ) (m : Mat K) : Matrix (Fin M) (Fin N) K :=
  Matrix.of fun i j => if i.val < j.val then m i j else if i.val = j.val then 1 else 0

/-- The function `perm_k` of the documentation (`/repo/src/archon/math/matrix.hpp:597-599`). -/
def permFun (k p i : ℕ) : ℕ := if i = p then k else if i = k then p else i

/-- The matrix `P_k` of the documentation (`/repo/src/archon/math/matrix.hpp:601-602`). -/
def permMat (M k p : ℕ) : Matrix (Fin M) (Fin M) K := Matrix.of fun i j => if permFun k p j = i then 1 else 0

/-- The product of `P_k`, `P_(k+1)`, and so on. -/
def permProd (M : ℕ) : ℕ → List ℕ → Matrix (Fin M) (Fin M) K
  | _, [] => 1
  | k, p :: ps => permMat M k p * permProd M (k + 1) ps

end Verif.LuInverse.Spec
