import Mathlib.Data.Rat.Cast.Order
import Mathlib.LinearAlgebra.Matrix.NonsingularInverse
import Verif.LuInverse.Main

/-!
# Properties of decomposition, determinant, and inversion of matrices

`K` is any ordered field, and the sizes of the matrices are arbitrary.
-/

namespace Verif.LuInverse

open Spec

set_option linter.unusedSectionVars false

variable {K : Type} [Field K] [LinearOrder K] [IsStrictOrderedRing K]

/-- A matrix given by its rows (for use in examples). -/
def ofRows (rows : List (List ℚ)) : Mat ℚ := fun i j => (rows.getD i []).getD j 0

/-- The rows of a matrix (for use in examples). -/
def rowsOf (M N : ℕ) (m : Mat ℚ) : List (List ℚ) := (List.range M).map fun i => (List.range N).map fun j => m i j

/-! ### C119 -/

/-- The matrix (high, wide, or square, regular or singular) is the product of the documented permutation matrix, the documented lower
unitriangular (or trapezoidal) matrix, and the documented upper triangular (or trapezoidal) matrix. -/
theorem C119_product (M N : ℕ) (A : Mat K) :
    toMat M N A =
      permProd M 0 (decompose M N A).2 * lowerUnitri M (min M N) (decompose M N A).1 * upperTri (min M N) N (decompose M N A).1 :=
  decompose_mat M N A

/-- There is one pivot for each column or row, whichever there are fewest of, and each one is the index of a row at or after that
position. -/
theorem C119_pivots (M N : ℕ) (A : Mat K) :
    (decompose M N A).2.length = min M N ∧
      ∀ k (h : k < (decompose M N A).2.length), k ≤ (decompose M N A).2[k] ∧ (decompose M N A).2[k] < M :=
  ⟨(decompose_inv M N A).len, (decompose_inv M N A).piv⟩

/-- Partial pivoting: no element of the lower factor has magnitude greater than one. -/
theorem C119_partial_pivoting (M N : ℕ) (A : Mat K) (i : Fin M) (k : Fin (min M N)) :
    |lowerUnitri M (min M N) (decompose M N A).1 i k| ≤ 1 := by
  simp only [lowerUnitri, Matrix.of_apply]
  split_ifs with h1 h2
  · exact (decompose_inv M N A).small i k i.2 h1 k.2
  · simp
  · simp

example : rowsOf 3 3 (decompose 3 3 (ofRows [[0, 1, 2], [2, 4, 6], [1, 0, 3]])).1 = [[2, 4, 6], [1/2, -2, 0], [0, -1/2, 2]] ∧
    (decompose 3 3 (ofRows [[0, 1, 2], [2, 4, 6], [1, 0, 3]])).2 = [1, 2, 2] := by
  decide +kernel

/-! ### C120 -/

/-- The determinant is the determinant. -/
theorem C120_det (N : ℕ) (A : Mat K) : det N A = (toMat N N A).det := det_eq N A

example : det 3 (ofRows [[0, 1, 2], [2, 4, 6], [1, 0, 3]]) = -8 := by decide +kernel

/-- The determinant of a product is the product of the determinants. -/
theorem C120_product (N : ℕ) (A B C : Mat K) (h : toMat N N C = toMat N N A * toMat N N B) : det N C = det N A * det N B := by
  rw [C120_det, C120_det, C120_det, h, Matrix.det_mul]

/-! ### C121 -/

/-- When inversion succeeds, the result is an inverse on both sides. -/
theorem C121_inverse (N : ℕ) (A R : Mat K) (h : tryInv N A = some R) :
    toMat N N R * toMat N N A = 1 ∧ toMat N N A * toMat N N R = 1 := by
  rcases tryInv_spec N A with ⟨R', e, hR⟩ | ⟨e, -⟩
  · rw [h] at e
    cases e
    exact ⟨hR, mul_eq_one_comm.mp hR⟩
  · rw [h] at e; cases e

/-- Inversion fails precisely when the matrix is singular. -/
theorem C121_singular (N : ℕ) (A : Mat K) : tryInv N A = none ↔ (toMat N N A).det = 0 := by
  rcases tryInv_spec N A with ⟨R', e, hR⟩ | ⟨e, h⟩
  · rw [e]
    refine ⟨fun h => (by cases h), fun h => ?_⟩
    have := congrArg Matrix.det hR
    rw [Matrix.det_mul, h, mul_zero, Matrix.det_one] at this
    exact absurd this zero_ne_one
  · exact ⟨fun _ => h, fun _ => e⟩

/-- If there is an inverse, then inversion succeeds and produces it. -/
theorem C121_complete (N : ℕ) (A : Mat K) (X : Matrix (Fin N) (Fin N) K) (h : X * toMat N N A = 1) :
    ∃ R, tryInv N A = some R ∧ toMat N N R = X := by
  rcases tryInv_spec N A with ⟨R, e, hR⟩ | ⟨e, h0⟩
  · exact ⟨R, e, (left_inv_eq_right_inv h (mul_eq_one_comm.mp hR)).symm⟩
  · have := congrArg Matrix.det h
    rw [Matrix.det_mul, h0, mul_zero, Matrix.det_one] at this
    exact absurd this zero_ne_one

/-- The form of inversion without indication of failure produces the inverse, or the zero matrix when there is none. -/
theorem C121_inv (N : ℕ) (A : Mat K) :
    ((toMat N N A).det ≠ 0 → toMat N N (inv N A) * toMat N N A = 1) ∧ ((toMat N N A).det = 0 → toMat N N (inv N A) = 0) := by
  rcases tryInv_spec N A with ⟨R, e, hR⟩ | ⟨e, h0⟩
  · refine ⟨fun _ => by unfold inv; rw [e]; exact hR, fun h => ?_⟩
    rw [(C121_singular N A).mpr h] at e
    cases e
  · refine ⟨fun h => absurd h0 h, fun _ => ?_⟩
    unfold inv
    rw [e]
    rfl

/-- The same as a statement about Mathlib's inverse, which is also zero for a singular matrix. -/
theorem C121_inv_eq (N : ℕ) (A : Mat K) : toMat N N (inv N A) = (toMat N N A)⁻¹ := by
  by_cases h : (toMat N N A).det = 0
  · rw [(C121_inv N A).2 h, Matrix.nonsing_inv_apply_not_isUnit]
    rw [h]; simp
  · exact (Matrix.inv_eq_left_inv ((C121_inv N A).1 h)).symm

example : (tryInv 3 (ofRows [[0, 1, 2], [2, 4, 6], [1, 0, 3]])).map (rowsOf 3 3) =
    some [[-3/2, 3/8, 1/4], [0, 1/4, -1/2], [1/2, -1/8, 1/4]] := by decide +kernel

example : (tryInv 2 (ofRows [[1, 2], [2, 4]])).map (rowsOf 2 2) = none := by decide +kernel

/-! ### C122 -/

/-- The lower triangular matrix that is inverted. -/
def lowerEff (u : Bool) (N : ℕ) (m : Mat K) : Matrix (Fin N) (Fin N) K := if u then lowerUnitri N N m else lowerTri N N m

omit [LinearOrder K] [IsStrictOrderedRing K] in
theorem lowerEff_eq (u : Bool) (N : ℕ) (m : Mat K) : lowerEff u N (transpose m) = (upperEff u N m).transpose := by
  ext i j
  unfold lowerEff upperEff
  cases u
  · simp [lowerTri, upperTri, transpose]
  · simp [lowerUnitri, upperUnitri, transpose, eq_comm]

omit [LinearOrder K] [IsStrictOrderedRing K] in
theorem transpose_transpose (m : Mat K) : transpose (transpose m) = m := rfl

/-- The mirrored relationship between the two functions. -/
theorem C122_mirror (u : Bool) (N : ℕ) (m : Mat K) :
    tryUpperTriInv u N m = (tryLowerTriInv u N (fun i j => m j i)).map fun v i j => v j i := by
  have h := tryLowerTriInv_eq u N m
  unfold transpose at h
  rw [h, Option.map_map]
  cases tryUpperTriInv u N m <;> rfl

/-- When inversion of an upper triangular matrix succeeds, the upper triangle (without the diagonal if that is assumed to be all
ones) holds the inverse. -/
theorem C122_upper_inverse (u : Bool) (N : ℕ) (m v : Mat K) (h : tryUpperTriInv u N m = some v) :
    (if u then upperUnitri N N v * upperUnitri N N m else upperTri N N v * upperTri N N m) = 1 := by
  rcases tryUpperTriInv_spec u N m with ⟨v', e, hv⟩ | ⟨e, -⟩
  · rw [h] at e
    cases e
    have := triInv_mul hv
    unfold upperEff at this
    cases u <;> simpa using this
  · rw [h] at e; cases e

/-- As above, for lower triangular matrices. -/
theorem C122_lower_inverse (u : Bool) (N : ℕ) (m v : Mat K) (h : tryLowerTriInv u N m = some v) :
    (if u then lowerUnitri N N v * lowerUnitri N N m else lowerTri N N v * lowerTri N N m) = 1 := by
  have h2 := tryLowerTriInv_eq u N (transpose m)
  rw [transpose_transpose, h] at h2
  rcases tryUpperTriInv_spec u N (transpose m) with ⟨w, e, hw⟩ | ⟨e, -⟩
  · rw [e] at h2
    cases h2
    have h3 := triInv_mul hw
    have h4 := congrArg Matrix.transpose h3
    rw [Matrix.transpose_mul, ← lowerEff_eq, ← lowerEff_eq, transpose_transpose, Matrix.transpose_one] at h4
    have h5 := mul_eq_one_comm.mp h4
    unfold lowerEff at h5
    cases u <;> simpa using h5
  · rw [e] at h2; cases h2

/-- Inversion of a triangular matrix fails precisely when it is not assumed to be unitriangular, and there is a zero in the
diagonal. -/
theorem C122_upper_singular (u : Bool) (N : ℕ) (m : Mat K) :
    tryUpperTriInv u N m = none ↔ u = false ∧ ∃ i, i < N ∧ m i i = 0 := by
  rcases tryUpperTriInv_spec u N m with ⟨v, e, hv⟩ | ⟨e, h⟩
  · rw [e]
    refine ⟨fun h => (by cases h), fun h => ?_⟩
    obtain ⟨hu, i, hi, h0⟩ := h
    exact absurd h0 (hv.regular hu i hi)
  · exact ⟨fun _ => h, fun _ => e⟩

/-- As above, for lower triangular matrices. -/
theorem C122_lower_singular (u : Bool) (N : ℕ) (m : Mat K) :
    tryLowerTriInv u N m = none ↔ u = false ∧ ∃ i, i < N ∧ m i i = 0 := by
  have h2 := tryLowerTriInv_eq u N (transpose m)
  rw [transpose_transpose] at h2
  rw [h2, Option.map_eq_none_iff, C122_upper_singular]
  rfl

/-- Elements below the diagonal, and elements in the diagonal if those are assumed to be ones, are not modified. -/
theorem C122_upper_unmodified (u : Bool) (N : ℕ) (m v : Mat K) (h : tryUpperTriInv u N m = some v) (i j : ℕ)
    (hij : j < i ∨ u = true ∧ i = j) : v i j = m i j := by
  rcases tryUpperTriInv_spec u N m with ⟨v', e, hv⟩ | ⟨e, -⟩
  · rw [h] at e
    cases e
    exact hv.same i j (hij.imp id Or.inr)
  · rw [h] at e; cases e

/-- Elements above the diagonal, and elements in the diagonal if those are assumed to be ones, are not modified. -/
theorem C122_lower_unmodified (u : Bool) (N : ℕ) (m v : Mat K) (h : tryLowerTriInv u N m = some v) (i j : ℕ)
    (hij : i < j ∨ u = true ∧ i = j) : v i j = m i j := by
  have h2 := tryLowerTriInv_eq u N (transpose m)
  rw [transpose_transpose, h] at h2
  cases e : tryUpperTriInv u N (transpose m) with
  | none => rw [e] at h2; cases h2
  | some w =>
    rw [e] at h2
    cases h2
    exact C122_upper_unmodified u N (transpose m) w e j i (hij.imp id (fun h => ⟨h.1, h.2.symm⟩))

/-- Elements below the diagonal, and elements in the diagonal if those are assumed to be ones, are not read: neither success, nor the
resulting elements depend on them. -/
theorem C122_upper_unread (u : Bool) (N : ℕ) (m m' : Mat K) (h : ∀ i j, i < j ∨ u = false ∧ i = j → m i j = m' i j) :
    (tryUpperTriInv u N m = none ↔ tryUpperTriInv u N m' = none) ∧
      ∀ v v', tryUpperTriInv u N m = some v → tryUpperTriInv u N m' = some v' →
        ∀ i j, i < N → j < N → i < j ∨ u = false ∧ i = j → v i j = v' i j := by
  constructor
  · rw [C122_upper_singular, C122_upper_singular]
    constructor <;> rintro ⟨hu, i, hi, h0⟩ <;> refine ⟨hu, i, hi, ?_⟩
    · rw [← h i i (Or.inr ⟨hu, rfl⟩)]; exact h0
    · rw [h i i (Or.inr ⟨hu, rfl⟩)]; exact h0
  · intro v v' e e' i j hi hj hij
    rcases tryUpperTriInv_spec u N m with ⟨w, e1, hw⟩ | ⟨e1, -⟩
    swap
    · rw [e] at e1; cases e1
    rcases tryUpperTriInv_spec u N m' with ⟨w', e2, hw'⟩ | ⟨e2, -⟩
    swap
    · rw [e'] at e2; cases e2
    rw [e] at e1
    rw [e'] at e2
    cases e1
    cases e2
    have h1 := triInv_mul hw
    have h2 := triInv_mul hw'
    have hm : upperEff u N m = upperEff u N m' := by
      ext a b
      rw [upperEff_apply, upperEff_apply]
      unfold eff
      split_ifs with h3 h4
      · rfl
      · apply h
        cases u
        · rcases Nat.lt_or_eq_of_le h3 with h5 | h5
          · exact Or.inl h5
          · exact Or.inr ⟨rfl, h5⟩
        · left
          have : a.val ≠ b.val := fun h => h4 ⟨rfl, h⟩
          omega
      · rfl
    rw [hm] at h1
    have h3 : upperEff u N v = upperEff u N v' := left_inv_eq_right_inv h1 (mul_eq_one_comm.mp h2)
    have h4 := congrFun (congrFun h3 ⟨i, hi⟩) ⟨j, hj⟩
    rw [upperEff_apply, upperEff_apply] at h4
    have h5 : i ≤ j := by omega
    have h6 : ¬(u = true ∧ i = j) := by
      rintro ⟨rfl, rfl⟩
      simp at hij
    simpa [eff, h5, h6] using h4

/-- As above, for lower triangular matrices. -/
theorem C122_lower_unread (u : Bool) (N : ℕ) (m m' : Mat K) (h : ∀ i j, j < i ∨ u = false ∧ i = j → m i j = m' i j) :
    (tryLowerTriInv u N m = none ↔ tryLowerTriInv u N m' = none) ∧
      ∀ v v', tryLowerTriInv u N m = some v → tryLowerTriInv u N m' = some v' →
        ∀ i j, i < N → j < N → j < i ∨ u = false ∧ i = j → v i j = v' i j := by
  have h1 := tryLowerTriInv_eq u N (transpose m)
  have h2 := tryLowerTriInv_eq u N (transpose m')
  rw [transpose_transpose] at h1 h2
  have h3 := C122_upper_unread u N (transpose m) (transpose m') (fun i j hij => h j i (hij.imp id (fun h => ⟨h.1, h.2.symm⟩)))
  rw [h1, h2, Option.map_eq_none_iff, Option.map_eq_none_iff]
  refine ⟨h3.1, ?_⟩
  intro v v' e e' i j hi hj hij
  rw [Option.map_eq_some_iff] at e e'
  obtain ⟨w, e, rfl⟩ := e
  obtain ⟨w', e', rfl⟩ := e'
  exact h3.2 w w' e e' j i hj hi (hij.imp id (fun h => ⟨h.1, h.2.symm⟩))

example : (tryUpperTriInv false 3 (ofRows [[2, 1, 0], [7, 1, 3], [8, 9, 4]])).map (rowsOf 3 3) =
    some [[1/2, -1/2, 3/8], [7, 1, -3/4], [8, 9, 1/4]] := by decide +kernel

example : (tryLowerTriInv true 3 (ofRows [[5, 6, 7], [2, 5, 8], [3, 4, 5]])).map (rowsOf 3 3) =
    some [[5, 6, 7], [-2, 5, 8], [5, -4, 5]] := by decide +kernel

end Verif.LuInverse
