import Verif.Rotation.Spec
import Mathlib.Tactic.Ring
import Mathlib.Tactic.FieldSimp
import Mathlib.Tactic.LinearCombination
import Mathlib.Tactic.Positivity
import Mathlib.Tactic.Linarith

/-!
# Lemmas about quaternions and rotations
-/

namespace Verif.Rotation

open Spec

@[simp] theorem add_x (a b : Vec) : (a + b).x = a.x + b.x := rfl
@[simp] theorem add_y (a b : Vec) : (a + b).y = a.y + b.y := rfl
@[simp] theorem add_z (a b : Vec) : (a + b).z = a.z + b.z := rfl
@[simp] theorem sub_x (a b : Vec) : (a - b).x = a.x - b.x := rfl
@[simp] theorem sub_y (a b : Vec) : (a - b).y = a.y - b.y := rfl
@[simp] theorem sub_z (a b : Vec) : (a - b).z = a.z - b.z := rfl
@[simp] theorem neg_x (a : Vec) : (-a).x = -a.x := rfl
@[simp] theorem neg_y (a : Vec) : (-a).y = -a.y := rfl
@[simp] theorem neg_z (a : Vec) : (-a).z = -a.z := rfl
@[simp] theorem scale_x (k : ℝ) (a : Vec) : (Vec.scale k a).x = k * a.x := rfl
@[simp] theorem scale_y (k : ℝ) (a : Vec) : (Vec.scale k a).y = k * a.y := rfl
@[simp] theorem scale_z (k : ℝ) (a : Vec) : (Vec.scale k a).z = k * a.z := rfl
@[simp] theorem div_x (k : ℝ) (a : Vec) : (Vec.div a k).x = a.x / k := rfl
@[simp] theorem div_y (k : ℝ) (a : Vec) : (Vec.div a k).y = a.y / k := rfl
@[simp] theorem div_z (k : ℝ) (a : Vec) : (Vec.div a k).z = a.z / k := rfl
@[simp] theorem cross_x (a b : Vec) : (cross a b).x = a.y * b.z - a.z * b.y := rfl
@[simp] theorem cross_y (a b : Vec) : (cross a b).y = a.z * b.x - a.x * b.z := rfl
@[simp] theorem cross_z (a b : Vec) : (cross a b).z = a.x * b.y - a.y * b.x := rfl
@[simp] theorem qadd_w (a b : Quat) : (a + b).w = a.w + b.w := rfl
@[simp] theorem qadd_v (a b : Quat) : (a + b).v = a.v + b.v := rfl
@[simp] theorem qsub_w (a b : Quat) : (a - b).w = a.w - b.w := rfl
@[simp] theorem qsub_v (a b : Quat) : (a - b).v = a.v - b.v := rfl
@[simp] theorem qneg_w (a : Quat) : (-a).w = -a.w := rfl
@[simp] theorem qneg_v (a : Quat) : (-a).v = -a.v := rfl
@[simp] theorem mul_w (a b : Quat) : (a * b).w = a.w * b.w - dot a.v b.v := rfl
@[simp] theorem mul_v (a b : Quat) : (a * b).v = Vec.scale b.w a.v + Vec.scale a.w b.v + cross a.v b.v := rfl
theorem div_def (a b : Quat) : a / b = a * b.inv := rfl

theorem quat_ext {a b : Quat} (h0 : a.w = b.w) (h1 : a.v.x = b.v.x) (h2 : a.v.y = b.v.y) (h3 : a.v.z = b.v.z) : a = b :=
  Quat.ext h0 (Vec.ext h1 h2 h3)

theorem Vec.sqSum_eq (a : Vec) : a.sqSum = dot a a := by unfold Vec.sqSum dot; ring

theorem Vec.sqSum_nonneg (a : Vec) : 0 ≤ a.sqSum := by unfold Vec.sqSum; positivity

theorem Quat.sqSum_nonneg (a : Quat) : 0 ≤ a.sqSum := by
  have := a.v.sqSum_nonneg
  unfold Quat.sqSum; positivity

theorem Vec.sqSum_eq_zero {a : Vec} : a.sqSum = 0 ↔ a = ⟨0, 0, 0⟩ := by
  constructor
  · intro h
    unfold Vec.sqSum at h
    have hx : a.x ^ 2 = 0 := by nlinarith [sq_nonneg a.x, sq_nonneg a.y, sq_nonneg a.z]
    have hy : a.y ^ 2 = 0 := by nlinarith [sq_nonneg a.x, sq_nonneg a.y, sq_nonneg a.z]
    have hz : a.z ^ 2 = 0 := by nlinarith [sq_nonneg a.x, sq_nonneg a.y, sq_nonneg a.z]
    exact Vec.ext (pow_eq_zero_iff two_ne_zero |>.mp hx) (pow_eq_zero_iff two_ne_zero |>.mp hy) (pow_eq_zero_iff two_ne_zero |>.mp hz)
  · rintro rfl; simp [Vec.sqSum]

theorem Quat.sqSum_eq_zero {a : Quat} : a.sqSum = 0 ↔ a = ⟨0, ⟨0, 0, 0⟩⟩ := by
  constructor
  · intro h
    unfold Quat.sqSum at h
    have h1 := a.v.sqSum_nonneg
    have hw : a.w ^ 2 = 0 := by nlinarith [sq_nonneg a.w]
    have hv : a.v.sqSum = 0 := by nlinarith [sq_nonneg a.w]
    exact Quat.ext (pow_eq_zero_iff two_ne_zero |>.mp hw) (Vec.sqSum_eq_zero.mp hv)
  · rintro rfl; simp [Quat.sqSum, Vec.sqSum]

theorem sqSum_mul (a b : Quat) : (a * b).sqSum = a.sqSum * b.sqSum := by
  simp only [Quat.sqSum, Vec.sqSum, mul_w, mul_v, dot, add_x, add_y, add_z, scale_x, scale_y, scale_z, cross_x, cross_y, cross_z]
  ring

theorem sqSum_pos {a : Quat} (h : a.sqSum ≠ 0) : 0 < a.sqSum := lt_of_le_of_ne a.sqSum_nonneg (Ne.symm h)

theorem len_pos {a : Quat} (h : a.sqSum ≠ 0) : 0 < a.len := Real.sqrt_pos.mpr (sqSum_pos h)

theorem len_sq (a : Quat) : a.len ^ 2 = a.sqSum := Real.sq_sqrt a.sqSum_nonneg

/-- Normalization is division of the components by the length. -/
theorem normalize_eq (a : Quat) (h : a.sqSum ≠ 0) : a.normalize = ⟨a.w / a.len, Vec.div a.v a.len⟩ := by
  have hl := (len_pos h).ne'
  apply quat_ext <;>
  · simp only [Quat.normalize, div_def, Quat.inv, Quat.sqSum, Vec.sqSum, mul_w, mul_v, dot, add_x, add_y, add_z, scale_x, scale_y, scale_z,
      cross_x, cross_y, cross_z, div_x, div_y, div_z]
    field_simp
    ring

theorem sqSum_fromAxisAngle {u : Vec} (hu : UnitVec u) (θ : ℝ) : (Quat.fromAxisAngle u θ).sqSum = 1 := by
  unfold UnitVec dot at hu
  simp only [Quat.sqSum, Vec.sqSum, Quat.fromAxisAngle, scale_x, scale_y, scale_z]
  linear_combination (Real.sin (θ / 2)) ^ 2 * hu + Real.sin_sq_add_cos_sq (θ / 2)

/-- Conjugation by the quaternion of an axis and an angle is rotation. -/
theorem conjBy_fromAxisAngle {u : Vec} (hu : UnitVec u) (θ : ℝ) (p : Vec) : p.conjBy (Quat.fromAxisAngle u θ) = rotate u θ p := by
  unfold UnitVec dot at hu
  have h1 : Real.cos θ = Real.cos (θ / 2) ^ 2 - Real.sin (θ / 2) ^ 2 := by
    rw [← Real.cos_two_mul']; congr 1; ring
  have h2 : Real.sin θ = 2 * Real.sin (θ / 2) * Real.cos (θ / 2) := by
    rw [← Real.sin_two_mul]; congr 1; ring
  have h3 := Real.sin_sq_add_cos_sq (θ / 2)
  unfold rotate Quat.fromAxisAngle Vec.conjBy
  rw [h1, h2]
  generalize Real.cos (θ / 2) = c at *
  generalize Real.sin (θ / 2) = s at *
  ext
  · simp only [Vec.sqSum, dot, add_x, sub_x, scale_x, scale_y, scale_z, cross_x]
    linear_combination (-s ^ 2 * p.x) * hu + (u.x * (u.x * p.x + u.y * p.y + u.z * p.z)) * h3
  · simp only [Vec.sqSum, dot, add_y, sub_y, scale_x, scale_y, scale_z, cross_y]
    linear_combination (-s ^ 2 * p.y) * hu + (u.y * (u.x * p.x + u.y * p.y + u.z * p.z)) * h3
  · simp only [Vec.sqSum, dot, add_z, sub_z, scale_x, scale_y, scale_z, cross_z]
    linear_combination (-s ^ 2 * p.z) * hu + (u.z * (u.x * p.x + u.y * p.y + u.z * p.z)) * h3

/-- Conjugation by a product. -/
theorem conjBy_mul (p : Vec) (a b : Quat) : p.conjBy (b * a) = (p.conjBy a).conjBy b := by
  ext <;>
  · simp only [Vec.conjBy, Vec.sqSum, mul_w, mul_v, dot, add_x, add_y, add_z, sub_x, sub_y, sub_z, scale_x, scale_y, scale_z, cross_x, cross_y,
      cross_z]
    ring

/-- The rotation matrix performs conjugation by the normalized quaternion. -/
theorem mulVec_toRotationMatrix (q : Quat) (h : q.sqSum ≠ 0) (p : Vec) :
    mulVec q.toRotationMatrix p = Vec.div (p.conjBy q) q.sqSum := by
  have e : q.sqSum = q.w ^ 2 + (q.v.x ^ 2 + q.v.y ^ 2 + q.v.z ^ 2) := rfl
  ext <;>
  · simp only [mulVec, Quat.toRotationMatrix, Vec.conjBy, Vec.sqSum, dot, add_x, add_y, add_z, sub_x, sub_y, sub_z, scale_x, scale_y, scale_z,
      cross_x, cross_y, cross_z, div_x, div_y, div_z]
    field_simp
    rw [e]
    ring

theorem conjBy_normalize (q : Quat) (h : q.sqSum ≠ 0) (p : Vec) : p.conjBy q.normalize = Vec.div (p.conjBy q) q.sqSum := by
  rw [normalize_eq q h]
  have hl := (len_pos h).ne'
  rw [← len_sq]
  ext <;>
  · simp only [Vec.conjBy, Vec.sqSum, dot, add_x, add_y, add_z, sub_x, sub_y, sub_z, scale_x, scale_y, scale_z,
      cross_x, cross_y, cross_z, div_x, div_y, div_z]
    field_simp

theorem toRotationMatrix_orthogonal (q : Quat) (h : q.sqSum ≠ 0) :
    mulMat q.toRotationMatrix (transpose q.toRotationMatrix) = identity := by
  have e : q.sqSum = q.w ^ 2 + (q.v.x ^ 2 + q.v.y ^ 2 + q.v.z ^ 2) := rfl
  ext <;>
  · simp only [mulMat, mulVec, transpose, identity, Quat.toRotationMatrix, dot]
    field_simp
    rw [e]
    ring

theorem toRotationMatrix_det (q : Quat) (h : q.sqSum ≠ 0) : det q.toRotationMatrix = 1 := by
  have e : q.sqSum = q.w ^ 2 + (q.v.x ^ 2 + q.v.y ^ 2 + q.v.z ^ 2) := rfl
  simp only [det, Quat.toRotationMatrix, dot, cross_x, cross_y, cross_z]
  field_simp
  rw [e]
  ring

theorem toRotationMatrix_mul (a b : Quat) (ha : a.sqSum ≠ 0) (hb : b.sqSum ≠ 0) :
    (a * b).toRotationMatrix = mulMat a.toRotationMatrix b.toRotationMatrix := by
  have h : ∀ p, mulVec (a * b).toRotationMatrix p = mulVec (mulMat a.toRotationMatrix b.toRotationMatrix) p := by
    intro p
    have h1 : ∀ (m n : Mat) (p : Vec), mulVec (mulMat m n) p = mulVec m (mulVec n p) := by
      intro m n p
      ext <;> · simp only [mulVec, mulMat, transpose, dot]; ring
    rw [h1, mulVec_toRotationMatrix _ hb, mulVec_toRotationMatrix _ ha, mulVec_toRotationMatrix _ (by rw [sqSum_mul]; exact mul_ne_zero ha hb),
      conjBy_mul, sqSum_mul]
    ext <;>
    · simp only [Vec.conjBy, dot, add_x, add_y, add_z, sub_x, sub_y, sub_z, scale_x, scale_y, scale_z,
        cross_x, cross_y, cross_z, div_x, div_y, div_z]
      field_simp
  have h0 := h ⟨1, 0, 0⟩
  have h1 := h ⟨0, 1, 0⟩
  have h2 := h ⟨0, 0, 1⟩
  simp only [mulVec, dot, mul_one, mul_zero, add_zero, zero_add, Vec.mk.injEq] at h0 h1 h2
  refine Mat.ext (Vec.ext ?_ ?_ ?_) (Vec.ext ?_ ?_ ?_) (Vec.ext ?_ ?_ ?_)
  · exact h0.1
  · exact h1.1
  · exact h2.1
  · exact h0.2.1
  · exact h1.2.1
  · exact h2.2.1
  · exact h0.2.2
  · exact h1.2.2
  · exact h2.2.2

/-! ### Conversion to axis and angle -/

theorem norm_complex (q : Quat) : ‖(⟨q.w, √q.v.sqSum⟩ : ℂ)‖ = q.len := by
  rw [Complex.norm_eq_sqrt_sq_add_sq]
  simp only
  rw [Real.sq_sqrt q.v.sqSum_nonneg]
  rfl

theorem toAxisAngle_pos {q : Quat} (h : q.v.sqSum ≠ 0) : q.toAxisAngle = (q.v.div (√q.v.sqSum), 2 * atan2 (√q.v.sqSum) q.w) := by
  simp only [Quat.toAxisAngle]
  rw [if_pos h]

theorem toAxisAngle_zero {q : Quat} (h : q.v.sqSum = 0) : q.toAxisAngle = (⟨1, 0, 0⟩, 0) := by
  simp only [Quat.toAxisAngle]
  rw [if_neg (not_not_intro h)]

theorem toAxisAngle_unit (q : Quat) : UnitVec q.toAxisAngle.1 := by
  unfold UnitVec
  by_cases h : q.v.sqSum = 0
  · rw [toAxisAngle_zero h]; simp [dot]
  · rw [toAxisAngle_pos h]
    have h1 : 0 < √q.v.sqSum := Real.sqrt_pos.mpr (lt_of_le_of_ne q.v.sqSum_nonneg (Ne.symm h))
    have h2 := Real.sq_sqrt q.v.sqSum_nonneg
    have e : q.v.sqSum = q.v.x ^ 2 + q.v.y ^ 2 + q.v.z ^ 2 := rfl
    simp only [dot, div_x, div_y, div_z]
    field_simp
    rw [h2, e]

theorem toAxisAngle_range (q : Quat) : 0 ≤ q.toAxisAngle.2 ∧ q.toAxisAngle.2 < 2 * Real.pi := by
  by_cases h : q.v.sqSum = 0
  · rw [toAxisAngle_zero h]
    have := Real.pi_pos
    exact ⟨le_rfl, by simp only; linarith⟩
  · rw [toAxisAngle_pos h]
    have h1 : 0 < √q.v.sqSum := Real.sqrt_pos.mpr (lt_of_le_of_ne q.v.sqSum_nonneg (Ne.symm h))
    simp only [atan2]
    have h2 : 0 ≤ Complex.arg ⟨q.w, √q.v.sqSum⟩ := Complex.arg_nonneg_iff.mpr h1.le
    have h3 : Complex.arg ⟨q.w, √q.v.sqSum⟩ < Real.pi := by
      refine lt_of_le_of_ne (Complex.arg_le_pi _) ?_
      intro h4
      rw [Complex.arg_eq_pi_iff] at h4
      exact h1.ne' h4.2
    constructor <;> linarith

/-- Conversion to axis and angle, and back. -/
theorem fromAxisAngle_toAxisAngle {q : Quat} (h : q.v.sqSum ≠ 0) :
    Quat.fromAxisAngle q.toAxisAngle.1 q.toAxisAngle.2 = q.normalize := by
  have h1 : 0 < √q.v.sqSum := Real.sqrt_pos.mpr (lt_of_le_of_ne q.v.sqSum_nonneg (Ne.symm h))
  have hq : q.sqSum ≠ 0 := by
    have := lt_of_le_of_ne q.v.sqSum_nonneg (Ne.symm h)
    have : 0 < q.sqSum := by unfold Quat.sqSum; positivity
    exact this.ne'
  have hl := (len_pos hq).ne'
  rw [toAxisAngle_pos h, normalize_eq q hq]
  have hz : (⟨q.w, √q.v.sqSum⟩ : ℂ) ≠ 0 := by
    intro e
    have := congrArg Complex.im e
    exact h1.ne' this
  have e : 2 * atan2 (√q.v.sqSum) q.w / 2 = Complex.arg ⟨q.w, √q.v.sqSum⟩ := by unfold atan2; ring
  apply quat_ext
  · simp only [Quat.fromAxisAngle]
    rw [e, Complex.cos_arg hz, norm_complex]
  all_goals
    simp only [Quat.fromAxisAngle, scale_x, scale_y, scale_z, div_x, div_y, div_z]
    rw [e, Complex.sin_arg, norm_complex]
    field_simp

theorem toAxisAngle_fromAxisAngle {u : Vec} (hu : UnitVec u) {θ : ℝ} (h0 : 0 < θ) (h1 : θ < 2 * Real.pi) :
    (Quat.fromAxisAngle u θ).toAxisAngle = (u, θ) := by
  have hs : 0 < Real.sin (θ / 2) := Real.sin_pos_of_pos_of_lt_pi (by linarith) (by linarith)
  have hsq : (Quat.fromAxisAngle u θ).v.sqSum = Real.sin (θ / 2) ^ 2 := by
    unfold UnitVec dot at hu
    simp only [Quat.fromAxisAngle, Vec.sqSum, scale_x, scale_y, scale_z]
    linear_combination (Real.sin (θ / 2)) ^ 2 * hu
  have hsqrt : √(Quat.fromAxisAngle u θ).v.sqSum = Real.sin (θ / 2) := by rw [hsq, Real.sqrt_sq hs.le]
  rw [toAxisAngle_pos (by rw [hsq]; positivity), hsqrt]
  apply Prod.ext
  · simp only [Quat.fromAxisAngle]
    ext <;> · simp only [div_x, div_y, div_z, scale_x, scale_y, scale_z]; field_simp
  · simp only [Quat.fromAxisAngle, atan2]
    have e : (⟨Real.cos (θ / 2), Real.sin (θ / 2)⟩ : ℂ) = Complex.cos (θ / 2 : ℝ) + Complex.sin (θ / 2 : ℝ) * Complex.I := by
      rw [← Complex.ofReal_cos, ← Complex.ofReal_sin]
      apply Complex.ext
      · simp only [Complex.add_re, Complex.mul_re, Complex.ofReal_re, Complex.ofReal_im, Complex.I_re, Complex.I_im]; ring
      · simp only [Complex.add_im, Complex.mul_im, Complex.ofReal_re, Complex.ofReal_im, Complex.I_re, Complex.I_im]; ring
    rw [e, Complex.arg_cos_add_sin_mul_I ⟨by linarith, by linarith⟩]
    ring

/-- The rotation that results from conversion to axis and angle. -/
theorem rotate_toAxisAngle (q : Quat) (h : q.sqSum ≠ 0) (p : Vec) :
    rotate q.toAxisAngle.1 q.toAxisAngle.2 p = Vec.div (p.conjBy q) q.sqSum := by
  rw [← conjBy_fromAxisAngle (toAxisAngle_unit q)]
  by_cases hv : q.v.sqSum = 0
  · rw [toAxisAngle_zero hv]
    have e := Vec.sqSum_eq_zero.mp hv
    have hw : q.sqSum = q.w ^ 2 := by unfold Quat.sqSum; rw [hv]; ring
    rw [hw] at h ⊢
    have hw0 : q.w ≠ 0 := fun e => h (by rw [e]; ring)
    unfold Vec.conjBy
    rw [e]
    ext <;>
    · simp only [Quat.fromAxisAngle, Vec.sqSum, dot, add_x, add_y, add_z, sub_x, sub_y, sub_z, scale_x, scale_y, scale_z, cross_x, cross_y, cross_z,
        div_x, div_y, div_z, zero_div, Real.cos_zero, Real.sin_zero]
      field_simp
      ring
  · rw [fromAxisAngle_toAxisAngle hv, conjBy_normalize q h]

end Verif.Rotation
