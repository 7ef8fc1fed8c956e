import Verif.Rotation.Lemmas

/-!
# Quaternions and rotations: main lemmas
-/

namespace Verif.Rotation

open Spec
open scoped Quaternion

@[simp] theorem hamilton_re (q : Quat) : (hamilton q).re = q.w := rfl
@[simp] theorem hamilton_imI (q : Quat) : (hamilton q).imI = q.v.x := rfl
@[simp] theorem hamilton_imJ (q : Quat) : (hamilton q).imJ = q.v.y := rfl
@[simp] theorem hamilton_imK (q : Quat) : (hamilton q).imK = q.v.z := rfl

theorem hamilton_inj {a b : Quat} (h : hamilton a = hamilton b) : a = b := by
  have h0 := congrArg QuaternionAlgebra.re h
  have h1 := congrArg QuaternionAlgebra.imI h
  have h2 := congrArg QuaternionAlgebra.imJ h
  have h3 := congrArg QuaternionAlgebra.imK h
  exact quat_ext h0 h1 h2 h3

theorem hamilton_add (a b : Quat) : hamilton (a + b) = hamilton a + hamilton b := by
  ext <;> simp

theorem hamilton_sub (a b : Quat) : hamilton (a - b) = hamilton a - hamilton b := by
  ext <;> simp

theorem hamilton_neg (a : Quat) : hamilton (-a) = -hamilton a := by
  ext <;> simp

theorem hamilton_mul (a b : Quat) : hamilton (a * b) = hamilton a * hamilton b := by
  ext
  · simp only [hamilton_re, hamilton_imI, hamilton_imJ, hamilton_imK, mul_w, mul_v, dot, Quaternion.re_mul]; ring
  · simp only [hamilton_re, hamilton_imI, hamilton_imJ, hamilton_imK, mul_w, mul_v, add_x, scale_x, cross_x, Quaternion.imI_mul]; ring
  · simp only [hamilton_re, hamilton_imI, hamilton_imJ, hamilton_imK, mul_w, mul_v, add_y, scale_y, cross_y, Quaternion.imJ_mul]; ring
  · simp only [hamilton_re, hamilton_imI, hamilton_imJ, hamilton_imK, mul_w, mul_v, add_z, scale_z, cross_z, Quaternion.imK_mul]; ring

theorem hamilton_conj (a : Quat) : hamilton a.conj = star (hamilton a) := by
  ext <;> simp [Quat.conj]

theorem normSq_hamilton (a : Quat) : Quaternion.normSq (hamilton a) = a.sqSum := by
  rw [Quaternion.normSq_def']
  simp only [hamilton, Quat.sqSum, Vec.sqSum]
  ring

theorem hamilton_eq_zero {a : Quat} : hamilton a = 0 ↔ a.sqSum = 0 := by
  rw [← normSq_hamilton, Quaternion.normSq_eq_zero]

theorem hamilton_inv (a : Quat) : hamilton a.inv = (hamilton a)⁻¹ := by
  rw [Quaternion.inv_def, normSq_hamilton]
  ext <;> simp [Quat.inv]

theorem hamilton_div (a b : Quat) : hamilton (a / b) = hamilton a / hamilton b := by
  rw [div_def, hamilton_mul, hamilton_inv, div_eq_mul_inv]

theorem conjBy_eq (a b : Quat) : a.conjBy b = b * a * b.conj := by
  apply quat_ext <;>
  · simp only [Quat.conjBy, Quat.conj, Vec.sqSum, mul_w, mul_v, dot, add_x, add_y, add_z, sub_x, sub_y, sub_z, scale_x, scale_y, scale_z, cross_x, cross_y,
      cross_z, neg_x, neg_y, neg_z]
    ring

theorem vec_conjBy_eq (a : Vec) (b : Quat) : (⟨0, a.conjBy b⟩ : Quat) = Quat.conjBy ⟨0, a⟩ b := by
  apply quat_ext <;> simp [Vec.conjBy, Quat.conjBy]

theorem len_mul (a b : Quat) : (a * b).len = a.len * b.len := by
  unfold Quat.len
  rw [sqSum_mul, Real.sqrt_mul a.sqSum_nonneg]

theorem len_normalize {a : Quat} (h : a.sqSum ≠ 0) : a.normalize.len = 1 := by
  have hl := (len_pos h).ne'
  have h1 : a.normalize.sqSum = 1 := by
    rw [normalize_eq a h]
    simp only [Quat.sqSum, Vec.sqSum, div_x, div_y, div_z]
    field_simp
    rw [len_sq]
    unfold Quat.sqSum Vec.sqSum
    ring
  unfold Quat.len
  rw [h1, Real.sqrt_one]

/-! ### Rotation -/

theorem dot_conjBy (q : Quat) (a b : Vec) : dot (a.conjBy q) (b.conjBy q) = q.sqSum ^ 2 * dot a b := by
  simp only [Vec.conjBy, Quat.sqSum, Vec.sqSum, dot, add_x, add_y, add_z, sub_x, sub_y, sub_z, scale_x, scale_y, scale_z, cross_x, cross_y, cross_z]
  ring

theorem cross_conjBy (q : Quat) (a b : Vec) : cross (a.conjBy q) (b.conjBy q) = Vec.scale q.sqSum ((cross a b).conjBy q) := by
  ext <;>
  · simp only [Vec.conjBy, Quat.sqSum, Vec.sqSum, dot, add_x, add_y, add_z, sub_x, sub_y, sub_z, scale_x, scale_y, scale_z, cross_x, cross_y, cross_z]
    ring

theorem conjBy_lin (q : Quat) (k l m : ℝ) (a b c : Vec) :
    (Vec.scale k a + Vec.scale l b + Vec.scale m c).conjBy q =
      Vec.scale k (a.conjBy q) + Vec.scale l (b.conjBy q) + Vec.scale m (c.conjBy q) := by
  ext <;>
  · simp only [Vec.conjBy, dot, add_x, add_y, add_z, sub_x, sub_y, sub_z, scale_x, scale_y, scale_z, cross_x, cross_y, cross_z]
    ring

theorem dot_rotate {u : Vec} (hu : UnitVec u) (θ : ℝ) (a b : Vec) : dot (rotate u θ a) (rotate u θ b) = dot a b := by
  rw [← conjBy_fromAxisAngle hu, ← conjBy_fromAxisAngle hu, dot_conjBy, sqSum_fromAxisAngle hu]
  ring

/-- Rotation of the axis together with the vector. -/
theorem rotate_rotate_axis {u : Vec} (hu : UnitVec u) (θ φ : ℝ) (v p : Vec) :
    rotate (rotate u θ v) φ (rotate u θ p) = rotate u θ (rotate v φ p) := by
  have e : rotate (rotate u θ v) φ (rotate u θ p) = Vec.scale (Real.cos φ) (rotate u θ p) +
      Vec.scale (Real.sin φ) (cross (rotate u θ v) (rotate u θ p)) +
      Vec.scale ((1 - Real.cos φ) * dot (rotate u θ v) (rotate u θ p)) (rotate u θ v) := rfl
  rw [e, dot_rotate hu, ← conjBy_fromAxisAngle hu, ← conjBy_fromAxisAngle hu, cross_conjBy, sqSum_fromAxisAngle hu,
    ← conjBy_fromAxisAngle hu (p := rotate v φ p)]
  have e2 : rotate v φ p = Vec.scale (Real.cos φ) p + Vec.scale (Real.sin φ) (cross v p) + Vec.scale ((1 - Real.cos φ) * dot v p) v := rfl
  rw [e2, conjBy_lin]
  congr 3
  ext <;> simp

/-- Two rotations around the same axis. -/
theorem rotate_add {u : Vec} (hu : UnitVec u) (a b : ℝ) (p : Vec) : rotate u b (rotate u a p) = rotate u (a + b) p := by
  rw [← conjBy_fromAxisAngle hu, ← conjBy_fromAxisAngle hu, ← conjBy_fromAxisAngle hu, ← conjBy_mul]
  congr 1
  have h1 : Real.cos ((a + b) / 2) = Real.cos (a / 2) * Real.cos (b / 2) - Real.sin (a / 2) * Real.sin (b / 2) := by
    rw [← Real.cos_add]; congr 1; ring
  have h2 : Real.sin ((a + b) / 2) = Real.sin (a / 2) * Real.cos (b / 2) + Real.cos (a / 2) * Real.sin (b / 2) := by
    rw [← Real.sin_add]; congr 1; ring
  unfold UnitVec dot at hu
  unfold Quat.fromAxisAngle
  rw [h1, h2]
  apply quat_ext
  · simp only [mul_w, dot, scale_x, scale_y, scale_z]
    linear_combination (-Real.sin (b / 2) * Real.sin (a / 2)) * hu
  all_goals
    simp only [mul_v, add_x, add_y, add_z, scale_x, scale_y, scale_z, cross_x, cross_y, cross_z]
    ring

theorem rotate_zero (u p : Vec) : rotate u 0 p = p := by
  ext <;> simp [rotate]

theorem rotate_neg {u : Vec} (hu : UnitVec u) (a : ℝ) (p : Vec) : rotate u (-a) (rotate u a p) = p := by
  rw [rotate_add hu, add_neg_cancel, rotate_zero]

theorem rotate_neg' {u : Vec} (hu : UnitVec u) (a : ℝ) (p : Vec) : rotate u a (rotate u (-a) p) = p := by
  rw [rotate_add hu, neg_add_cancel, rotate_zero]

theorem fromAxisCosAngle_eq (u : Vec) {c : ℝ} (h0 : -1 ≤ c) (h1 : c ≤ 1) :
    Quat.fromAxisCosAngle u c = Quat.fromAxisAngle u (Real.arccos c) := by
  have h2 := Real.arccos_nonneg c
  have h3 := Real.arccos_le_pi c
  have hp := Real.pi_pos
  simp only [Quat.fromAxisCosAngle, Quat.fromAxisAngle]
  have ec : Real.cos (Real.arccos c / 2) = √((c + 1) / 2) := by
    rw [Real.cos_half (by linarith) h3, Real.cos_arccos h0 h1, add_comm]
  have es : Real.sin (Real.arccos c / 2) = √((c + 1) / 2 - c) := by
    rw [Real.sin_half_eq_sqrt h2 (by linarith), Real.cos_arccos h0 h1]
    congr 1; ring
  rw [ec, es]

/-! ### Arithmetic of rotations -/

theorem rot_add_eq (a b : Rot) : a + b = Rot.fromVersor (b.toVersor * a.toVersor) := rfl

theorem rotate_rot_add {a b : Rot} (ha : UnitVec a.axis) (hb : UnitVec b.axis) (p : Vec) :
    rotate (a + b).axis (a + b).angle p = rotate b.axis b.angle (rotate a.axis a.angle p) := by
  have h1 : (b.toVersor * a.toVersor).sqSum = 1 := by
    rw [sqSum_mul]
    unfold Rot.toVersor
    rw [sqSum_fromAxisAngle ha, sqSum_fromAxisAngle hb, mul_one]
  have h2 := rotate_toAxisAngle (b.toVersor * a.toVersor) (by rw [h1]; exact one_ne_zero) p
  rw [rot_add_eq]
  unfold Rot.fromVersor
  rw [h2, h1, conjBy_mul]
  unfold Rot.toVersor
  rw [conjBy_fromAxisAngle ha, conjBy_fromAxisAngle hb]
  ext <;> simp

theorem rot_sub_self {a : Rot} (ha : UnitVec a.axis) : a - a = ⟨⟨1, 0, 0⟩, 0⟩ := by
  have e : a - a = Rot.fromVersor ((-a).toVersor * a.toVersor) := rfl
  rw [e]
  have h : ((-a).toVersor * a.toVersor).v = ⟨0, 0, 0⟩ := by
    have hn : -a = ⟨a.axis, -a.angle⟩ := rfl
    rw [hn]
    unfold Rot.toVersor Quat.fromAxisAngle
    simp only [neg_div, Real.cos_neg, Real.sin_neg]
    ext <;>
    · simp only [mul_v, add_x, add_y, add_z, scale_x, scale_y, scale_z, cross_x, cross_y, cross_z]
      ring
  unfold Rot.fromVersor
  rw [toAxisAngle_zero (by rw [h]; simp [Vec.sqSum])]

/-! ### Euler angles -/

theorem fromProperEulerAngles_eq (a b c : ℝ) :
    Quat.fromProperEulerAngles a b c =
      Quat.fromAxisAngle ⟨0, 0, 1⟩ a * (Quat.fromAxisAngle ⟨1, 0, 0⟩ b * Quat.fromAxisAngle ⟨0, 0, 1⟩ c) := by
  have e : ∀ x : ℝ, 0.5 * x = x / 2 := fun x => by norm_num; ring
  unfold Quat.fromProperEulerAngles Quat.fromAxisAngle
  simp only [e]
  apply quat_ext <;>
  · simp only [mul_w, mul_v, dot, add_x, add_y, add_z, scale_x, scale_y, scale_z, cross_x, cross_y, cross_z]
    ring

theorem conjBy_fromProperEulerAngles (a b c : ℝ) (p : Vec) :
    p.conjBy (Quat.fromProperEulerAngles a b c) = rotate ⟨0, 0, 1⟩ a (rotate ⟨1, 0, 0⟩ b (rotate ⟨0, 0, 1⟩ c p)) := by
  have hz : UnitVec ⟨0, 0, 1⟩ := by simp [UnitVec, dot]
  have hx : UnitVec ⟨1, 0, 0⟩ := by simp [UnitVec, dot]
  rw [fromProperEulerAngles_eq, conjBy_mul, conjBy_mul, conjBy_fromAxisAngle hz, conjBy_fromAxisAngle hx, conjBy_fromAxisAngle hz]

theorem unit_rotate {u v : Vec} (hu : UnitVec u) (hv : UnitVec v) (a : ℝ) : UnitVec (rotate u a v) := by
  unfold UnitVec
  rw [dot_rotate hu]
  exact hv

end Verif.Rotation
