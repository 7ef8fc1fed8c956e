import Verif.Rotation.Main

/-!
# Properties of quaternions and rotations

See C127, C128, C129, and C130 in `properties.jsonl`.
-/

namespace Verif.Rotation

open Spec
open scoped Quaternion

/-! ### C127: algebra of quaternions -/

/-- The arithmetic operators are those of Hamilton's quaternions. Division is by a quaternion other than zero (otherwise the components of
the result are not finite). -/
theorem C127_arithmetic (a b : Quat) :
    hamilton (a + b) = hamilton a + hamilton b ∧ hamilton (a - b) = hamilton a - hamilton b ∧ hamilton (-a) = -hamilton a ∧
    hamilton (a * b) = hamilton a * hamilton b ∧ (hamilton b ≠ 0 → hamilton (a / b) = hamilton a / hamilton b) :=
  ⟨hamilton_add a b, hamilton_sub a b, hamilton_neg a, hamilton_mul a b, fun _ => hamilton_div a b⟩

/-- Nothing is lost in the translation to Hamilton's quaternions. -/
theorem C127_faithful : Function.Bijective hamilton :=
  ⟨fun _ _ h => hamilton_inj h, fun q => ⟨⟨q.re, ⟨q.imI, q.imJ, q.imK⟩⟩, rfl⟩⟩

/-- The inverse, and division, undo multiplication. -/
theorem C127_inverse (a b : Quat) (h : hamilton b ≠ 0) :
    hamilton b.inv = (hamilton b)⁻¹ ∧ hamilton (b * b.inv) = 1 ∧ hamilton (b.inv * b) = 1 ∧ a / b * b = a ∧ a * b / b = a := by
  have h1 := mul_inv_cancel₀ h
  have h2 := inv_mul_cancel₀ h
  refine ⟨hamilton_inv b, ?_, ?_, ?_, ?_⟩
  · rw [hamilton_mul, hamilton_inv, h1]
  · rw [hamilton_mul, hamilton_inv, h2]
  · apply hamilton_inj
    rw [hamilton_mul, hamilton_div, div_mul_cancel₀ _ h]
  · apply hamilton_inj
    rw [hamilton_div, hamilton_mul, mul_div_cancel_right₀ _ h]

/-- Conjugates: the conjugate of a quaternion, the conjugate of a quaternion by another quaternion, and the conjugate of a vector by a
quaternion. -/
theorem C127_conjugate (a b : Quat) (p : Vec) :
    hamilton a.conj = star (hamilton a) ∧ a.conjBy b = b * a * b.conj ∧ (⟨0, p.conjBy b⟩ : Quat) = b * ⟨0, p⟩ * b.conj :=
  ⟨hamilton_conj a, conjBy_eq a b, (vec_conjBy_eq p b).trans (conjBy_eq _ b)⟩

/-- The length is the norm, the length of a product is the product of the lengths, and normalization produces a quaternion of length one
that differs from the original quaternion by a positive factor. -/
theorem C127_length (a b : Quat) :
    a.sqSum = Quaternion.normSq (hamilton a) ∧ 0 ≤ a.len ∧ a.len ^ 2 = a.sqSum ∧ (a * b).len = a.len * b.len ∧
    (hamilton a ≠ 0 → a.normalize.len = 1 ∧ 0 < a.len ∧ hamilton a = a.len • hamilton a.normalize) := by
  refine ⟨(normSq_hamilton a).symm, Real.sqrt_nonneg _, len_sq a, len_mul a b, fun h => ?_⟩
  have h0 : a.sqSum ≠ 0 := fun e => h (hamilton_eq_zero.mpr e)
  have hl := (len_pos h0).ne'
  refine ⟨len_normalize h0, len_pos h0, ?_⟩
  rw [normalize_eq a h0]
  ext <;>
  · simp only [hamilton_re, hamilton_imI, hamilton_imJ, hamilton_imK, Quaternion.re_smul, Quaternion.imI_smul, Quaternion.imJ_smul,
      Quaternion.imK_smul, smul_eq_mul, div_x, div_y, div_z]
    field_simp

/-- `i * j = k`, `j * i = -k`. -/
example : (⟨0, ⟨1, 0, 0⟩⟩ : Quat) * ⟨0, ⟨0, 1, 0⟩⟩ = ⟨0, ⟨0, 0, 1⟩⟩ ∧ (⟨0, ⟨0, 1, 0⟩⟩ : Quat) * ⟨0, ⟨1, 0, 0⟩⟩ = ⟨0, ⟨0, 0, -1⟩⟩ := by
  constructor <;> apply quat_ext <;> simp [dot]

/-- The inverse of `1 + i` is `(1 - i) / 2`. -/
example : (⟨1, ⟨1, 0, 0⟩⟩ : Quat).inv = ⟨1 / 2, ⟨-1 / 2, 0, 0⟩⟩ := by
  apply quat_ext <;> norm_num [Quat.inv, Quat.sqSum, Vec.sqSum]

/-- The length of `2 + 3i + 6k` is 7. -/
example : (⟨2, ⟨3, 0, 6⟩⟩ : Quat).len = 7 := by
  have h : (⟨2, ⟨3, 0, 6⟩⟩ : Quat).sqSum = 7 ^ 2 := by norm_num [Quat.sqSum, Vec.sqSum]
  unfold Quat.len
  rw [h, Real.sqrt_sq (by norm_num)]

/-! ### C128: rotation by way of quaternions -/

/-- Conjugation of a vector by the quaternion that is created from an axis and an angle rotates the vector by that angle around that axis,
and that quaternion is of length one. -/
theorem C128_rotation {u : Vec} (hu : UnitVec u) (θ : ℝ) (p : Vec) :
    p.conjBy (Quat.fromAxisAngle u θ) = rotate u θ p ∧ (Quat.fromAxisAngle u θ).len = 1 := by
  refine ⟨conjBy_fromAxisAngle hu θ p, ?_⟩
  unfold Quat.len
  rw [sqSum_fromAxisAngle hu, Real.sqrt_one]

/-- The quaternion that is created from an axis and the cosine of an angle is the one for the angle between 0 and pi with that cosine. -/
theorem C128_cos_angle (u : Vec) {θ : ℝ} (h0 : 0 ≤ θ) (h1 : θ ≤ Real.pi) :
    Quat.fromAxisCosAngle u (Real.cos θ) = Quat.fromAxisAngle u θ := by
  rw [fromAxisCosAngle_eq u (Real.neg_one_le_cos θ) (Real.cos_le_one θ), Real.arccos_cos h0 h1]

/-- The rotation matrix of a quaternion other than zero performs conjugation by the normalized quaternion. -/
theorem C128_matrix (q : Quat) (h : hamilton q ≠ 0) (p : Vec) : mulVec q.toRotationMatrix p = p.conjBy q.normalize := by
  have h0 : q.sqSum ≠ 0 := fun e => h (hamilton_eq_zero.mpr e)
  rw [mulVec_toRotationMatrix q h0, conjBy_normalize q h0]

/-- The rotation matrix of a quaternion other than zero is orthogonal, and its determinant is one. -/
theorem C128_matrix_proper (q : Quat) (h : hamilton q ≠ 0) :
    mulMat q.toRotationMatrix (transpose q.toRotationMatrix) = identity ∧ det q.toRotationMatrix = 1 := by
  have h0 : q.sqSum ≠ 0 := fun e => h (hamilton_eq_zero.mpr e)
  exact ⟨toRotationMatrix_orthogonal q h0, toRotationMatrix_det q h0⟩

/-- The rotation matrix of a product is the product of the rotation matrices. -/
theorem C128_matrix_mul (a b : Quat) (ha : hamilton a ≠ 0) (hb : hamilton b ≠ 0) :
    (a * b).toRotationMatrix = mulMat a.toRotationMatrix b.toRotationMatrix :=
  toRotationMatrix_mul a b (fun e => ha (hamilton_eq_zero.mpr e)) (fun e => hb (hamilton_eq_zero.mpr e))

/-- The quaternion that is created from Euler angles performs a rotation by `alpha` around the Z-axis, followed by a rotation by `beta`
around the rotated X-axis, followed by a rotation by `gamma` around the Z-axis as rotated by the first two rotations. -/
theorem C128_euler_angles (alpha beta gamma : ℝ) (p : Vec) :
    let first := rotate ⟨0, 0, 1⟩ alpha
    let second := rotate (first ⟨1, 0, 0⟩) beta
    let third := rotate (second (first ⟨0, 0, 1⟩)) gamma
    p.conjBy (Quat.fromProperEulerAngles alpha beta gamma) = third (second (first p)) := by
  have hz : UnitVec ⟨0, 0, 1⟩ := by simp [UnitVec, dot]
  have hx : UnitVec ⟨1, 0, 0⟩ := by simp [UnitVec, dot]
  simp only
  rw [conjBy_fromProperEulerAngles, rotate_rotate_axis (unit_rotate hz hx alpha), rotate_rotate_axis hz, rotate_rotate_axis hz]

/-- The rotation that is used above as the specification is about right: it fixes the axis, it preserves lengths and angles, and rotations
around the same axis add up. -/
theorem C128_spec {u : Vec} (hu : UnitVec u) (a b : ℝ) (p q : Vec) :
    rotate u a u = u ∧ dot (rotate u a p) (rotate u a q) = dot p q ∧ rotate u b (rotate u a p) = rotate u (a + b) p ∧
    (dot u p = 0 → dot p p = 1 → dot p (rotate u a p) = Real.cos a ∧ dot (cross u p) (rotate u a p) = Real.sin a) := by
  refine ⟨?_, dot_rotate hu a p q, rotate_add hu a b p, ?_⟩
  · have h1 : dot u u = 1 := hu
    ext <;>
    · simp only [rotate, h1, add_x, add_y, add_z, scale_x, scale_y, scale_z, cross_x, cross_y, cross_z]
      ring
  · intro h1 h2
    have hu' := hu
    unfold UnitVec dot at hu'
    unfold rotate
    rw [h1]
    unfold dot at h1 h2 ⊢
    simp only [add_x, add_y, add_z, scale_x, scale_y, scale_z, cross_x, cross_y, cross_z]
    constructor
    · linear_combination Real.cos a * h2
    · linear_combination (Real.sin a * (p.x ^ 2 + p.y ^ 2 + p.z ^ 2)) * hu' + Real.sin a * h2 - (Real.sin a * (u.x * p.x + u.y * p.y + u.z * p.z)) * h1

/-- A quarter turn around the Z-axis takes the X-axis to the Y-axis. -/
example : (⟨1, 0, 0⟩ : Vec).conjBy (Quat.fromAxisAngle ⟨0, 0, 1⟩ (Real.pi / 2)) = ⟨0, 1, 0⟩ := by
  rw [(C128_rotation (by simp [UnitVec, dot]) _ _).1]
  ext <;> simp [rotate, dot]

/-- The rotation matrix of `1 + k` (a quarter turn around the Z-axis). -/
example : (⟨1, ⟨0, 0, 1⟩⟩ : Quat).toRotationMatrix = ⟨⟨0, -1, 0⟩, ⟨1, 0, 0⟩, ⟨0, 0, 1⟩⟩ := by
  refine Mat.ext (Vec.ext ?_ ?_ ?_) (Vec.ext ?_ ?_ ?_) (Vec.ext ?_ ?_ ?_) <;> norm_num [Quat.toRotationMatrix, Quat.sqSum, Vec.sqSum]

/-! ### C129: conversion between quaternions, and axis and angle -/

/-- The axis is a unit vector, and the angle is between 0 and `2 * pi`. -/
theorem C129_range (q : Quat) : UnitVec q.toAxisAngle.1 ∧ 0 ≤ q.toAxisAngle.2 ∧ q.toAxisAngle.2 < 2 * Real.pi :=
  ⟨toAxisAngle_unit q, toAxisAngle_range q⟩

/-- The axis and the angle specify the rotation that is performed by the normalized quaternion. -/
theorem C129_same_rotation (q : Quat) (h : hamilton q ≠ 0) (p : Vec) :
    rotate q.toAxisAngle.1 q.toAxisAngle.2 p = p.conjBy q.normalize := by
  have h0 : q.sqSum ≠ 0 := fun e => h (hamilton_eq_zero.mpr e)
  rw [rotate_toAxisAngle q h0, conjBy_normalize q h0]

/-- Conversion to axis and angle, and back, produces the normalized quaternion, except that a negative real number is turned into one. -/
theorem C129_to_from (q : Quat) (h : hamilton q ≠ 0) :
    (q.v ≠ ⟨0, 0, 0⟩ → Quat.fromAxisAngle q.toAxisAngle.1 q.toAxisAngle.2 = q.normalize) ∧
    (q.v = ⟨0, 0, 0⟩ → Quat.fromAxisAngle q.toAxisAngle.1 q.toAxisAngle.2 = ⟨1, ⟨0, 0, 0⟩⟩ ∧ (q.normalize = ⟨1, ⟨0, 0, 0⟩⟩ ∨ q.normalize = ⟨-1, ⟨0, 0, 0⟩⟩)) := by
  refine ⟨fun hv => fromAxisAngle_toAxisAngle fun e => hv (Vec.sqSum_eq_zero.mp e), fun hv => ?_⟩
  have h0 : q.sqSum ≠ 0 := fun e => h (hamilton_eq_zero.mpr e)
  have hv0 := Vec.sqSum_eq_zero.mpr hv
  constructor
  · rw [toAxisAngle_zero hv0]
    apply quat_ext <;> simp [Quat.fromAxisAngle]
  · have hw : q.sqSum = q.w ^ 2 := by unfold Quat.sqSum; rw [hv0, add_zero]
    have hw0 : q.w ≠ 0 := fun e => h0 (by rw [hw, e]; ring)
    have hlen : q.len = |q.w| := by unfold Quat.len; rw [hw, Real.sqrt_sq_eq_abs]
    rw [normalize_eq q h0, hv, hlen]
    rcases lt_or_gt_of_ne hw0 with h1 | h1
    · right
      rw [abs_of_neg h1]
      apply quat_ext
      · simp only; field_simp
      all_goals simp
    · left
      rw [abs_of_pos h1]
      apply quat_ext
      · simp only; field_simp
      all_goals simp

/-- Conversion from axis and angle, and back, has no effect if the angle is strictly between 0 and `2 * pi`. -/
theorem C129_from_to {u : Vec} (hu : UnitVec u) {θ : ℝ} (h0 : 0 < θ) (h1 : θ < 2 * Real.pi) :
    (Quat.fromAxisAngle u θ).toAxisAngle = (u, θ) ∧ Rot.fromVersor (Rot.toVersor ⟨u, θ⟩) = ⟨u, θ⟩ := by
  have h := toAxisAngle_fromAxisAngle hu h0 h1
  refine ⟨h, ?_⟩
  unfold Rot.fromVersor Rot.toVersor
  simp only [h]

/-- Contrary to the documentation ("The angle will be clamped to the range [0;2*pi]"), the angle is not clamped: an angle of `3 * pi` is not
treated as `2 * pi`, and a negative angle is not treated as zero. Not even the rotations are the same. -/
theorem C129_not_clamped :
    (∃ (u : Vec) (θ : ℝ) (p : Vec), UnitVec u ∧ 2 * Real.pi < θ ∧ p.conjBy (Quat.fromAxisAngle u θ) ≠ p.conjBy (Quat.fromAxisAngle u (2 * Real.pi))) ∧
    (∃ (u : Vec) (θ : ℝ) (p : Vec), UnitVec u ∧ θ < 0 ∧ p.conjBy (Quat.fromAxisAngle u θ) ≠ p.conjBy (Quat.fromAxisAngle u 0)) := by
  have hz : UnitVec ⟨0, 0, 1⟩ := by simp [UnitVec, dot]
  have hp := Real.pi_pos
  have e : Real.pi * 3 = Real.pi + 2 * Real.pi := by ring
  constructor
  · refine ⟨⟨0, 0, 1⟩, Real.pi * 3, ⟨1, 0, 0⟩, hz, by linarith, ?_⟩
    rw [conjBy_fromAxisAngle hz, conjBy_fromAxisAngle hz]
    intro h
    have h1 := congrArg Vec.x h
    simp [rotate, dot, e] at h1
    norm_num at h1
  · refine ⟨⟨0, 0, 1⟩, -Real.pi, ⟨1, 0, 0⟩, hz, by linarith, ?_⟩
    rw [conjBy_fromAxisAngle hz, conjBy_fromAxisAngle hz]
    intro h
    have h1 := congrArg Vec.x h
    simp [rotate, dot] at h1
    norm_num at h1

/-- What does hold: angles between 0 and `2 * pi` are taken as they are, and others are reduced modulo `2 * pi` as far as the rotation is
concerned. -/
theorem C129_periodic_partial {u : Vec} (hu : UnitVec u) (θ : ℝ) (n : ℤ) (p : Vec) :
    p.conjBy (Quat.fromAxisAngle u (θ + n * (2 * Real.pi))) = p.conjBy (Quat.fromAxisAngle u θ) := by
  rw [conjBy_fromAxisAngle hu, conjBy_fromAxisAngle hu]
  unfold rotate
  rw [Real.cos_add_int_mul_two_pi, Real.sin_add_int_mul_two_pi]

/-- The axis and angle of `2k` (half a turn around the Z-axis). -/
example : (⟨0, ⟨0, 0, 2⟩⟩ : Quat).toAxisAngle = (⟨0, 0, 1⟩, Real.pi) := by
  have h : (⟨0, 0, 2⟩ : Vec).sqSum = 2 ^ 2 := by norm_num [Vec.sqSum]
  rw [toAxisAngle_pos (by rw [h]; norm_num)]
  simp only [h]
  rw [Real.sqrt_sq (by norm_num)]
  have e : Complex.arg ⟨0, 2⟩ = Real.pi / 2 := Complex.arg_eq_pi_div_two_iff.mpr ⟨rfl, by norm_num⟩
  unfold atan2
  rw [e]
  apply Prod.ext
  · ext <;> norm_num
  · simp only; ring

/-! ### C130: arithmetic of rotations -/

/-- The sum of two rotations performs the first rotation followed by the second one, and its axis is a unit vector. -/
theorem C130_add {a b : Rot} (ha : UnitVec a.axis) (hb : UnitVec b.axis) (p : Vec) :
    rotate (a + b).axis (a + b).angle p = rotate b.axis b.angle (rotate a.axis a.angle p) ∧ UnitVec (a + b).axis :=
  ⟨rotate_rot_add ha hb p, toAxisAngle_unit _⟩

/-- The negation of a rotation performs the inverse rotation. -/
theorem C130_neg {a : Rot} (ha : UnitVec a.axis) (p : Vec) :
    rotate (-a).axis (-a).angle (rotate a.axis a.angle p) = p ∧ rotate a.axis a.angle (rotate (-a).axis (-a).angle p) = p :=
  ⟨rotate_neg ha a.angle p, rotate_neg' ha a.angle p⟩

/-- Subtraction undoes addition as far as the performed rotation is concerned, and the difference between a rotation and itself is the
rotation that is constructed by default. -/
theorem C130_sub {a b : Rot} (ha : UnitVec a.axis) (hb : UnitVec b.axis) (p : Vec) :
    rotate (a - b).axis (a - b).angle p = rotate b.axis (-b.angle) (rotate a.axis a.angle p) ∧
    rotate (a + b - b).axis (a + b - b).angle p = rotate a.axis a.angle p ∧
    a - a = {} := by
  have hn : ∀ c : Rot, UnitVec c.axis → ∀ p, rotate (c - b).axis (c - b).angle p = rotate b.axis (-b.angle) (rotate c.axis c.angle p) :=
    fun c hc p => rotate_rot_add (b := -b) hc hb p
  refine ⟨hn a ha p, ?_, rot_sub_self ha⟩
  rw [hn (a + b) (toAxisAngle_unit _), rotate_rot_add ha hb, rotate_neg hb]

/-- Scaling: multiples of a rotation add up, and division undoes multiplication. -/
theorem C130_scale {a : Rot} (ha : UnitVec a.axis) (j k : ℝ) (p : Vec) :
    rotate (a.scale (j + k)).axis (a.scale (j + k)).angle p =
      rotate (a.scale k).axis (a.scale k).angle (rotate (a.scale j).axis (a.scale j).angle p) ∧
    a.scale 1 = a ∧ (k ≠ 0 → (a.scale k).div k = a ∧ (a.div k).scale k = a) := by
  refine ⟨?_, ?_, fun hk => ⟨?_, ?_⟩⟩
  · unfold Rot.scale
    simp only
    rw [rotate_add ha]
    congr 1
    ring
  · unfold Rot.scale; simp
  · unfold Rot.scale Rot.div
    ext <;> simp only
    field_simp
  · unfold Rot.scale Rot.div
    ext <;> simp only
    field_simp

/-- Addition of rotations does not commute. -/
theorem C130_not_commutative : ∃ a b : Rot, UnitVec a.axis ∧ UnitVec b.axis ∧ a + b ≠ b + a := by
  have hz : UnitVec ⟨0, 0, 1⟩ := by simp [UnitVec, dot]
  have hx : UnitVec ⟨1, 0, 0⟩ := by simp [UnitVec, dot]
  refine ⟨⟨⟨0, 0, 1⟩, Real.pi / 2⟩, ⟨⟨1, 0, 0⟩, Real.pi / 2⟩, hz, hx, fun h => ?_⟩
  have h1 := rotate_rot_add (a := ⟨⟨0, 0, 1⟩, Real.pi / 2⟩) (b := ⟨⟨1, 0, 0⟩, Real.pi / 2⟩) hz hx ⟨1, 0, 0⟩
  have h2 := rotate_rot_add (a := ⟨⟨1, 0, 0⟩, Real.pi / 2⟩) (b := ⟨⟨0, 0, 1⟩, Real.pi / 2⟩) hx hz ⟨1, 0, 0⟩
  rw [h, h2] at h1
  have h3 := congrArg Vec.y h1
  simp [rotate, dot] at h3

/-- Two quarter turns around the Z-axis make half a turn. -/
example (p : Vec) : rotate ((⟨⟨0, 0, 1⟩, Real.pi / 2⟩ : Rot) + ⟨⟨0, 0, 1⟩, Real.pi / 2⟩).axis
    ((⟨⟨0, 0, 1⟩, Real.pi / 2⟩ : Rot) + ⟨⟨0, 0, 1⟩, Real.pi / 2⟩).angle p = ⟨-p.x, -p.y, p.z⟩ := by
  have hz : UnitVec ⟨0, 0, 1⟩ := by simp [UnitVec, dot]
  rw [(C130_add hz hz p).1]
  ext <;> simp [rotate, dot]

end Verif.Rotation
