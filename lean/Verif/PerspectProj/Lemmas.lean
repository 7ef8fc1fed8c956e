import Verif.PerspectProj.Spec
import Mathlib.Tactic.FieldSimp
import Mathlib.Tactic.Linarith
import Mathlib.Tactic.LinearCombination
import Mathlib.Tactic.Positivity
import Mathlib.Tactic.NormNum
import Mathlib.Analysis.Real.Pi.Bounds
import Mathlib.Analysis.SpecialFunctions.Trigonometric.Bounds
import Mathlib.Analysis.SpecialFunctions.Trigonometric.ArctanDeriv
import Mathlib.Analysis.SpecialFunctions.Sqrt
import Mathlib.MeasureTheory.Integral.IntervalIntegral.Basic

/-!
# Lemmas about perspective projection
-/

namespace Verif.PerspectProj

open Spec

/-! ### Rounding -/

theorem round_int (n : ℤ) : round (n : ℝ) = n := by
  unfold round
  split
  · have : ⌊-(n : ℝ) + 1 / 2⌋ = -n := by
      rw [Int.floor_eq_iff]
      push_cast
      constructor <;> linarith
    rw [this, neg_neg]
  · rw [Int.floor_eq_iff]
    constructor <;> linarith

theorem clamped_int {n : ℤ} (h0 : 0 < n) (h1 : n < 2 ^ 31) : clampedFloatToInt n = n := by
  unfold clampedFloatToInt
  rw [if_neg (by omega), if_neg (by omega)]

/-! ### Fields of view -/

theorem captures_iff {f r w h : ℝ} (hf : 0 < f) (hr : 0 < r) : Captures f r w h ↔ w = f * √r ∧ h = f * (1 / √r) := by
  have hs : 0 < √r := Real.sqrt_pos.mpr hr
  have hs2 : √r ^ 2 = r := Real.sq_sqrt hr.le
  constructor
  · rintro ⟨h1, h2, h3, h4⟩
    have e1 : h ^ 2 * √r ^ 2 = f ^ 2 := by rw [hs2, h3, h4]; ring
    have e2 : h * √r = f := by
      rw [← mul_pow] at e1
      exact (pow_left_inj₀ (by positivity) hf.le two_ne_zero).mp e1
    constructor
    · rw [h4, ← e2]
      linear_combination -h * hs2
    · rw [← e2]; field_simp
  · rintro ⟨rfl, rfl⟩
    refine ⟨by positivity, by positivity, by field_simp, ?_⟩
    field_simp
    linear_combination hs2

/-! ### Angles of view -/

theorem seenAt_arctan {l : ℝ} (h : 0 ≤ l) : SeenAt l (2 * Real.arctan (l / 2)) := by
  have h1 : 0 ≤ Real.arctan (l / 2) := Real.arctan_nonneg.mpr (by positivity)
  have h2 := Real.arctan_lt_pi_div_two (l / 2)
  refine ⟨by linarith, by linarith, ?_⟩
  rw [Real.cos_two_mul, Real.cos_sq_arctan]
  have e : (-l / 2) ^ 2 + 1 ^ 2 = (l / 2) ^ 2 + 1 ^ 2 := by ring
  rw [e, Real.mul_self_sqrt (by positivity)]
  field_simp
  ring

/-! ### Solid angles -/

theorem sqrt_pos' (x y : ℝ) : 0 < √(x ^ 2 + y ^ 2 + 1) := Real.sqrt_pos.mpr (by positivity)

theorem hasDerivAt_root (c x : ℝ) (hc : 0 < x ^ 2 + c) : HasDerivAt (fun x => √(x ^ 2 + c)) (x / √(x ^ 2 + c)) x := by
  have h := ((hasDerivAt_pow 2 x).add_const c).sqrt hc.ne'
  refine h.congr_deriv ?_
  have : 0 < √(x ^ 2 + c) := Real.sqrt_pos.mpr hc
  field_simp
  norm_num
  try ring

theorem hasDerivAt_quot (c x : ℝ) (hc : 0 < x ^ 2 + c) :
    HasDerivAt (fun x => x / √(x ^ 2 + c)) (c / √(x ^ 2 + c) ^ 3) x := by
  have hp : 0 < √(x ^ 2 + c) := Real.sqrt_pos.mpr hc
  have h := (hasDerivAt_id' x).div (hasDerivAt_root c x hc) hp.ne'
  refine h.congr_deriv ?_
  have e : √(x ^ 2 + c) ^ 2 = x ^ 2 + c := Real.sq_sqrt hc.le
  field_simp
  rw [e]
  ring

theorem inner_integral (a y : ℝ) :
    ∫ x in (-a)..a, 1 / √(x ^ 2 + y ^ 2 + 1) ^ 3 = 2 * a / ((1 + y ^ 2) * √(a ^ 2 + y ^ 2 + 1)) := by
  have hc : ∀ x : ℝ, 0 < x ^ 2 + (y ^ 2 + 1) := fun x => by positivity
  have hd : ∀ x ∈ Set.uIcc (-a) a, HasDerivAt (fun x => (x / √(x ^ 2 + (y ^ 2 + 1))) / (y ^ 2 + 1)) (1 / √(x ^ 2 + (y ^ 2 + 1)) ^ 3) x := by
    intro x _
    refine ((hasDerivAt_quot _ x (hc x)).div_const (y ^ 2 + 1)).congr_deriv ?_
    have hp : 0 < √(x ^ 2 + (y ^ 2 + 1)) := Real.sqrt_pos.mpr (hc x)
    field_simp
  have hi : IntervalIntegrable (fun x : ℝ => 1 / √(x ^ 2 + (y ^ 2 + 1)) ^ 3) MeasureTheory.volume (-a) a := by
    apply Continuous.intervalIntegrable
    refine Continuous.div continuous_const (by fun_prop) ?_
    intro x
    have hp : 0 < √(x ^ 2 + (y ^ 2 + 1)) := Real.sqrt_pos.mpr (hc x)
    positivity
  have h := intervalIntegral.integral_eq_sub_of_hasDerivAt hd hi
  simp only [add_assoc]
  rw [h]
  have hp : 0 < √(a ^ 2 + (y ^ 2 + 1)) := Real.sqrt_pos.mpr (hc a)
  rw [neg_sq]
  field_simp
  ring

theorem outer_integral (a b : ℝ) :
    ∫ y in (-b)..b, 2 * a / ((1 + y ^ 2) * √(a ^ 2 + y ^ 2 + 1)) = 4 * Real.arctan (a * b / √(a ^ 2 + b ^ 2 + 1)) := by
  have hc : ∀ y : ℝ, 0 < y ^ 2 + (a ^ 2 + 1) := fun y => by positivity
  have e1 : ∀ y : ℝ, a ^ 2 + y ^ 2 + 1 = y ^ 2 + (a ^ 2 + 1) := fun y => by ring
  simp only [e1]
  have hd : ∀ y ∈ Set.uIcc (-b) b, HasDerivAt (fun y => 2 * Real.arctan (a * (y / √(y ^ 2 + (a ^ 2 + 1)))))
      (2 * a / ((1 + y ^ 2) * √(y ^ 2 + (a ^ 2 + 1)))) y := by
    intro y _
    refine ((((hasDerivAt_quot _ y (hc y)).const_mul a).arctan).const_mul 2).congr_deriv ?_
    have hp : 0 < √(y ^ 2 + (a ^ 2 + 1)) := Real.sqrt_pos.mpr (hc y)
    have e : √(y ^ 2 + (a ^ 2 + 1)) ^ 2 = y ^ 2 + (a ^ 2 + 1) := Real.sq_sqrt (hc y).le
    generalize √(y ^ 2 + (a ^ 2 + 1)) = S at hp e ⊢
    have h1 : 1 + (a * (y / S)) ^ 2 = (a ^ 2 + 1) * (1 + y ^ 2) / S ^ 2 := by
      field_simp
      rw [e]; ring
    rw [h1]
    field_simp
  have hi : IntervalIntegrable (fun y : ℝ => 2 * a / ((1 + y ^ 2) * √(y ^ 2 + (a ^ 2 + 1)))) MeasureTheory.volume (-b) b := by
    apply Continuous.intervalIntegrable
    refine Continuous.div continuous_const (by fun_prop) ?_
    intro y
    have hp : 0 < √(y ^ 2 + (a ^ 2 + 1)) := Real.sqrt_pos.mpr (hc y)
    positivity
  have h := intervalIntegral.integral_eq_sub_of_hasDerivAt hd hi
  rw [h, neg_sq]
  have e2 : a * (-b / √(b ^ 2 + (a ^ 2 + 1))) = -(a * (b / √(b ^ 2 + (a ^ 2 + 1)))) := by ring
  rw [e2, Real.arctan_neg, mul_div_assoc]
  ring

theorem solidAngle_eq (w h : ℝ) : solidAngle w h = 4 * Real.arctan (w * h / (2 * √(w ^ 2 + h ^ 2 + 4))) := by
  unfold solidAngle
  have e : ∀ y : ℝ, ∫ x in (-w / 2)..(w / 2), 1 / √(x ^ 2 + y ^ 2 + 1) ^ 3 = 2 * (w / 2) / ((1 + y ^ 2) * √((w / 2) ^ 2 + y ^ 2 + 1)) := by
    intro y
    rw [neg_div]
    exact inner_integral (w / 2) y
  simp only [e]
  rw [neg_div, outer_integral]
  have e2 : √((w / 2) ^ 2 + (h / 2) ^ 2 + 1) = √(w ^ 2 + h ^ 2 + 4) / 2 := by
    rw [show (w / 2) ^ 2 + (h / 2) ^ 2 + 1 = (w ^ 2 + h ^ 2 + 4) / 2 ^ 2 by ring, Real.sqrt_div' _ (by positivity), Real.sqrt_sq (by norm_num)]
  rw [e2]
  have hp : 0 < √(w ^ 2 + h ^ 2 + 4) := Real.sqrt_pos.mpr (by positivity)
  congr 2
  field_simp
  try ring

/-- The computed solid angle in terms of width and height. -/
theorem computed_eq {f r w h : ℝ} (hf : 0 < f) (hr : 0 < r) (hc : Captures f r w h) :
    1 / √(4 / square f + r + 1 / r) = f / √(w ^ 2 + h ^ 2 + 4) := by
  obtain ⟨h1, h2, h3, h4⟩ := hc
  have e : w ^ 2 + h ^ 2 + 4 = f ^ 2 * (4 / square f + r + 1 / r) := by
    unfold square
    rw [mul_add, mul_add]
    have e1 : f ^ 2 * r = w ^ 2 := by rw [h3, h4]; ring
    have e2 : f ^ 2 * (1 / r) = h ^ 2 := by rw [h3, h4]; field_simp
    rw [e1, e2]
    field_simp
    ring
  have hp : 0 < √(4 / square f + r + 1 / r) := Real.sqrt_pos.mpr (by unfold square; positivity)
  rw [e, Real.sqrt_mul (by positivity), Real.sqrt_sq hf.le]
  field_simp

/-! ### Projection of spheres -/

theorem projection_eq {d D : ℝ} (hD : 0 < D) (hd : D / 2 < d) : projection d D = disk (D / √(d ^ 2 - (D / 2) ^ 2)) := by
  have hq : 0 < d ^ 2 - (D / 2) ^ 2 := by nlinarith
  have hd0 : 0 < d := by linarith
  have hp : 0 < √(d ^ 2 - (D / 2) ^ 2) := Real.sqrt_pos.mpr hq
  have e : √(d ^ 2 - (D / 2) ^ 2) ^ 2 = d ^ 2 - (D / 2) ^ 2 := Real.sq_sqrt hq.le
  ext ⟨x, y⟩
  unfold projection disk
  simp only [Set.mem_ofPred_eq]
  have key : x ^ 2 + y ^ 2 ≤ (D / √(d ^ 2 - (D / 2) ^ 2) / 2) ^ 2 ↔ (x ^ 2 + y ^ 2) * (d ^ 2 - (D / 2) ^ 2) ≤ (D / 2) ^ 2 := by
    have e1 : (D / √(d ^ 2 - (D / 2) ^ 2) / 2) ^ 2 = (D / 2) ^ 2 / (d ^ 2 - (D / 2) ^ 2) := by
      rw [div_right_comm, div_pow (D / 2), e]
    rw [e1, le_div_iff₀ hq]
  rw [key]
  generalize (D / 2) ^ 2 = Q at *
  have hs : 0 < x ^ 2 + y ^ 2 + 1 := by positivity
  constructor
  · rintro ⟨t, -, ht⟩
    have h1 : 0 ≤ (t * (x ^ 2 + y ^ 2 + 1) - d) ^ 2 := sq_nonneg _
    have h2 := mul_le_mul_of_nonneg_left ht hs.le
    nlinarith
  · intro h
    refine ⟨d / (x ^ 2 + y ^ 2 + 1), by positivity, ?_⟩
    have e2 : (d / (x ^ 2 + y ^ 2 + 1) * x) ^ 2 + (d / (x ^ 2 + y ^ 2 + 1) * y) ^ 2 + (d / (x ^ 2 + y ^ 2 + 1) * 1 - d) ^ 2 =
        d ^ 2 * (x ^ 2 + y ^ 2) / (x ^ 2 + y ^ 2 + 1) := by
      field_simp
      ring
    rw [e2, div_le_iff₀ hs]
    linarith

theorem disk_inj {a b : ℝ} (ha : 0 ≤ a) (hb : 0 ≤ b) (h : disk a = disk b) : a = b := by
  have h1 : (a / 2, (0 : ℝ)) ∈ disk b := by rw [← h]; simp [disk]
  have h2 : (b / 2, (0 : ℝ)) ∈ disk a := by rw [h]; simp [disk]
  simp only [disk, Set.mem_ofPred_eq] at h1 h2
  apply le_antisymm <;> nlinarith

/-! ### Bounds -/

theorem arctan_lt_self' {x : ℝ} (h : 0 < x) : Real.arctan x < x := by
  have h1 : 0 < Real.arctan x := Real.arctan_pos.mpr h
  have h2 := Real.lt_tan h1 (Real.arctan_lt_pi_div_two x)
  rwa [Real.tan_arctan] at h2

theorem lt_arctan_bound : (0.2 : ℝ) < Real.arctan (1 / 4.25) := by
  have hpi := Real.pi_gt_three
  have h1 : Real.tan 0.2 < 1 / 4.25 := by
    rw [Real.tan_eq_sin_div_cos]
    have h2 : Real.sin 0.2 < 0.2 := Real.sin_lt (by norm_num)
    have h3 := Real.one_sub_sq_div_two_le_cos (x := 0.2)
    norm_num at h2 h3 ⊢
    rw [div_lt_iff₀ (by linarith)]
    linarith
  have h4 := Real.arctan_strictMono h1
  rwa [Real.arctan_tan (by linarith) (by linarith)] at h4

end Verif.PerspectProj
