import Verif.ColorSpace.Lemmas

/-!
# Round trips between color spaces
-/

namespace Verif.ColorSpace

open Spec

theorem base_zero (h l : ℚ) : base h l 0 = (l, l, l) := by
  unfold base; simp

theorem max3_unit {r g b : ℚ} (hr : Unit r) (hg : Unit g) (hb : Unit b) :
    min (min r g) b ≤ max (max r g) b ∧ 0 ≤ min (min r g) b ∧ max (max r g) b ≤ 1 := by
  refine ⟨?_, le_min (le_min hr.1 hg.1) hb.1, max_le (max_le hr.2 hg.2) hb.2⟩
  exact le_trans (min_le_right _ _) (le_max_right _ _)

theorem eq_of_max_eq_min {r g b : ℚ} (h : max (max r g) b - min (min r g) b = 0) :
    r = max (max r g) b ∧ g = max (max r g) b ∧ b = max (max r g) b := by
  have hr : r ≤ max (max r g) b := le_trans (le_max_left _ _) (le_max_left _ _)
  have hg : g ≤ max (max r g) b := le_trans (le_max_right _ _) (le_max_left _ _)
  have hb : b ≤ max (max r g) b := le_max_right _ _
  have hr' : min (min r g) b ≤ r := le_trans (min_le_left _ _) (min_le_left _ _)
  have hg' : min (min r g) b ≤ g := le_trans (min_le_left _ _) (min_le_right _ _)
  have hb' : min (min r g) b ≤ b := min_le_right _ _
  refine ⟨?_, ?_, ?_⟩ <;> linarith

/-- The denominator of saturation. -/
theorem denom_eq (M m : ℚ) : (if (M + m) / 2 > 1 / 2 then 2 - (M + m) else M + m) =
    2 * min ((M + m) / 2) (1 - (M + m) / 2) := by
  split
  · rw [min_eq_right (by linarith)]; ring
  · rw [min_eq_left (by linarith)]; ring

theorem rgbToHsl_eq (r g b : ℚ) : rgbToHsl (r, g, b) =
    (hue r g b (max (max r g) b) (max (max r g) b - min (min r g) b),
      (if 2 * min ((max (max r g) b + min (min r g) b) / 2) (1 - (max (max r g) b + min (min r g) b) / 2) ≠ 0 then
        (max (max r g) b - min (min r g) b) /
          (2 * min ((max (max r g) b + min (min r g) b) / 2) (1 - (max (max r g) b + min (min r g) b) / 2)) else 0),
      (max (max r g) b + min (min r g) b) / 2) := by
  unfold rgbToHsl
  simp only
  rw [denom_eq]

theorem fract_hue (r g b : ℚ) : Int.fract (hue r g b (max (max r g) b) (max (max r g) b - min (min r g) b)) =
    hue r g b (max (max r g) b) (max (max r g) b - min (min r g) b) :=
  Int.fract_eq_self.mpr (hue_range r g b)

theorem hsl_of_rgb {r g b : ℚ} (hr : Unit r) (hg : Unit g) (hb : Unit b) :
    hslToRgb (rgbToHsl (r, g, b)) = (r, g, b) := by
  rw [rgbToHsl_eq, hslToRgb_base, fract_hue]
  obtain ⟨h1, h2, h3⟩ := max3_unit hr hg hb
  have hbase := base_of_hue r g b
  have hz := @eq_of_max_eq_min r g b
  generalize max (max r g) b = M at *
  generalize min (min r g) b = m at *
  have he : 0 ≤ min ((M + m) / 2) (1 - (M + m) / 2) := le_min (by linarith) (by linarith)
  by_cases hd : M - m = 0
  · obtain ⟨e1, e2, e3⟩ := hz hd
    have : (if 2 * min ((M + m) / 2) (1 - (M + m) / 2) ≠ 0 then (M - m) / (2 * min ((M + m) / 2) (1 - (M + m) / 2)) else 0) = 0 := by
      rw [hd]; simp
    rw [this, zero_mul, base_zero, show (M + m) / 2 = M by linarith]
    rw [e1, e2, e3]
  · have hdpos : 0 < M - m := lt_of_le_of_ne (by linarith) (Ne.symm hd)
    have hepos : 0 < min ((M + m) / 2) (1 - (M + m) / 2) := lt_min (by linarith) (by linarith)
    generalize min ((M + m) / 2) (1 - (M + m) / 2) = e at *
    rw [if_pos (by linarith), show (M - m) / (2 * e) * e = (M - m) / 2 by field_simp]
    exact hbase hd

theorem hsl_range {r g b : ℚ} (hr : Unit r) (hg : Unit g) (hb : Unit b) :
    (0 ≤ (rgbToHsl (r, g, b)).1 ∧ (rgbToHsl (r, g, b)).1 < 1) ∧ Unit (rgbToHsl (r, g, b)).2.1 ∧ Unit (rgbToHsl (r, g, b)).2.2 := by
  refine ⟨by rw [rgbToHsl_eq]; exact hue_range r g b, ?_⟩
  rw [rgbToHsl_eq]
  obtain ⟨h1, h2, h3⟩ := max3_unit hr hg hb
  simp only
  generalize max (max r g) b = M at *
  generalize min (min r g) b = m at *
  have he : 0 ≤ min ((M + m) / 2) (1 - (M + m) / 2) := le_min (by linarith) (by linarith)
  refine ⟨?_, by constructor <;> linarith⟩
  split
  · have hpos : 0 < 2 * min ((M + m) / 2) (1 - (M + m) / 2) := lt_of_le_of_ne (by linarith) (Ne.symm (by assumption))
    refine ⟨div_nonneg (by linarith) hpos.le, ?_⟩
    rw [div_le_one hpos]
    rcases min_choice ((M + m) / 2) (1 - (M + m) / 2) with e | e <;> rw [e] <;> linarith
  · constructor <;> norm_num

theorem rgb_of_hsl {h s l : ℚ} (h0 : 0 ≤ h) (h1 : h < 1) (hs : 0 < s) (l0 : 0 < l) (l1 : l < 1) :
    rgbToHsl (hslToRgb (h, s, l)) = (h, s, l) := by
  rw [hslToRgb_base, Int.fract_eq_self.mpr ⟨h0, h1⟩]
  have hm : 0 < min l (1 - l) := lt_min l0 (by linarith)
  have ha : 0 < s * min l (1 - l) := mul_pos hs hm
  obtain ⟨e1, e2, e3⟩ := hue_of_base h l (s * min l (1 - l)) h0 h1 ha
  have : base h l (s * min l (1 - l)) = ((base h l (s * min l (1 - l))).1, (base h l (s * min l (1 - l))).2.1,
    (base h l (s * min l (1 - l))).2.2) := rfl
  rw [this, rgbToHsl_eq, e1, e2, show l + s * min l (1 - l) - (l - s * min l (1 - l)) = 2 * (s * min l (1 - l)) by ring, e3,
    show (l + s * min l (1 - l) + (l - s * min l (1 - l))) / 2 = l by ring, if_pos (by linarith)]
  refine Prod.ext rfl (Prod.ext ?_ rfl)
  simp only
  field_simp

theorem rgb_hsl_unit {h s l : ℚ} (hs : Unit s) (hl : Unit l) :
    Unit (hslToRgb (h, s, l)).1 ∧ Unit (hslToRgb (h, s, l)).2.1 ∧ Unit (hslToRgb (h, s, l)).2.2 := by
  rw [hslToRgb_base]
  have hm : 0 ≤ min l (1 - l) := le_min hl.1 (by linarith [hl.2])
  have hm1 : min l (1 - l) ≤ l := min_le_left _ _
  have hm2 : min l (1 - l) ≤ 1 - l := min_le_right _ _
  have ha0 : 0 ≤ s * min l (1 - l) := mul_nonneg hs.1 hm
  have ha1 : s * min l (1 - l) ≤ min l (1 - l) := mul_le_of_le_one_left hm hs.2
  have ht : ∀ k, -1 ≤ tri k ∧ tri k ≤ 1 := by
    intro k
    refine ⟨le_max_left _ _, max_le (by norm_num) (min_le_right _ _)⟩
  generalize s * min l (1 - l) = a at *
  have key : ∀ k, Unit (l - a * tri k) := by
    intro k
    obtain ⟨t1, t2⟩ := ht k
    constructor <;> nlinarith
  unfold base
  exact ⟨key _, key _, key _⟩

/-! ### HSV -/

theorem hsv_of_rgb {r g b : ℚ} (hr : 0 ≤ r) (hg : 0 ≤ g) (hb : 0 ≤ b) :
    hsvToRgb (rgbToHsv (r, g, b)) = (r, g, b) := by
  unfold rgbToHsv
  simp only
  rw [hsvToRgb_base, fract_hue]
  have h2 : 0 ≤ min (min r g) b := le_min (le_min hr hg) hb
  have hbase := base_of_hue r g b
  have hz := @eq_of_max_eq_min r g b
  have h1 : min (min r g) b ≤ max (max r g) b := le_trans (min_le_right _ _) (le_max_right _ _)
  generalize max (max r g) b = M at *
  generalize min (min r g) b = m at *
  have hms : M * (if M ≠ 0 then (M - m) / M else 0) = M - m := by
    split
    · rename_i h; field_simp
    · rename_i h
      have : M = 0 := not_not.mp h
      rw [this]; linarith
  rw [hms]
  by_cases hd : M - m = 0
  · obtain ⟨e1, e2, e3⟩ := hz hd
    rw [hd, zero_div, base_zero, sub_zero, e1, e2, e3]
  · rw [show M - (M - m) / 2 = (M + m) / 2 by ring]
    exact hbase hd

theorem hsv_range {r g b : ℚ} (hr : Unit r) (hg : Unit g) (hb : Unit b) :
    (0 ≤ (rgbToHsv (r, g, b)).1 ∧ (rgbToHsv (r, g, b)).1 < 1) ∧ Unit (rgbToHsv (r, g, b)).2.1 ∧ Unit (rgbToHsv (r, g, b)).2.2 := by
  unfold rgbToHsv
  simp only
  refine ⟨hue_range r g b, ?_⟩
  obtain ⟨h1, h2, h3⟩ := max3_unit hr hg hb
  generalize max (max r g) b = M at *
  generalize min (min r g) b = m at *
  refine ⟨?_, by constructor <;> linarith⟩
  split
  · have hpos : 0 < M := lt_of_le_of_ne (by linarith) (Ne.symm (by assumption))
    refine ⟨div_nonneg (by linarith) hpos.le, ?_⟩
    rw [div_le_one hpos]
    linarith
  · constructor <;> norm_num

theorem rgb_of_hsv {h s v : ℚ} (h0 : 0 ≤ h) (h1 : h < 1) (hs : 0 < s) (v0 : 0 < v) :
    rgbToHsv (hsvToRgb (h, s, v)) = (h, s, v) := by
  rw [hsvToRgb_base, Int.fract_eq_self.mpr ⟨h0, h1⟩]
  have ha : 0 < v * s / 2 := by have := mul_pos v0 hs; linarith
  obtain ⟨e1, e2, e3⟩ := hue_of_base h (v - v * s / 2) (v * s / 2) h0 h1 ha
  unfold rgbToHsv
  simp only
  rw [e1, e2, show v - v * s / 2 + v * s / 2 - (v - v * s / 2 - v * s / 2) = 2 * (v * s / 2) by ring, e3,
    show v - v * s / 2 + v * s / 2 = v by ring, if_pos v0.ne']
  refine Prod.ext rfl (Prod.ext ?_ rfl)
  simp only
  field_simp

theorem rgb_hsv_unit {h s v : ℚ} (hs : Unit s) (hv : Unit v) :
    Unit (hsvToRgb (h, s, v)).1 ∧ Unit (hsvToRgb (h, s, v)).2.1 ∧ Unit (hsvToRgb (h, s, v)).2.2 := by
  rw [hsvToRgb_base]
  have ht : ∀ k, -1 ≤ tri k ∧ tri k ≤ 1 := by
    intro k
    refine ⟨le_max_left _ _, max_le (by norm_num) (min_le_right _ _)⟩
  have ha0 : 0 ≤ v * s := mul_nonneg hv.1 hs.1
  have ha1 : v * s ≤ v := mul_le_of_le_one_right hv.1 hs.2
  have hv1 := hv.2
  generalize v * s = a at *
  have key : ∀ k, Unit (v - a / 2 - a / 2 * tri k) := by
    intro k
    obtain ⟨t1, t2⟩ := ht k
    constructor <;> nlinarith
  unfold base
  exact ⟨key _, key _, key _⟩

/-! ### Modulo -/

theorem fmod_bounds (a : ℚ) {b : ℚ} (hb : b ≠ 0) : |fmod a b| < |b| ∧ (0 ≤ a → 0 ≤ fmod a b) ∧ (a ≤ 0 → fmod a b ≤ 0) ∧
    ∃ n : ℤ, fmod a b = a - b * n := by
  have hn : ∃ n : ℤ, fmod a b = a - b * n := ⟨trunc (a / b), rfl⟩
  have h1 : a = b * (a / b) := by field_simp
  have h2 : fmod a b = b * (a / b - trunc (a / b)) := by
    unfold fmod
    rw [mul_sub, ← h1]
  generalize a / b = q at *
  subst h1
  have ht : |q - trunc q| < 1 ∧ (0 ≤ q → 0 ≤ q - trunc q) ∧ (q ≤ 0 → q - trunc q ≤ 0) := by
    unfold trunc
    split
    · rename_i hq
      have f1 := Int.floor_le q
      have f2 := Int.lt_floor_add_one q
      refine ⟨by rw [abs_lt]; constructor <;> linarith, fun _ => by linarith, fun h => ?_⟩
      have : q = 0 := le_antisymm h hq
      subst this; simp
    · rename_i hq
      have f1 := Int.le_ceil q
      have f2 := Int.ceil_lt_add_one q
      exact ⟨by rw [abs_lt]; constructor <;> linarith, fun h => absurd h hq, fun _ => by linarith⟩
  refine ⟨?_, ?_, ?_, hn⟩
  · rw [h2, abs_mul]
    have := abs_pos.mpr hb
    nlinarith [ht.1]
  · intro h
    rw [h2]
    rcases lt_or_gt_of_ne hb with hb | hb
    · exact mul_nonneg_of_nonpos_of_nonpos hb.le (ht.2.2 (by nlinarith))
    · exact mul_nonneg hb.le (ht.2.1 (by nlinarith))
  · intro h
    rw [h2]
    rcases lt_or_gt_of_ne hb with hb | hb
    · exact mul_nonpos_of_nonpos_of_nonneg hb.le (ht.2.1 (by nlinarith))
    · exact mul_nonpos_of_nonneg_of_nonpos hb.le (ht.2.2 (by nlinarith))

theorem periodicMod_pos {rnd : ℚ → ℚ} (hr0 : ∀ x, 0 ≤ x → 0 ≤ rnd x) (a : ℚ) {b : ℚ} (hb : 0 < b) :
    0 ≤ periodicMod rnd a b ∧ periodicMod rnd a b < b := by
  obtain ⟨h1, -⟩ := fmod_bounds a hb.ne'
  rw [abs_of_pos hb, abs_lt] at h1
  unfold periodicMod
  simp only
  rw [if_pos hb.le]
  split
  · exact ⟨by assumption, h1.2⟩
  · split
    · exact ⟨hr0 _ (by linarith), by assumption⟩
    · exact ⟨le_refl _, hb⟩

theorem periodicMod_neg {rnd : ℚ → ℚ} (hr0 : ∀ x, x ≤ 0 → rnd x ≤ 0) (a : ℚ) {b : ℚ} (hb : b < 0) :
    periodicMod rnd a b ≤ 0 ∧ b < periodicMod rnd a b := by
  obtain ⟨h1, -⟩ := fmod_bounds a hb.ne
  rw [abs_of_neg hb, abs_lt] at h1
  unfold periodicMod
  simp only
  rw [if_neg (by linarith)]
  split
  · exact ⟨by assumption, by linarith⟩
  · split
    · exact ⟨hr0 _ (by linarith), by assumption⟩
    · exact ⟨le_refl _, hb⟩

/-- In exact arithmetic, the result is congruent to the first operand. -/
theorem periodicMod_congr (a : ℚ) {b : ℚ} (hb : b ≠ 0) : ∃ n : ℤ, a = periodicMod id a b + b * n := by
  obtain ⟨h1, -, -, n, hn⟩ := fmod_bounds a hb
  have h1 := abs_lt.mp h1
  unfold periodicMod
  simp only [id]
  rcases lt_or_gt_of_ne hb with hb | hb
  · rw [if_neg (by linarith), abs_of_neg hb] at *
    split
    · exact ⟨n, by linarith⟩
    · rw [if_pos (by linarith)]
      exact ⟨n - 1, by push_cast; linarith⟩
  · rw [if_pos hb.le, abs_of_pos hb] at *
    split
    · exact ⟨n, by linarith⟩
    · rw [if_pos (by linarith)]
      exact ⟨n - 1, by push_cast; linarith⟩

/-! ### Rounding -/

theorem nearestEven_err (q : ℚ) : |(nearestEven q : ℚ) - q| ≤ 1 / 2 := by
  have hf : q = ⌊q⌋ + Int.fract q := (Int.floor_add_fract q).symm
  have h0 := Int.fract_nonneg q
  have h1 := Int.fract_lt_one q
  unfold nearestEven
  rw [abs_le]
  split
  · constructor <;> linarith
  · split
    · push_cast; constructor <;> linarith
    · split
      · constructor <;> linarith
      · push_cast; constructor <;> linarith

theorem relErr_roundBin (p : ℤ) : RelErr (2 ^ (-p)) (roundBin p) := by
  intro x
  by_cases hx : x = 0
  · subst hx
    unfold roundBin
    simp [nearestEven]
  · have hx' : 0 < |x| := abs_pos.mpr hx
    have hlog := Int.zpow_log_le_self (R := ℚ) (b := 2) (by norm_num) hx'
    unfold roundBin
    generalize Int.log 2 |x| = k at *
    have hpow : (0 : ℚ) < 2 ^ (k - (p - 1)) := zpow_pos (by norm_num) _
    have hq : x = x / 2 ^ (k - (p - 1)) * 2 ^ (k - (p - 1)) := by field_simp
    have herr := nearestEven_err (x / 2 ^ (k - (p - 1)))
    have : (nearestEven (x / 2 ^ (k - (p - 1))) : ℚ) * 2 ^ (k - (p - 1)) - x =
        ((nearestEven (x / 2 ^ (k - (p - 1))) : ℚ) - x / 2 ^ (k - (p - 1))) * 2 ^ (k - (p - 1)) := by
      rw [sub_mul, ← hq]
    rw [this, abs_mul, abs_of_pos hpow]
    have h3 : (2 : ℚ) ^ (k - (p - 1)) = 2 * (2 ^ (-p) * 2 ^ k) := by
      rw [show k - (p - 1) = 1 + (-p + k) by ring, zpow_add₀ (by norm_num), zpow_add₀ (by norm_num), zpow_one]
    have h4 : (2 : ℚ) ^ (-p) * 2 ^ k ≤ 2 ^ (-p) * |x| := by
      apply mul_le_mul_of_nonneg_left _ (zpow_pos (by norm_num) _).le
      exact_mod_cast hlog
    calc _ ≤ 1 / 2 * (2 : ℚ) ^ (k - (p - 1)) := mul_le_mul_of_nonneg_right herr hpow.le
      _ ≤ _ := by rw [h3]; linarith

theorem relErr_zero {u : ℚ} {rnd : ℚ → ℚ} (h : RelErr u rnd) : rnd 0 = 0 := by
  have := h 0
  simpa using this

theorem relErr_bounds {u : ℚ} {rnd : ℚ → ℚ} (h : RelErr u rnd) {x : ℚ} (hx : 0 ≤ x) : x * (1 - u) ≤ rnd x ∧ rnd x ≤ x * (1 + u) := by
  have := abs_le.mp (h x)
  rw [abs_of_nonneg hx] at this
  constructor <;> linarith

theorem trunc_toNat {x : ℚ} {n : Nat} (h1 : (n : ℚ) ≤ x) (h2 : x < n + 1) : (trunc x).toNat = n := by
  have hn : (0 : ℚ) ≤ n := Nat.cast_nonneg n
  unfold trunc
  rw [if_pos (by linarith)]
  have : ⌊x⌋ = (n : ℤ) := Int.floor_eq_iff.mpr ⟨by exact_mod_cast h1, by exact_mod_cast h2⟩
  rw [this]; simp

theorem factor_eq (max : Nat) : ((if max % 2 = 1 then 2 * ((max / 2 : Nat) + 1) else max + 1 : Nat) : ℚ) = max + 1 := by
  have : (if max % 2 = 1 then 2 * (max / 2 + 1) else max + 1) = max + 1 := by split <;> omega
  rw [this]; push_cast; rfl

theorem fltToInt_eq {rnd : ℚ → ℚ} {typeMax max i : Nat} {v : ℚ} (hi : i ≤ max) (hm : max ≤ typeMax) (hv : 0 ≤ v)
    (h1 : (i : ℚ) ≤ rnd (v * (max + 1))) (h2 : rnd (v * (max + 1)) < i + 1 ∨ i = max) : fltToInt rnd typeMax max v = i := by
  unfold fltToInt
  rw [if_pos hv]
  simp only [factor_eq]
  by_cases hle : rnd (v * (max + 1)) ≤ typeMax
  · rw [if_pos hle]
    rcases h2 with h2 | h2
    · rw [trunc_toNat h1 h2, if_pos hi]
    · split
      · subst h2
        rename_i hw
        apply le_antisymm hw
        unfold trunc
        rw [if_pos (le_trans (Nat.cast_nonneg _) h1)]
        have : (i : ℤ) ≤ ⌊rnd (v * (i + 1))⌋ := Int.le_floor.mpr (by exact_mod_cast h1)
        omega
      · exact h2.symm
  · rw [if_neg hle]
    rcases h2 with h2 | h2
    · have hle := lt_of_not_ge hle
      have : (typeMax : ℚ) < i + 1 := lt_trans hle h2
      have : typeMax < i + 1 := by exact_mod_cast this
      omega
    · exact h2.symm

/-- Round trip of components under the default model. -/
theorem roundTrip {rnd : ℚ → ℚ} {u : ℚ} {typeMax max i : Nat} (hr : RelErr u rnd) (hu0 : 0 ≤ u) (hu1 : u ≤ 1 / 4) (hpos : 0 < max)
    (hi : i ≤ max) (hm : max ≤ typeMax) (hu : (1 + u) ^ 2 * ((max : ℚ) ^ 2 - 1) < (max : ℚ) ^ 2) :
    fltToInt rnd typeMax max (intToFlt rnd i max) = i := by
  have hM : (1 : ℚ) ≤ max := by exact_mod_cast hpos
  have hM0 : (0 : ℚ) < max := by linarith
  have hI : (0 : ℚ) ≤ i := Nat.cast_nonneg i
  have hx : (0 : ℚ) ≤ i / max := div_nonneg hI hM0.le
  obtain ⟨a1, a2⟩ := relErr_bounds hr hx
  have hv : 0 ≤ intToFlt rnd i max := by
    unfold intToFlt
    exact le_trans (mul_nonneg hx (by linarith)) a1
  unfold intToFlt at hv ⊢
  have hv' : 0 ≤ rnd (↑i / ↑max) * ((max : ℚ) + 1) := mul_nonneg hv (by linarith)
  obtain ⟨b1, b2⟩ := relErr_bounds hr hv'
  apply fltToInt_eq hi hm hv
  · -- not too low
    have c1 : (i : ℚ) / max * (1 - u) * (max + 1) * (1 - u) ≤ rnd (rnd (↑i / ↑max) * ((max : ℚ) + 1)) := by
      refine le_trans ?_ b1
      apply mul_le_mul_of_nonneg_right _ (by linarith)
      exact mul_le_mul_of_nonneg_right a1 (by linarith)
    refine le_trans ?_ c1
    have key : (max : ℚ) ≤ (1 - u) ^ 2 * (max + 1) := by
      rcases Nat.lt_or_ge max 2 with h2 | h2
      · have : max = 1 := by omega
        subst this
        push_cast
        nlinarith
      · have hM2 : (2 : ℚ) ≤ max := by exact_mod_cast h2
        -- 2 u (M² - 1) < 1
        have : 2 * u * ((max : ℚ) ^ 2 - 1) < 1 := by
          have : 0 ≤ u ^ 2 * ((max : ℚ) ^ 2 - 1) := mul_nonneg (sq_nonneg _) (by nlinarith)
          nlinarith
        have h3 : 2 * u * ((max : ℚ) + 1) ≤ 1 := by
          have : 2 * u * ((max : ℚ) + 1) * 1 ≤ 2 * u * (max + 1) * (max - 1) :=
            mul_le_mul_of_nonneg_left (by linarith) (by nlinarith)
          nlinarith
        nlinarith [mul_nonneg (sq_nonneg u) (show (0 : ℚ) ≤ max + 1 by linarith)]
    have : (i : ℚ) / max * (1 - u) * (max + 1) * (1 - u) = i / max * ((1 - u) ^ 2 * (max + 1)) := by ring
    rw [this]
    calc (i : ℚ) = i / max * max := by field_simp
      _ ≤ _ := mul_le_mul_of_nonneg_left key hx
  · -- not too high
    by_cases he : i = max
    · right; exact he
    · left
      have hi1 : (i : ℚ) + 1 ≤ max := by
        have : i + 1 ≤ max := by omega
        exact_mod_cast this
      have c1 : rnd (rnd (↑i / ↑max) * ((max : ℚ) + 1)) ≤ (i : ℚ) / max * (1 + u) * (max + 1) * (1 + u) := by
        refine le_trans b2 ?_
        apply mul_le_mul_of_nonneg_right _ (by linarith)
        exact mul_le_mul_of_nonneg_right a2 (by linarith)
      refine lt_of_le_of_lt c1 ?_
      have : (i : ℚ) / max * (1 + u) * (max + 1) * (1 + u) = i * ((1 + u) ^ 2 * (max + 1)) / max := by ring
      rw [this, div_lt_iff₀ hM0]
      -- i (1+u)² (M+1) < (i+1) M
      generalize (max : ℚ) = M at *
      generalize (i : ℚ) = I at *
      have hu' : (1 + u) ^ 2 * (M + 1) * (M - 1) < M ^ 2 := by
        have : (1 + u) ^ 2 * (M + 1) * (M - 1) = (1 + u) ^ 2 * (M ^ 2 - 1) := by ring
        rw [this]; exact hu
      generalize (1 + u) ^ 2 * (M + 1) = K at *
      -- I K < (I+1) M given K (M-1) < M², I ≤ M-1
      rcases le_or_gt M 1 with h1 | h1
      · have : I = 0 := by linarith
        rw [this]; linarith
      · have hIM : 0 ≤ (M - 1 - I) := by linarith
        -- (I K - (I+1) M) (M-1) = I (K (M-1) - M²) + (I M² - (I+1) M (M-1)) ; second = M (I - M + 1) ≤ 0
        have e : (I * K - (I + 1) * M) * (M - 1) = I * (K * (M - 1) - M ^ 2) - M * (M - 1 - I) := by ring
        by_contra hc
        have hc : (I + 1) * M ≤ I * K := le_of_not_gt hc
        have p1 : 0 ≤ (I * K - (I + 1) * M) * (M - 1) := mul_nonneg (by linarith) (by linarith)
        have p2 : I * (K * (M - 1) - M ^ 2) ≤ 0 := mul_nonpos_of_nonneg_of_nonpos hI (by linarith)
        have p3 : 0 ≤ M * (M - 1 - I) := mul_nonneg hM0.le hIM
        have p4 : M * (M - 1 - I) = 0 := by linarith
        have p5 : I * (K * (M - 1) - M ^ 2) = 0 := by linarith
        rcases mul_eq_zero.mp p4 with h | h
        · linarith
        · rcases mul_eq_zero.mp p5 with h' | h' <;> linarith

theorem fltToIntA_eq {rnd : ℚ → ℚ} {typeMax max i : Nat} {v : ℚ} (hi : i ≤ max) (hm : max ≤ typeMax) (hv : 0 ≤ v)
    (h1 : (i : ℚ) ≤ rnd (rnd (v * max) + 1 / 2)) (h2 : rnd (rnd (v * max) + 1 / 2) < i + 1) :
    fltToIntA rnd typeMax max v = i := by
  unfold fltToIntA
  rw [if_pos hv]
  simp only
  by_cases hle : rnd (rnd (v * max) + 1 / 2) ≤ typeMax
  · rw [if_pos hle, trunc_toNat h1 h2, if_pos hi]
  · rw [if_neg hle]
    have hle := lt_of_not_ge hle
    have : (typeMax : ℚ) < i + 1 := lt_trans hle h2
    have : typeMax < i + 1 := by exact_mod_cast this
    omega

/-- Round trip of components under the alternate model. -/
theorem roundTripA {rnd : ℚ → ℚ} {u : ℚ} {typeMax max i : Nat} (hr : RelErr u rnd) (hu0 : 0 ≤ u) (hpos : 0 < max)
    (hi : i ≤ max) (hm : max ≤ typeMax) (hu : 16 * (max * u) ≤ 1) :
    fltToIntA rnd typeMax max (intToFlt rnd i max) = i := by
  have hM : (1 : ℚ) ≤ max := by exact_mod_cast hpos
  have hM0 : (0 : ℚ) < max := by linarith
  have hI : (0 : ℚ) ≤ i := Nat.cast_nonneg i
  have hIM : (i : ℚ) ≤ max := by exact_mod_cast hi
  have hu1 : 16 * u ≤ 1 := by nlinarith
  have hx : (0 : ℚ) ≤ i / max := div_nonneg hI hM0.le
  obtain ⟨a1, a2⟩ := relErr_bounds hr hx
  have hv : 0 ≤ intToFlt rnd i max := by
    unfold intToFlt
    exact le_trans (mul_nonneg hx (by linarith)) a1
  unfold intToFlt at hv ⊢
  have hv' : 0 ≤ rnd (↑i / ↑max) * (max : ℚ) := mul_nonneg hv (by linarith)
  obtain ⟨b1, b2⟩ := relErr_bounds hr hv'
  have hw : 0 ≤ rnd (rnd (↑i / ↑max) * (max : ℚ)) := le_trans (mul_nonneg hv' (by linarith)) b1
  obtain ⟨c1, c2⟩ := relErr_bounds hr (show 0 ≤ rnd (rnd (↑i / ↑max) * (max : ℚ)) + 1 / 2 by linarith)
  have hu16 : 16 * (i * u) ≤ 1 := by nlinarith
  have eI : (i : ℚ) / max * max = i := by field_simp
  have d1 : (i : ℚ) * (1 - u) ≤ rnd (↑i / ↑max) * (max : ℚ) := by
    have := mul_le_mul_of_nonneg_right a1 hM0.le
    calc (i : ℚ) * (1 - u) = i / max * max * (1 - u) := by rw [eI]
      _ = i / max * (1 - u) * max := by ring
      _ ≤ _ := this
  have d2 : rnd (↑i / ↑max) * (max : ℚ) ≤ (i : ℚ) * (1 + u) := by
    have := mul_le_mul_of_nonneg_right a2 hM0.le
    calc _ ≤ (i : ℚ) / max * (1 + u) * max := this
      _ = i / max * max * (1 + u) := by ring
      _ = _ := by rw [eI]
  generalize hy : rnd (↑i / ↑max) * (max : ℚ) = x at *
  generalize hz : rnd x = y at *
  generalize hI' : (i : ℚ) = I at *
  have huu : 0 ≤ u * u := mul_nonneg hu0 hu0
  have p : 0 ≤ I * u := mul_nonneg hI hu0
  have p2 : 0 ≤ I * u * u := mul_nonneg p hu0
  have p2' : 16 * (I * u * u) ≤ I * u := by nlinarith
  have p3' : 16 * (I * u * u * u) ≤ I * u * u := by nlinarith
  have p3 : 0 ≤ I * u * u * u := mul_nonneg p2 hu0
  have e1 : I * (1 - u) * (1 - u) ≤ y := le_trans (mul_le_mul_of_nonneg_right d1 (by linarith)) b1
  have e2 : y ≤ I * (1 + u) * (1 + u) := le_trans b2 (mul_le_mul_of_nonneg_right d2 (by linarith))
  have f1 : (I * (1 - u) * (1 - u) + 1 / 2) * (1 - u) ≤ rnd (y + 1 / 2) :=
    le_trans (mul_le_mul_of_nonneg_right (by linarith) (by linarith)) c1
  have f2 : rnd (y + 1 / 2) ≤ (I * (1 + u) * (1 + u) + 1 / 2) * (1 + u) :=
    le_trans c2 (mul_le_mul_of_nonneg_right (by linarith) (by linarith))
  have g1 : (I * (1 - u) * (1 - u) + 1 / 2) * (1 - u) = I - 3 * (I * u) + 3 * (I * u * u) - I * u * u * u + 1 / 2 - u / 2 := by ring
  have g2 : (I * (1 + u) * (1 + u) + 1 / 2) * (1 + u) = I + 3 * (I * u) + 3 * (I * u * u) + I * u * u * u + 1 / 2 + u / 2 := by ring
  apply fltToIntA_eq hi hm hv
  · rw [hI', hy, hz]; linarith
  · rw [hI', hy, hz]; linarith

end Verif.ColorSpace
