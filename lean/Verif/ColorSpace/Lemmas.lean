import Verif.ColorSpace.Model
import Verif.ColorSpace.Spec
import Mathlib.Tactic.Linarith
import Mathlib.Tactic.FieldSimp
import Mathlib.Tactic.Ring
import Mathlib.Tactic.LinearCombination

/-!
# Lemmas about conversion between color spaces
-/

namespace Verif.ColorSpace

open Spec

/-! ### Modulo -/

theorem fmod_nonneg {x y : ℚ} (hx : 0 ≤ x) (hy : 0 < y) : fmod x y = x - y * ⌊x / y⌋ := by
  unfold fmod trunc
  rw [if_pos (div_nonneg hx hy.le)]

theorem fmod_small {x y : ℚ} (hx : 0 ≤ x) (h : x < y) : fmod x y = x := by
  have hy : 0 < y := lt_of_le_of_lt hx h
  rw [fmod_nonneg hx hy]
  have : ⌊x / y⌋ = 0 := by
    rw [Int.floor_eq_iff]
    constructor
    · simp only [Int.cast_zero]; exact div_nonneg hx hy.le
    · simp only [Int.cast_zero, zero_add]; exact (div_lt_one hy).mpr h
  rw [this]; simp

theorem fmod_wrap {x y : ℚ} (h1 : y ≤ x) (h2 : x < 2 * y) (hy : 0 < y) : fmod x y = x - y := by
  rw [fmod_nonneg (by linarith) hy]
  have : ⌊x / y⌋ = 1 := by
    rw [Int.floor_eq_iff]
    constructor
    · simp only [Int.cast_one]; exact (one_le_div hy).mpr h1
    · simp only [Int.cast_one]; rw [div_lt_iff₀ hy]; linarith
  rw [this]; simp

/-- The periodic modulo operation is exact in exact arithmetic. -/
theorem periodicMod_exact {a b : ℚ} (hb : 0 < b) : periodicMod id a b = b * Int.fract (a / b) := by
  have hf : b * Int.fract (a / b) = a - b * ⌊a / b⌋ := by
    rw [Int.fract]
    field_simp
  have h0 : 0 ≤ b * Int.fract (a / b) := mul_nonneg hb.le (Int.fract_nonneg _)
  have h1 : b * Int.fract (a / b) < b := by
    have := Int.fract_lt_one (a / b)
    nlinarith
  unfold periodicMod
  simp only [id]
  rw [if_pos hb.le]
  by_cases hq : 0 ≤ a / b
  · have hc : fmod a b = b * Int.fract (a / b) := by
      rw [hf]; unfold fmod trunc; rw [if_pos hq]
    rw [hc, if_pos h0]
  · have hc : fmod a b = a - b * ⌈a / b⌉ := by unfold fmod trunc; rw [if_neg hq]
    rw [hc]
    by_cases hz : a - b * ⌈a / b⌉ ≥ 0
    · rw [if_pos hz, hf]
      have h2 : (⌈a / b⌉ : ℚ) ≤ a / b := by
        rw [le_div_iff₀ hb]; linarith
      have h3 : ⌊a / b⌋ = ⌈a / b⌉ := by
        apply le_antisymm
        · exact Int.floor_le_ceil _
        · exact Int.le_floor.mpr h2
      rw [h3]
    · rw [if_neg hz]
      have h2 : ⌊a / b⌋ = ⌈a / b⌉ - 1 := by
        rw [Int.floor_eq_iff]
        have := Int.ceil_lt_add_one (a / b)
        constructor
        · push_cast; linarith
        · push_cast
          have : a / b < ⌈a / b⌉ := by
            rw [div_lt_iff₀ hb]; linarith
          linarith
      have h3 : a - b * ⌈a / b⌉ + b = b * Int.fract (a / b) := by
        rw [hf, h2]; push_cast; ring
      rw [h3, if_pos h1]

/-! ### The periodic function that is common to the conversions -/

/-- The piecewise linear function. -/
def tri (k : ℚ) : ℚ := max (-1) (min (min (k - 3) (9 - k)) 1)

theorem tri_a {k : ℚ} (h : k ≤ 2) : tri k = -1 := by
  unfold tri
  rw [max_eq_left]
  exact le_trans (min_le_left _ _) (le_trans (min_le_left _ _) (by linarith))

theorem tri_b {k : ℚ} (h1 : 2 ≤ k) (h2 : k ≤ 4) : tri k = k - 3 := by
  unfold tri
  rw [min_eq_left (show k - 3 ≤ 9 - k by linarith), min_eq_left (by linarith), max_eq_right (by linarith)]

theorem tri_c {k : ℚ} (h1 : 4 ≤ k) (h2 : k ≤ 8) : tri k = 1 := by
  unfold tri
  rw [min_eq_right, max_eq_right (by norm_num)]
  exact le_min (by linarith) (by linarith)

theorem tri_d {k : ℚ} (h1 : 8 ≤ k) (h2 : k ≤ 10) : tri k = 9 - k := by
  unfold tri
  rw [min_eq_right (show 9 - k ≤ k - 3 by linarith), min_eq_left (by linarith), max_eq_right (by linarith)]

theorem tri_e {k : ℚ} (h : 10 ≤ k) : tri k = -1 := by
  unfold tri
  rw [max_eq_left]
  exact le_trans (min_le_left _ _) (le_trans (min_le_right _ _) (by linarith))

/-- The color with middle `l`, amplitude `a` and hue `h`. -/
def base (h l a : ℚ) : Vec3 :=
  (l - a * tri (12 * h), l - a * tri (if 12 * h < 4 then 12 * h + 8 else 12 * h - 4),
    l - a * tri (if 12 * h < 8 then 12 * h + 4 else 12 * h - 8))

theorem hslToRgb_base (h s l : ℚ) : hslToRgb (h, s, l) = base (Int.fract h) l (s * min l (1 - l)) := by
  have h0 := Int.fract_nonneg h
  have h1 := Int.fract_lt_one h
  unfold hslToRgb
  simp only
  rw [periodicMod_exact (by norm_num), show h * 360 / 360 = h by ring]
  generalize Int.fract h = x at *
  have e : (360 : ℚ) * x / 30 = 12 * x := by ring
  rw [e]
  unfold base tri
  have k0 : fmod (0 + 12 * x) 12 = 12 * x := by
    rw [fmod_small (by linarith) (by linarith)]; ring
  have k8 : fmod (8 + 12 * x) 12 = if 12 * x < 4 then 12 * x + 8 else 12 * x - 4 := by
    split
    · rw [fmod_small (by linarith) (by linarith)]; ring
    · rw [fmod_wrap (by linarith) (by linarith) (by norm_num)]; ring
  have k4 : fmod (4 + 12 * x) 12 = if 12 * x < 8 then 12 * x + 4 else 12 * x - 8 := by
    split
    · rw [fmod_small (by linarith) (by linarith)]; ring
    · rw [fmod_wrap (by linarith) (by linarith) (by norm_num)]; ring
  rw [k0, k8, k4]

/-- The corresponding function for HSV. -/
theorem tri_hsv {k k' : ℚ} (h : k' = 2 * k + 2 ∨ k' = 2 * k - 10) (h0 : 0 ≤ k) (h6 : k < 6) (h' : 0 ≤ k') (h12 : k' < 12) :
    max 0 (min (min k (4 - k)) 1) = (1 + tri k') / 2 := by
  rcases h with rfl | rfl
  · by_cases c1 : k ≤ 1
    · rw [tri_b (by linarith) (by linarith), min_eq_left (show k ≤ 4 - k by linarith), min_eq_left (by linarith),
        max_eq_right (by linarith)]
      ring
    · by_cases c2 : k ≤ 3
      · rw [tri_c (by linarith) (by linarith), min_eq_right (le_min (by linarith) (by linarith)),
          max_eq_right (by norm_num)]
        norm_num
      · by_cases c3 : k ≤ 4
        · rw [tri_d (by linarith) (by linarith), min_eq_right (show 4 - k ≤ k by linarith), min_eq_left (by linarith),
            max_eq_right (by linarith)]
          ring
        · rw [tri_e (by linarith), min_eq_right (show 4 - k ≤ k by linarith), min_eq_left (by linarith),
            max_eq_left (by linarith)]
          norm_num
  · rw [tri_a (by linarith), min_eq_right (show 4 - k ≤ k by linarith), min_eq_left (by linarith),
      max_eq_left (by linarith)]
    norm_num

theorem hsvToRgb_base (h s v : ℚ) : hsvToRgb (h, s, v) = base (Int.fract h) (v - v * s / 2) (v * s / 2) := by
  have h0 := Int.fract_nonneg h
  have h1 := Int.fract_lt_one h
  unfold hsvToRgb
  simp only
  rw [periodicMod_exact (by norm_num), show h * 360 / 360 = h by ring]
  generalize Int.fract h = x at *
  have e : (360 : ℚ) * x / 60 = 6 * x := by ring
  rw [e]
  unfold base
  have t5 : max 0 (min (min (fmod (5 + 6 * x) 6) (4 - fmod (5 + 6 * x) 6)) 1) = (1 + tri (12 * x)) / 2 := by
    by_cases c : 6 * x < 1
    · rw [fmod_small (by linarith) (by linarith)]
      exact tri_hsv (Or.inr (by ring)) (by linarith) (by linarith) (by linarith) (by linarith)
    · rw [fmod_wrap (by linarith) (by linarith) (by norm_num)]
      exact tri_hsv (Or.inl (by ring)) (by linarith) (by linarith) (by linarith) (by linarith)
  have t3 : max 0 (min (min (fmod (3 + 6 * x) 6) (4 - fmod (3 + 6 * x) 6)) 1) =
      (1 + tri (if 12 * x < 4 then 12 * x + 8 else 12 * x - 4)) / 2 := by
    split
    · rw [fmod_small (by linarith) (by linarith)]
      exact tri_hsv (Or.inl (by ring)) (by linarith) (by linarith) (by linarith) (by linarith)
    · by_cases c : 6 * x < 3
      · rw [fmod_small (by linarith) (by linarith)]
        exact tri_hsv (Or.inr (by ring)) (by linarith) (by linarith) (by linarith) (by linarith)
      · rw [fmod_wrap (by linarith) (by linarith) (by norm_num)]
        exact tri_hsv (Or.inl (by ring)) (by linarith) (by linarith) (by linarith) (by linarith)
  have t1 : max 0 (min (min (fmod (1 + 6 * x) 6) (4 - fmod (1 + 6 * x) 6)) 1) =
      (1 + tri (if 12 * x < 8 then 12 * x + 4 else 12 * x - 8)) / 2 := by
    split
    · rw [fmod_small (by linarith) (by linarith)]
      exact tri_hsv (Or.inl (by ring)) (by linarith) (by linarith) (by linarith) (by linarith)
    · by_cases c : 6 * x < 5
      · rw [fmod_small (by linarith) (by linarith)]
        exact tri_hsv (Or.inr (by ring)) (by linarith) (by linarith) (by linarith) (by linarith)
      · rw [fmod_wrap (by linarith) (by linarith) (by norm_num)]
        exact tri_hsv (Or.inl (by ring)) (by linarith) (by linarith) (by linarith) (by linarith)
  rw [t5, t3, t1]
  refine Prod.ext ?_ (Prod.ext ?_ ?_)
  · simp only; ring
  · simp only; ring
  · simp only; ring

/-! ### Agreement with the specifications -/

theorem css_mid (s l : ℚ) : (if l ≤ 1 / 2 then l * (s + 1) else l + s - l * s) = l + s * min l (1 - l) := by
  split
  · rw [min_eq_left (by linarith)]; ring
  · rw [min_eq_right (by linarith)]; ring

theorem hslToRgb_css (h s l : ℚ) : hslToRgb (h, s, l) = cssHslToRgb h s l := by
  rw [hslToRgb_base]
  unfold cssHslToRgb
  simp only
  rw [css_mid]
  have h0 := Int.fract_nonneg h
  have h1 := Int.fract_lt_one h
  generalize Int.fract h = x at *
  generalize s * min l (1 - l) = a
  unfold base hueToRgb
  refine Prod.ext ?_ (Prod.ext ?_ ?_)
  · simp only
    split_ifs <;> first
      | (exfalso; linarith)
      | (rw [tri_a (by linarith)]; ring)
      | (rw [tri_b (by linarith) (by linarith)]; ring)
      | (rw [tri_c (by linarith) (by linarith)]; ring)
      | (rw [tri_d (by linarith) (by linarith)]; ring)
      | (rw [tri_e (by linarith)]; ring)
  · simp only
    split_ifs <;> first
      | (exfalso; linarith)
      | (rw [tri_a (by linarith)]; ring)
      | (rw [tri_b (by linarith) (by linarith)]; ring)
      | (rw [tri_c (by linarith) (by linarith)]; ring)
      | (rw [tri_d (by linarith) (by linarith)]; ring)
      | (rw [tri_e (by linarith)]; ring)
  · simp only
    split_ifs <;> first
      | (exfalso; linarith)
      | (rw [tri_a (by linarith)]; ring)
      | (rw [tri_b (by linarith) (by linarith)]; ring)
      | (rw [tri_c (by linarith) (by linarith)]; ring)
      | (rw [tri_d (by linarith) (by linarith)]; ring)
      | (rw [tri_e (by linarith)]; ring)


theorem hsvToRgb_smith (h s v : ℚ) : hsvToRgb (h, s, v) = smithHsvToRgb h s v := by
  rw [hsvToRgb_base]
  unfold smithHsvToRgb
  simp only
  have h0 := Int.fract_nonneg h
  have h1 := Int.fract_lt_one h
  generalize Int.fract h = x at *
  have hfl : ∀ n : ℤ, (n : ℚ) ≤ 6 * x → 6 * x < n + 1 → ⌊6 * x⌋ = n ∧ Int.fract (6 * x) = 6 * x - n := by
    intro n a b
    have : ⌊6 * x⌋ = n := Int.floor_eq_iff.mpr ⟨a, b⟩
    exact ⟨this, by rw [Int.fract, this]⟩
  unfold base
  by_cases c1 : 6 * x < 1
  · obtain ⟨e1, e2⟩ := hfl 0 (by push_cast; linarith) (by push_cast; linarith)
    rw [e1, e2, if_pos (by linarith), if_pos (by linarith), tri_a (by linarith), tri_d (by linarith) (by linarith),
      tri_c (by linarith) (by linarith)]
    refine Prod.ext ?_ (Prod.ext ?_ ?_) <;> (simp only; push_cast; ring)
  by_cases c2 : 6 * x < 2
  · obtain ⟨e1, e2⟩ := hfl 1 (by push_cast; linarith) (by push_cast; linarith)
    rw [e1, e2, if_pos (by linarith), if_pos (by linarith), tri_b (by linarith) (by linarith), tri_e (by linarith),
      tri_c (by linarith) (by linarith)]
    refine Prod.ext ?_ (Prod.ext ?_ ?_) <;> (simp only; push_cast; ring)
  by_cases c3 : 6 * x < 3
  · obtain ⟨e1, e2⟩ := hfl 2 (by push_cast; linarith) (by push_cast; linarith)
    rw [e1, e2, if_neg (by linarith), if_pos (by linarith), tri_c (by linarith) (by linarith), tri_a (by linarith),
      tri_d (by linarith) (by linarith)]
    refine Prod.ext ?_ (Prod.ext ?_ ?_) <;> (simp only; push_cast; ring)
  by_cases c4 : 6 * x < 4
  · obtain ⟨e1, e2⟩ := hfl 3 (by push_cast; linarith) (by push_cast; linarith)
    rw [e1, e2, if_neg (by linarith), if_pos (by linarith), tri_c (by linarith) (by linarith),
      tri_b (by linarith) (by linarith), tri_e (by linarith)]
    refine Prod.ext ?_ (Prod.ext ?_ ?_) <;> (simp only; push_cast; ring)
  by_cases c5 : 6 * x < 5
  · obtain ⟨e1, e2⟩ := hfl 4 (by push_cast; linarith) (by push_cast; linarith)
    rw [e1, e2, if_neg (by linarith), if_neg (by linarith), tri_d (by linarith) (by linarith),
      tri_c (by linarith) (by linarith), tri_a (by linarith)]
    refine Prod.ext ?_ (Prod.ext ?_ ?_) <;> (simp only; push_cast; ring)
  · obtain ⟨e1, e2⟩ := hfl 5 (by push_cast; linarith) (by push_cast; linarith)
    rw [e1, e2, if_neg (by linarith), if_neg (by linarith), tri_e (by linarith),
      tri_c (by linarith) (by linarith), tri_b (by linarith) (by linarith)]
    refine Prod.ext ?_ (Prod.ext ?_ ?_) <;> (simp only; push_cast; ring)

/-! ### From RGB -/

theorem hue_range (r g b : ℚ) : 0 ≤ hue r g b (max (max r g) b) (max (max r g) b - min (min r g) b) ∧
    hue r g b (max (max r g) b) (max (max r g) b - min (min r g) b) < 1 := by
  have hr : r ≤ max (max r g) b := le_trans (le_max_left _ _) (le_max_left _ _)
  have hg : g ≤ max (max r g) b := le_trans (le_max_right _ _) (le_max_left _ _)
  have hb : b ≤ max (max r g) b := le_max_right _ _
  have hr' : min (min r g) b ≤ r := le_trans (min_le_left _ _) (min_le_left _ _)
  have hg' : min (min r g) b ≤ g := le_trans (min_le_left _ _) (min_le_right _ _)
  have hb' : min (min r g) b ≤ b := min_le_right _ _
  generalize max (max r g) b = M at *
  generalize min (min r g) b = m at *
  unfold hue
  by_cases hd : M - m ≠ 0
  · rw [if_pos hd]
    have hd0 : 0 < M - m := lt_of_le_of_ne (by linarith) (Ne.symm hd)
    have hle : ∀ x y : ℚ, x ≤ M → m ≤ x → y ≤ M → m ≤ y → -1 ≤ (x - y) / (M - m) ∧ (x - y) / (M - m) ≤ 1 := by
      intro x y h1 h2 h3 h4
      constructor
      · rw [le_div_iff₀ hd0]; linarith
      · rw [div_le_iff₀ hd0]; linarith
    split
    · obtain ⟨h1, h2⟩ := hle g b hg hg' hb hb'
      split
      · rename_i hlt
        have : (g - b) / (M - m) < 0 := div_neg_of_neg_of_pos (by linarith) hd0
        constructor <;> linarith
      · rename_i hlt
        have : 0 ≤ (g - b) / (M - m) := div_nonneg (by linarith) hd0.le
        constructor <;> linarith
    · split
      · obtain ⟨h1, h2⟩ := hle b r hb hb' hr hr'
        constructor <;> linarith
      · obtain ⟨h1, h2⟩ := hle r g hr hr' hg hg'
        constructor <;> linarith
  · rw [if_neg hd]
    constructor <;> norm_num

/-- The hue of a color that is not gray determines the color together with the highest and the lowest component. -/
theorem base_of_hue (r g b : ℚ) (hd : max (max r g) b - min (min r g) b ≠ 0) :
    base (hue r g b (max (max r g) b) (max (max r g) b - min (min r g) b)) ((max (max r g) b + min (min r g) b) / 2)
      ((max (max r g) b - min (min r g) b) / 2) = (r, g, b) := by
  have hr : r ≤ max (max r g) b := le_trans (le_max_left _ _) (le_max_left _ _)
  have hg : g ≤ max (max r g) b := le_trans (le_max_right _ _) (le_max_left _ _)
  have hb : b ≤ max (max r g) b := le_max_right _ _
  have hr' : min (min r g) b ≤ r := le_trans (min_le_left _ _) (min_le_left _ _)
  have hg' : min (min r g) b ≤ g := le_trans (min_le_left _ _) (min_le_right _ _)
  have hb' : min (min r g) b ≤ b := min_le_right _ _
  have hM : max (max r g) b = r ∨ max (max r g) b = g ∨ max (max r g) b = b := by
    rcases max_choice (max r g) b with h | h
    · rcases max_choice r g with h' | h'
      · left; rw [h, h']
      · right; left; rw [h, h']
    · right; right; exact h
  have hm : min (min r g) b = r ∨ min (min r g) b = g ∨ min (min r g) b = b := by
    rcases min_choice (min r g) b with h | h
    · rcases min_choice r g with h' | h'
      · left; rw [h, h']
      · right; left; rw [h, h']
    · right; right; exact h
  generalize max (max r g) b = M at *
  generalize min (min r g) b = m at *
  have hd0 : 0 < M - m := lt_of_le_of_ne (by linarith) (Ne.symm hd)
  have hle : ∀ x y : ℚ, x ≤ M → m ≤ x → y ≤ M → m ≤ y → ∃ q, (x - y) / (M - m) = q ∧ q * (M - m) = x - y ∧ -1 ≤ q ∧ q ≤ 1 ∧
      (x < y → q < 0) ∧ (y ≤ x → 0 ≤ q) := by
    intro x y h1 h2 h3 h4
    refine ⟨_, rfl, div_mul_cancel₀ _ hd, ?_, ?_, ?_, ?_⟩
    · rw [le_div_iff₀ hd0]; linarith
    · rw [div_le_iff₀ hd0]; linarith
    · intro h; exact div_neg_of_neg_of_pos (by linarith) hd0
    · intro h; exact div_nonneg (by linarith) hd0.le
  unfold hue
  rw [if_pos hd]
  by_cases c1 : M = r
  · rw [if_pos c1]
    obtain ⟨q, e1, e2, q1, q2, q3, q4⟩ := hle g b hg hg' hb hb'
    rw [e1]
    by_cases c2 : g < b
    · rw [if_pos c2]
      have := q3 c2
      have em : m = g := by
        rcases hm with h | h | h
        · exfalso; linarith
        · exact h
        · exfalso; linarith
      unfold base
      rw [if_neg (by linarith), if_neg (by linarith), tri_e (by linarith), tri_c (by linarith) (by linarith),
        tri_b (by linarith) (by linarith)]
      refine Prod.ext ?_ (Prod.ext ?_ ?_)
      · simp only; linarith
      · simp only; linarith
      · simp only; linear_combination -e2 + em
    · rw [if_neg c2]
      have := q4 (by linarith)
      have em : m = b := by
        rcases hm with h | h | h
        · exfalso; linarith
        · linarith
        · exact h
      unfold base
      rw [if_pos (by linarith), if_pos (by linarith), tri_a (by linarith), tri_d (by linarith) (by linarith),
        tri_c (by linarith) (by linarith)]
      refine Prod.ext ?_ (Prod.ext ?_ ?_)
      · simp only; linarith
      · simp only; linear_combination e2 + em
      · simp only; linarith
  · rw [if_neg c1]
    have hrM : r < M := lt_of_le_of_ne hr (Ne.symm c1)
    by_cases c2 : M = g
    · rw [if_pos c2]
      obtain ⟨q, e1, e2, q1, q2, q3, q4⟩ := hle b r hb hb' hr hr'
      rw [e1]
      by_cases c3 : b < r
      · have := q3 c3
        have em : m = b := by
          rcases hm with h | h | h
          · exfalso; linarith
          · exfalso; linarith
          · exact h
        unfold base
        rw [if_pos (by linarith), if_pos (by linarith), tri_b (by linarith) (by linarith), tri_e (by linarith),
          tri_c (by linarith) (by linarith)]
        refine Prod.ext ?_ (Prod.ext ?_ ?_)
        · simp only; linear_combination -e2 + em
        · simp only; linarith
        · simp only; linarith
      · have := q4 (by linarith)
        have em : m = r := by
          rcases hm with h | h | h
          · exact h
          · exfalso; linarith
          · linarith
        unfold base
        rw [if_neg (by linarith), if_pos (by linarith), tri_c (by linarith) (by linarith), tri_a (by linarith),
          tri_d (by linarith) (by linarith)]
        refine Prod.ext ?_ (Prod.ext ?_ ?_)
        · simp only; linarith
        · simp only; linarith
        · simp only; linear_combination e2 + em
    · rw [if_neg c2]
      have c3 : M = b := by
        rcases hM with h | h | h
        · exact absurd h c1
        · exact absurd h c2
        · exact h
      obtain ⟨q, e1, e2, q1, q2, q3, q4⟩ := hle r g hr hr' hg hg'
      rw [e1]
      by_cases c4 : r < g
      · have := q3 c4
        have em : m = r := by
          rcases hm with h | h | h
          · exact h
          · exfalso; linarith
          · exfalso; linarith
        unfold base
        rw [if_neg (by linarith), if_pos (by linarith), tri_c (by linarith) (by linarith),
          tri_b (by linarith) (by linarith), tri_e (by linarith)]
        refine Prod.ext ?_ (Prod.ext ?_ ?_)
        · simp only; linarith
        · simp only; linear_combination -e2 + em
        · simp only; linarith
      · have := q4 (by linarith)
        have em : m = g := by
          rcases hm with h | h | h
          · linarith
          · exact h
          · exfalso; linarith
        unfold base
        rw [if_neg (by linarith), if_neg (by linarith), tri_d (by linarith) (by linarith),
          tri_c (by linarith) (by linarith), tri_a (by linarith)]
        refine Prod.ext ?_ (Prod.ext ?_ ?_)
        · simp only; linear_combination e2 + em
        · simp only; linarith
        · simp only; linarith

/-- The highest component, the lowest component and the hue of a color that is not gray. -/
theorem hue_of_base (h l a : ℚ) (h0 : 0 ≤ h) (h1 : h < 1) (ha : 0 < a) :
    let c := base h l a
    max (max c.1 c.2.1) c.2.2 = l + a ∧ min (min c.1 c.2.1) c.2.2 = l - a ∧
      hue c.1 c.2.1 c.2.2 (l + a) (2 * a) = h := by
  have key : ∀ r g b : ℚ, (r = l + a ∨ g = l + a ∨ b = l + a) → (r = l - a ∨ g = l - a ∨ b = l - a) →
      (∀ x, x = r ∨ x = g ∨ x = b → l - a ≤ x ∧ x ≤ l + a) →
      max (max r g) b = l + a ∧ min (min r g) b = l - a := by
    intro r g b hM hm hx
    obtain ⟨r1, r2⟩ := hx r (Or.inl rfl)
    obtain ⟨g1, g2⟩ := hx g (Or.inr (Or.inl rfl))
    obtain ⟨b1, b2⟩ := hx b (Or.inr (Or.inr rfl))
    constructor
    · apply le_antisymm (max_le (max_le r2 g2) b2)
      rcases hM with h | h | h
      · rw [← h]; exact le_trans (le_max_left _ _) (le_max_left _ _)
      · rw [← h]; exact le_trans (le_max_right _ _) (le_max_left _ _)
      · rw [← h]; exact le_max_right _ _
    · apply le_antisymm _ (le_min (le_min r1 g1) b1)
      rcases hm with h | h | h
      · rw [← h]; exact le_trans (min_le_left _ _) (min_le_left _ _)
      · rw [← h]; exact le_trans (min_le_left _ _) (min_le_right _ _)
      · rw [← h]; exact min_le_right _ _
  have hne : 2 * a ≠ 0 := by linarith
  have hdiv : ∀ x y q : ℚ, x - y = q * (2 * a) → (x - y) / (2 * a) = q := by
    intro x y q e
    rw [e, mul_div_cancel_right₀ _ hne]
  have hm : ∀ t : ℚ, 0 ≤ t → 0 ≤ a * t := fun t ht => mul_nonneg ha.le ht
  simp only
  unfold base
  by_cases c1 : h * 6 < 1
  · rw [if_pos (by linarith), if_pos (by linarith), tri_a (by linarith), tri_d (by linarith) (by linarith),
      tri_c (by linarith) (by linarith)]
    simp only
    have p1 := hm h h0
    have p2 := hm (1 - 6 * h) (by linarith)
    obtain ⟨k1, k2⟩ := key (l - a * -1) (l - a * (9 - (12 * h + 8))) (l - a * 1) (Or.inl (by ring))
      (Or.inr (Or.inr (by ring))) (by rintro x (rfl | rfl | rfl) <;> constructor <;> linarith)
    refine ⟨k1, k2, ?_⟩
    unfold hue
    rw [if_pos hne, if_pos (by ring), if_neg (by linarith), hdiv _ _ (6 * h) (by ring)]
    ring
  by_cases c2 : h * 6 < 2
  · rw [if_pos (by linarith), if_pos (by linarith), tri_b (by linarith) (by linarith), tri_e (by linarith),
      tri_c (by linarith) (by linarith)]
    simp only
    have p1 := hm (6 * h - 1) (by linarith)
    have p2 := hm (2 - 6 * h) (by linarith)
    obtain ⟨k1, k2⟩ := key (l - a * (12 * h - 3)) (l - a * -1) (l - a * 1) (Or.inr (Or.inl (by ring)))
      (Or.inr (Or.inr (by ring))) (by rintro x (rfl | rfl | rfl) <;> constructor <;> linarith)
    refine ⟨k1, k2, ?_⟩
    unfold hue
    rw [if_pos hne]
    by_cases ce : h * 6 = 1
    · have eh : h = 1 / 6 := by linarith
      subst eh
      rw [if_pos (by ring), if_neg (by linarith), hdiv _ _ 1 (by ring)]
      norm_num
    · have : 0 < a * (6 * h - 1) := mul_pos ha (by
        rcases lt_or_eq_of_le (show 1 ≤ h * 6 by linarith) with h | h
        · linarith
        · exact absurd h.symm ce)
      rw [if_neg (by intro hc; linarith), if_pos (by ring), hdiv _ _ (6 * h - 2) (by ring)]
      ring
  by_cases c3 : h * 6 < 3
  · rw [if_neg (by linarith), if_pos (by linarith), tri_c (by linarith) (by linarith), tri_a (by linarith),
      tri_d (by linarith) (by linarith)]
    simp only
    have p1 := hm (6 * h - 2) (by linarith)
    have p2 := hm (3 - 6 * h) (by linarith)
    obtain ⟨k1, k2⟩ := key (l - a * 1) (l - a * -1) (l - a * (9 - (12 * h + 4))) (Or.inr (Or.inl (by ring)))
      (Or.inl (by ring)) (by rintro x (rfl | rfl | rfl) <;> constructor <;> linarith)
    refine ⟨k1, k2, ?_⟩
    unfold hue
    rw [if_pos hne, if_neg (by intro hc; linarith), if_pos (by ring), hdiv _ _ (6 * h - 2) (by ring)]
    ring
  by_cases c4 : h * 6 < 4
  · rw [if_neg (by linarith), if_pos (by linarith), tri_c (by linarith) (by linarith),
      tri_b (by linarith) (by linarith), tri_e (by linarith)]
    simp only
    have p1 := hm (6 * h - 3) (by linarith)
    have p2 := hm (4 - 6 * h) (by linarith)
    obtain ⟨k1, k2⟩ := key (l - a * 1) (l - a * (12 * h - 4 - 3)) (l - a * -1) (Or.inr (Or.inr (by ring)))
      (Or.inl (by ring)) (by rintro x (rfl | rfl | rfl) <;> constructor <;> linarith)
    refine ⟨k1, k2, ?_⟩
    unfold hue
    rw [if_pos hne, if_neg (by intro hc; linarith)]
    by_cases ce : h * 6 = 3
    · have eh : h = 1 / 2 := by linarith
      subst eh
      rw [if_pos (by ring), hdiv _ _ 1 (by ring)]
      norm_num
    · have : 0 < a * (6 * h - 3) := mul_pos ha (by
        rcases lt_or_eq_of_le (show 3 ≤ h * 6 by linarith) with h | h
        · linarith
        · exact absurd h.symm ce)
      rw [if_neg (by intro hc; linarith), hdiv _ _ (6 * h - 4) (by ring)]
      ring
  by_cases c5 : h * 6 < 5
  · rw [if_neg (by linarith), if_neg (by linarith), tri_d (by linarith) (by linarith),
      tri_c (by linarith) (by linarith), tri_a (by linarith)]
    simp only
    have p1 := hm (6 * h - 4) (by linarith)
    have p2 : 0 < a * (5 - 6 * h) := mul_pos ha (by linarith)
    obtain ⟨k1, k2⟩ := key (l - a * (9 - 12 * h)) (l - a * 1) (l - a * -1) (Or.inr (Or.inr (by ring)))
      (Or.inr (Or.inl (by ring))) (by rintro x (rfl | rfl | rfl) <;> constructor <;> linarith)
    refine ⟨k1, k2, ?_⟩
    unfold hue
    rw [if_pos hne, if_neg (by intro hc; linarith), if_neg (by intro hc; linarith), hdiv _ _ (6 * h - 4) (by ring)]
    ring
  · rw [if_neg (by linarith), if_neg (by linarith), tri_e (by linarith),
      tri_c (by linarith) (by linarith), tri_b (by linarith) (by linarith)]
    simp only
    have p1 := hm (6 * h - 5) (by linarith)
    have p2 : 0 < a * (1 - h) := mul_pos ha (by linarith)
    obtain ⟨k1, k2⟩ := key (l - a * -1) (l - a * 1) (l - a * (12 * h - 8 - 3)) (Or.inl (by ring))
      (Or.inr (Or.inl (by ring))) (by rintro x (rfl | rfl | rfl) <;> constructor <;> linarith)
    refine ⟨k1, k2, ?_⟩
    unfold hue
    rw [if_pos hne, if_pos (by ring), if_pos (by linarith), hdiv _ _ (6 * h - 6) (by ring)]
    ring

end Verif.ColorSpace
