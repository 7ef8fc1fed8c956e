import Verif.ColorSpace.Main

/-!
# Properties of conversion between color spaces and of conversion of color components
-/

namespace Verif.ColorSpace

open Spec
open CssColor (Color Css)

/-! ### C111: HSL -/

/-- Conversion from HSL to RGB does what CSS specifies, for all hues, saturations, and lightnesses. -/
theorem C111_css (h s l : ℚ) : hslToRgb (h, s, l) = cssHslToRgb h s l := hslToRgb_css h s l

example : hslToRgb (13 / 12, 1, 1 / 2) = (1, 1 / 2, 0) := by
  rw [C111_css]
  have : Int.fract (13 / 12 : ℚ) = 1 / 12 := by
    rw [Int.fract_eq_iff]; exact ⟨by norm_num, by norm_num, 1, by norm_num⟩
  unfold cssHslToRgb
  rw [this]
  unfold hueToRgb
  norm_num

/-- A color survives conversion to HSL and back. -/
theorem C111_rgb_hsl_rgb {r g b : ℚ} (hr : Unit r) (hg : Unit g) (hb : Unit b) :
    cssHslToRgb (rgbToHsl (r, g, b)).1 (rgbToHsl (r, g, b)).2.1 (rgbToHsl (r, g, b)).2.2 = (r, g, b) ∧
      hslToRgb (rgbToHsl (r, g, b)) = (r, g, b) :=
  ⟨by rw [← hslToRgb_css]; exact hsl_of_rgb hr hg hb, hsl_of_rgb hr hg hb⟩

example : rgbToHsl (1 / 5, 3 / 5, 2 / 5) = (5 / 12, 1 / 2, 2 / 5) := by
  unfold rgbToHsl hue
  norm_num [min_def, max_def]

/-- The hue, the saturation, and the lightness of a color are in their respective ranges. -/
theorem C111_hsl_range {r g b : ℚ} (hr : Unit r) (hg : Unit g) (hb : Unit b) :
    (0 ≤ (rgbToHsl (r, g, b)).1 ∧ (rgbToHsl (r, g, b)).1 < 1) ∧ Unit (rgbToHsl (r, g, b)).2.1 ∧ Unit (rgbToHsl (r, g, b)).2.2 :=
  hsl_range hr hg hb

example : (rgbToHsl (1, 0, 1 / 1000)).1 = 5999 / 6000 := by
  unfold rgbToHsl hue
  norm_num [min_def, max_def]

/-- The components of a color that is converted from HSL are in range. -/
theorem C111_rgb_range {h s l : ℚ} (hs : Unit s) (hl : Unit l) :
    Unit (hslToRgb (h, s, l)).1 ∧ Unit (hslToRgb (h, s, l)).2.1 ∧ Unit (hslToRgb (h, s, l)).2.2 :=
  rgb_hsl_unit hs hl

/-- A color in HSL survives conversion to RGB and back, when it is not gray. -/
theorem C111_hsl_rgb_hsl {h s l : ℚ} (h0 : 0 ≤ h) (h1 : h < 1) (hs : 0 < s) (l0 : 0 < l) (l1 : l < 1) :
    rgbToHsl (hslToRgb (h, s, l)) = (h, s, l) :=
  rgb_of_hsl h0 h1 hs l0 l1

example : rgbToHsl (hslToRgb (2 / 7, 1 / 3, 9 / 10)) = (2 / 7, 1 / 3, 9 / 10) :=
  C111_hsl_rgb_hsl (by norm_num) (by norm_num) (by norm_num) (by norm_num) (by norm_num)

/-- A whole number of revolutions makes no difference. -/
theorem C111_periodic (h s l : ℚ) (n : ℤ) : hslToRgb (h + n, s, l) = hslToRgb (h, s, l) := by
  rw [hslToRgb_css, hslToRgb_css]
  unfold cssHslToRgb
  rw [Int.fract_add_intCast]

/-- Two different colors have different representations in HSL. -/
theorem C111_injective {r g b r' g' b' : ℚ} (hr : Unit r) (hg : Unit g) (hb : Unit b) (hr' : Unit r') (hg' : Unit g')
    (hb' : Unit b') (h : rgbToHsl (r, g, b) = rgbToHsl (r', g', b')) : (r, g, b) = (r', g', b') := by
  rw [← hsl_of_rgb hr hg hb, h, hsl_of_rgb hr' hg' hb']

/-- A negative saturation is not clipped to zero, as CSS demands. The result is of the opposite hue. -/
theorem C111_negative_saturation (h s l : ℚ) : hslToRgb (h, -s, l) = hslToRgb (h + 1 / 2, s, l) := by
  rw [hslToRgb_base, hslToRgb_base]
  have h0 := Int.fract_nonneg h
  have h1 := Int.fract_lt_one h
  have hf : Int.fract (h + 1 / 2) = if Int.fract h < 1 / 2 then Int.fract h + 1 / 2 else Int.fract h - 1 / 2 := by
    have e : h = ⌊h⌋ + Int.fract h := (Int.floor_add_fract h).symm
    split
    · rw [Int.fract_eq_iff]
      exact ⟨by linarith, by linarith, ⌊h⌋, by linarith⟩
    · rw [Int.fract_eq_iff]
      exact ⟨by linarith, by linarith, ⌊h⌋ + 1, by push_cast; linarith⟩
  rw [hf]
  generalize Int.fract h = x at *
  rw [neg_mul]
  generalize s * min l (1 - l) = a
  have anti : ∀ {k k' : ℚ}, 0 ≤ k → k < 12 → 0 ≤ k' → k' < 12 → (k' = k + 6 ∨ k' = k - 6) → tri k' = -tri k := by
    intro k k' k0 k1 k0' k1' hk
    rcases hk with rfl | rfl
    · rcases le_or_gt k 2 with c1 | c1
      · rw [tri_a c1, tri_c (by linarith) (by linarith)]; ring
      · rcases le_or_gt k 4 with c2 | c2
        · rw [tri_b c1.le c2, tri_d (by linarith) (by linarith)]; ring
        · rw [tri_c c2.le (by linarith), tri_e (by linarith)]
    · rcases le_or_gt k 8 with c1 | c1
      · rw [tri_c (by linarith) c1, tri_a (by linarith)]
      · rcases le_or_gt k 10 with c2 | c2
        · rw [tri_d c1.le c2, tri_b (by linarith) (by linarith)]; ring
        · rw [tri_e c2.le, tri_c (by linarith) (by linarith)]; ring
  have anti : ∀ {k k' : ℚ}, 0 ≤ k → k < 12 → 0 ≤ k' → k' < 12 → (k' = k + 6 ∨ k' = k - 6) → l - -a * tri k = l - a * tri k' := by
    intro k k' k0 k1 k0' k1' hk
    rw [anti k0 k1 k0' k1' hk]; ring
  by_cases c : x < 1 / 2
  · rw [if_pos c]
    unfold base
    refine Prod.ext ?_ (Prod.ext ?_ ?_)
    · simp only
      exact anti (by linarith) (by linarith) (by linarith) (by linarith) (Or.inl (by ring))
    · simp only
      split <;> split
      · exfalso; linarith
      · exact anti (by linarith) (by linarith) (by linarith) (by linarith) (Or.inr (by ring))
      · exfalso; linarith
      · exact anti (by linarith) (by linarith) (by linarith) (by linarith) (Or.inl (by ring))
    · simp only
      split <;> split
      · exact anti (by linarith) (by linarith) (by linarith) (by linarith) (Or.inl (by ring))
      · exact anti (by linarith) (by linarith) (by linarith) (by linarith) (Or.inr (by ring))
      · exfalso; linarith
      · exfalso; linarith
  · rw [if_neg c]
    unfold base
    refine Prod.ext ?_ (Prod.ext ?_ ?_)
    · simp only
      exact anti (by linarith) (by linarith) (by linarith) (by linarith) (Or.inr (by ring))
    · simp only
      split <;> split
      · exfalso; linarith
      · exfalso; linarith
      · exact anti (by linarith) (by linarith) (by linarith) (by linarith) (Or.inl (by ring))
      · exact anti (by linarith) (by linarith) (by linarith) (by linarith) (Or.inr (by ring))
    · simp only
      split <;> split
      · exact anti (by linarith) (by linarith) (by linarith) (by linarith) (Or.inr (by ring))
      · exfalso; linarith
      · exact anti (by linarith) (by linarith) (by linarith) (by linarith) (Or.inl (by ring))
      · exfalso; linarith

/-! ### C112: HSV -/

/-- Conversion from HSV to RGB agrees with the conventional definition, for all hues, saturations, and values. -/
theorem C112_smith (h s v : ℚ) : hsvToRgb (h, s, v) = smithHsvToRgb h s v := hsvToRgb_smith h s v

example : hsvToRgb (7 / 12, 1 / 2, 4 / 5) = (2 / 5, 3 / 5, 4 / 5) := by
  rw [C112_smith]
  have e1 : Int.fract (7 / 12 : ℚ) = 7 / 12 := Int.fract_eq_self.mpr ⟨by norm_num, by norm_num⟩
  unfold smithHsvToRgb
  rw [e1]
  have e2 : ⌊(6 * (7 / 12) : ℚ)⌋ = 3 := by rw [Int.floor_eq_iff]; norm_num
  have e3 : Int.fract (6 * (7 / 12) : ℚ) = 1 / 2 := by rw [Int.fract, e2]; norm_num
  simp only [e2, e3]
  norm_num

/-- A color survives conversion to HSV and back. There is no upper limit on components. -/
theorem C112_rgb_hsv_rgb {r g b : ℚ} (hr : 0 ≤ r) (hg : 0 ≤ g) (hb : 0 ≤ b) :
    smithHsvToRgb (rgbToHsv (r, g, b)).1 (rgbToHsv (r, g, b)).2.1 (rgbToHsv (r, g, b)).2.2 = (r, g, b) ∧
      hsvToRgb (rgbToHsv (r, g, b)) = (r, g, b) :=
  ⟨by rw [← hsvToRgb_smith]; exact hsv_of_rgb hr hg hb, hsv_of_rgb hr hg hb⟩

example : rgbToHsv (1 / 5, 3 / 5, 2 / 5) = (5 / 12, 2 / 3, 3 / 5) := by
  unfold rgbToHsv hue
  norm_num [min_def, max_def]

/-- The hue, the saturation, and the value of a color are in their respective ranges. -/
theorem C112_hsv_range {r g b : ℚ} (hr : Unit r) (hg : Unit g) (hb : Unit b) :
    (0 ≤ (rgbToHsv (r, g, b)).1 ∧ (rgbToHsv (r, g, b)).1 < 1) ∧ Unit (rgbToHsv (r, g, b)).2.1 ∧ Unit (rgbToHsv (r, g, b)).2.2 :=
  hsv_range hr hg hb

/-- The components of a color that is converted from HSV are in range. -/
theorem C112_rgb_range {h s v : ℚ} (hs : Unit s) (hv : Unit v) :
    Unit (hsvToRgb (h, s, v)).1 ∧ Unit (hsvToRgb (h, s, v)).2.1 ∧ Unit (hsvToRgb (h, s, v)).2.2 :=
  rgb_hsv_unit hs hv

/-- A color in HSV survives conversion to RGB and back, when it is not gray. -/
theorem C112_hsv_rgb_hsv {h s v : ℚ} (h0 : 0 ≤ h) (h1 : h < 1) (hs : 0 < s) (v0 : 0 < v) :
    rgbToHsv (hsvToRgb (h, s, v)) = (h, s, v) :=
  rgb_of_hsv h0 h1 hs v0

example : rgbToHsv (hsvToRgb (2 / 7, 1 / 3, 9 / 10)) = (2 / 7, 1 / 3, 9 / 10) :=
  C112_hsv_rgb_hsv (by norm_num) (by norm_num) (by norm_num) (by norm_num)

/-- A whole number of revolutions makes no difference. -/
theorem C112_periodic (h s v : ℚ) (n : ℤ) : hsvToRgb (h + n, s, v) = hsvToRgb (h, s, v) := by
  rw [hsvToRgb_smith, hsvToRgb_smith]
  unfold smithHsvToRgb
  rw [Int.fract_add_intCast]

/-- The hue of a color is the same in HSL as it is in HSV. -/
theorem C112_same_hue (rgb : Vec3) : (rgbToHsv rgb).1 = (rgbToHsl rgb).1 := rfl

/-! ### C113: Components -/

/-- A component survives conversion to floating-point form and back, if the precision of the floating-point type is at least twice
that of the integer type plus one bit. In the terms of the documentation, this is about the default model. -/
theorem C113_round_trip_partial {rnd : ℚ → ℚ} {u : ℚ} {typeMax max i : Nat} (hr : RelErr u rnd) (hu0 : 0 ≤ u) (hpos : 0 < max)
    (hi : i ≤ max) (hm : max ≤ typeMax) (hu : (2 * u + u ^ 2) * (max : ℚ) ^ 2 ≤ 1) (hu1 : u ≤ 1 / 4) :
    fltToInt rnd typeMax max (intToFlt rnd i max) = i := by
  refine roundTrip hr hu0 hu1 hpos hi hm ?_
  have : (1 + u) ^ 2 * ((max : ℚ) ^ 2 - 1) = (2 * u + u ^ 2) * (max : ℚ) ^ 2 - (2 * u + u ^ 2) + ((max : ℚ) ^ 2 - 1) := by ring
  rw [this]
  rcases eq_or_lt_of_le hu0 with h | h
  · subst h; norm_num
  · nlinarith [sq_nonneg u]

/-- A color survives conversion to a vector and back when the floating-point type has a precision of at least 17 bits. -/
theorem C113_color {p : ℤ} (hp : 17 ≤ p) {c : Color} (hr : c.r ≤ 255) (hg : c.g ≤ 255) (hb : c.b ≤ 255) (ha : c.a ≤ 255) :
    fromVec (roundBin p) (toVec (roundBin p) c) = c := by
  have h : ∀ i, i ≤ 255 → fltToInt (roundBin p) 255 255 (intToFlt (roundBin p) i 255) = i := by
    intro i hi
    have h1 : (2 : ℚ) ^ (-p) ≤ 2 ^ (-17 : ℤ) := zpow_le_zpow_right₀ (by norm_num) (by omega)
    have h0 : (0 : ℚ) < 2 ^ (-p) := zpow_pos (by norm_num) _
    refine C113_round_trip_partial (relErr_roundBin p) h0.le (by norm_num) hi (le_refl _) ?_ ?_
    · generalize (2 : ℚ) ^ (-p) = u at *
      norm_num at h1 ⊢
      nlinarith
    · norm_num at h1 ⊢
      linarith
  unfold fromVec toVec
  simp only
  rw [h _ hr, h _ hg, h _ hb, h _ ha]

/-- The RGB color with integer components becomes the color with those components. -/
theorem C113_css_rgb {p : ℤ} (hp : 17 ≤ p) {r g b a : Nat} (hr : r ≤ 255) (hg : g ≤ 255) (hb : b ≤ 255) (ha : a ≤ 255) :
    toHex (roundBin p) (.rgb r g b (roundBin p (a / 255))) = ⟨r, g, b, a⟩ :=
  C113_color hp (c := ⟨r, g, b, a⟩) hr hg hb ha

example : toHex (roundBin 24) (.rgb (17 : Nat) (34 : Nat) (254 : Nat) (roundBin 24 ((255 : Nat) / 255))) = ⟨17, 34, 254, 255⟩ :=
  C113_css_rgb (by norm_num) (by norm_num) (by norm_num) (by norm_num) (by norm_num)

/-- Under the alternate model, it suffices that the precision of the floating-point type is four bits more than that of the
integer type. -/
theorem C113_round_trip_alternate {rnd : ℚ → ℚ} {u : ℚ} {typeMax max i : Nat} (hr : RelErr u rnd) (hu0 : 0 ≤ u) (hpos : 0 < max)
    (hi : i ≤ max) (hm : max ≤ typeMax) (hu : 16 * (max * u) ≤ 1) :
    fltToIntA rnd typeMax max (intToFlt rnd i max) = i :=
  roundTripA hr hu0 hpos hi hm hu

example (i : Nat) (hi : i ≤ 65535) : fltToIntA (roundBin 24) 65535 65535 (intToFlt (roundBin 24) i 65535) = i :=
  C113_round_trip_alternate (relErr_roundBin 24) (by norm_num) (by norm_num) hi (le_refl _) (by norm_num)

/-- Rounding to nearest at a known magnitude. -/
theorem roundBin_of {p k : ℤ} {x : ℚ} (h1 : (2 : ℚ) ^ k ≤ x) (h2 : x < 2 ^ (k + 1)) :
    roundBin p x = nearestEven (x / 2 ^ (k - (p - 1))) * 2 ^ (k - (p - 1)) := by
  have hx : 0 < x := lt_of_lt_of_le (zpow_pos (by norm_num) _) h1
  have hl : Int.log 2 |x| = k := by
    rw [abs_of_pos hx]
    apply le_antisymm
    · have := (Int.lt_zpow_iff_log_lt (R := ℚ) (b := 2) (by norm_num) hx (x := k + 1)).mp (by exact_mod_cast h2)
      omega
    · exact (Int.zpow_le_iff_le_log (R := ℚ) (b := 2) (by norm_num) hx (x := k)).mp (by exact_mod_cast h1)
  unfold roundBin
  rw [hl]

theorem nearestEven_int (n : ℤ) : nearestEven (n : ℚ) = n := by
  unfold nearestEven
  simp

/-- In general, the claim fails. Components of 16 bits do not survive conversion to single-precision floating-point form and back.
Each of the 127 values that precede the maximum is incremented. -/
theorem C113_not_16_bit {i : Nat} (h1 : 65408 ≤ i) (h2 : i ≤ 65534) :
    fltToInt (roundBin 24) 65535 65535 (intToFlt (roundBin 24) i 65535) = i + 1 := by
  have q1 : (65408 : ℚ) ≤ i := by exact_mod_cast h1
  have q2 : (i : ℚ) ≤ 65534 := by exact_mod_cast h2
  have e1 : intToFlt (roundBin 24) i 65535 = ((i : ℚ) + 1) / 65536 := by
    unfold intToFlt
    rw [roundBin_of (k := -1) (by push_cast; rw [le_div_iff₀ (by norm_num)]; norm_num; linarith)
      (by push_cast; rw [div_lt_iff₀ (by norm_num)]; norm_num; linarith)]
    have en : nearestEven ((i : ℚ) / (65535 : Nat) / 2 ^ ((-1 : ℤ) - (24 - 1))) = 256 * i + 256 := by
      have ex : (i : ℚ) / (65535 : Nat) / 2 ^ ((-1 : ℤ) - (24 - 1)) = 256 * i + 256 * i / 65535 := by
        push_cast; norm_num; ring
      rw [ex]
      have hfl : ⌊(256 * (i : ℚ) + 256 * i / 65535 : ℚ)⌋ = 256 * i + 255 := by
        rw [Int.floor_eq_iff]
        push_cast
        constructor
        · have : (255 : ℚ) ≤ 256 * i / 65535 := by rw [le_div_iff₀ (by norm_num)]; linarith
          linarith
        · have : 256 * (i : ℚ) / 65535 < 256 := by rw [div_lt_iff₀ (by norm_num)]; linarith
          linarith
      have hfr : 1 / 2 < Int.fract (256 * (i : ℚ) + 256 * i / 65535) := by
        rw [Int.fract, hfl]
        push_cast
        have : (255 + 1 / 2 : ℚ) < 256 * i / 65535 := by rw [lt_div_iff₀ (by norm_num)]; linarith
        linarith
      unfold nearestEven
      rw [if_neg (by linarith), if_pos hfr, hfl]
      ring
    rw [en]
    push_cast
    norm_num
    ring
  have e2 : roundBin 24 (intToFlt (roundBin 24) i 65535 * ((65535 : Nat) + 1)) = (i : ℚ) + 1 := by
    rw [e1, show ((i : ℚ) + 1) / 65536 * (((65535 : Nat) : ℚ) + 1) = i + 1 by push_cast; ring,
      roundBin_of (k := 15) (by norm_num; linarith) (by norm_num; linarith)]
    have : ((i : ℚ) + 1) / 2 ^ ((15 : ℤ) - (24 - 1)) = ((256 * (i + 1) : ℤ) : ℚ) := by
      push_cast; norm_num; ring
    rw [this, nearestEven_int]
    push_cast
    norm_num
    ring
  refine fltToInt_eq (by omega) (le_refl _) ?_ ?_ ?_
  · rw [e1]; linarith
  · rw [e2]; push_cast; exact le_refl _
  · rw [e2]; left; push_cast; linarith

example : fltToInt (roundBin 24) 65535 65535 (intToFlt (roundBin 24) 65500 65535) = 65501 := C113_not_16_bit (by norm_num) (by norm_num)

/-- In exact arithmetic, the unit interval is divided into equal parts, one for each integer. -/
theorem C113_equal_parts {typeMax max i : Nat} {v : ℚ} (hm : max ≤ typeMax) (hi : i ≤ max) :
    (0 ≤ v → v < 1 → (fltToInt id typeMax max v = i ↔ (i : ℚ) / (max + 1) ≤ v ∧ v < ((i : ℚ) + 1) / (max + 1))) := by
  intro v0 v1
  have hM : (0 : ℚ) < (max : ℚ) + 1 := by positivity
  rw [div_le_iff₀ hM, lt_div_iff₀ hM]
  have hlt : v * ((max : ℚ) + 1) < max + 1 := by nlinarith
  have h0 : 0 ≤ v * ((max : ℚ) + 1) := mul_nonneg v0 hM.le
  have hj0 := Nat.floor_le h0
  have hj1 := Nat.lt_floor_add_one (v * ((max : ℚ) + 1))
  have hjm : ⌊v * ((max : ℚ) + 1)⌋₊ ≤ max := by
    have : ⌊v * ((max : ℚ) + 1)⌋₊ < max + 1 := (Nat.floor_lt h0).mpr (by exact_mod_cast hlt)
    omega
  rw [fltToInt_eq (rnd := id) hjm hm v0 hj0 (Or.inl hj1)]
  constructor
  · rintro rfl
    exact ⟨hj0, hj1⟩
  · rintro ⟨a, b⟩
    exact (Nat.floor_eq_iff h0).mpr ⟨a, b⟩

/-- Values outside the unit interval are clamped. -/
theorem C113_clamp {rnd : ℚ → ℚ} {u v : ℚ} {typeMax max : Nat} (hr : RelErr u rnd) (hu : u * (max + 1) ≤ 1) (hm : max ≤ typeMax) :
    (v ≤ 0 → fltToInt rnd typeMax max v = 0) ∧ (1 ≤ v → fltToInt rnd typeMax max v = max) := by
  have hM : (0 : ℚ) < (max : ℚ) + 1 := by positivity
  constructor
  · intro hv
    rcases eq_or_lt_of_le hv with h | h
    · subst h
      exact fltToInt_eq (Nat.zero_le _) hm (le_refl _) (by rw [zero_mul, relErr_zero hr]; simp)
        (Or.inl (by rw [zero_mul, relErr_zero hr]; norm_num))
    · unfold fltToInt
      rw [if_neg (by linarith)]
  · intro hv
    refine fltToInt_eq (le_refl _) hm (by linarith) ?_ (Or.inr rfl)
    have h1 : (max : ℚ) + 1 ≤ v * (max + 1) := by nlinarith
    refine le_trans ?_ (relErr_bounds hr (by linarith)).1
    have hu1 : u ≤ 1 := by
      by_contra hc
      have hc := lt_of_not_ge hc
      have : (0 : ℚ) ≤ max := Nat.cast_nonneg _
      nlinarith
    nlinarith

/-- A value in the unit interval becomes the number of the part of the interval that it is in. The value one belongs to the last
part. -/
theorem fltToInt_unit {i : Nat} (hi : i ≤ 255) {v : ℚ} (hv : Unit v) :
    fltToInt id 255 255 v = i ↔ (i : ℚ) / 256 ≤ v ∧ (v < ((i : ℚ) + 1) / 256 ∨ i = 255) := by
  rcases lt_or_eq_of_le hv.2 with h1 | h1
  · have := C113_equal_parts (typeMax := 255) (le_refl 255) hi hv.1 h1
    rw [this]
    norm_num
    intro _ h
    subst h; norm_num; exact h1
  · subst h1
    have := (C113_clamp (rnd := id) (u := 0) (v := 1) (max := 255) (typeMax := 255) (by intro x; simp) (by norm_num) (le_refl _)).2
      (le_refl _)
    rw [this]
    have q : (i : ℚ) ≤ 255 := by exact_mod_cast hi
    constructor
    · intro e; subst e; norm_num
    · rintro ⟨_, h | h⟩
      · exfalso
        rw [lt_div_iff₀ (by norm_num)] at h
        linarith
      · exact h.symm

/-- A CSS color that is specified by hue, saturation, and lightness becomes the color that CSS specifies. -/
theorem C113_css_hsl {h s l a : ℚ} {i : Nat} (hi : i ≤ 255) (hs : Unit (s / 100)) (hl : Unit (l / 100)) (ha : Unit a) :
    let rgb := cssHslToRgb (h / 360) (s / 100) (l / 100)
    ((toHex id (.hsl h s l a)).r = i ↔ (i : ℚ) / 256 ≤ rgb.1 ∧ (rgb.1 < ((i : ℚ) + 1) / 256 ∨ i = 255)) ∧
    ((toHex id (.hsl h s l a)).g = i ↔ (i : ℚ) / 256 ≤ rgb.2.1 ∧ (rgb.2.1 < ((i : ℚ) + 1) / 256 ∨ i = 255)) ∧
    ((toHex id (.hsl h s l a)).b = i ↔ (i : ℚ) / 256 ≤ rgb.2.2 ∧ (rgb.2.2 < ((i : ℚ) + 1) / 256 ∨ i = 255)) ∧
    ((toHex id (.hsl h s l a)).a = i ↔ (i : ℚ) / 256 ≤ a ∧ (a < ((i : ℚ) + 1) / 256 ∨ i = 255)) := by
  obtain ⟨hr, hg, hb⟩ := rgb_hsl_unit (h := h / 360) hs hl
  rw [← hslToRgb_css]
  exact ⟨fltToInt_unit hi hr, fltToInt_unit hi hg, fltToInt_unit hi hb, fltToInt_unit hi ha⟩

/-- The components of a CSS color that is specified by percentages are those percentages of the unit interval. -/
theorem C113_css_percent {r g b a : ℚ} {i : Nat} (hi : i ≤ 255) (hr : Unit (r / 100)) (hg : Unit (g / 100)) (hb : Unit (b / 100))
    (ha : Unit a) :
    ((toHex id (.rgbP r g b a)).r = i ↔ (i : ℚ) / 256 ≤ r / 100 ∧ (r / 100 < ((i : ℚ) + 1) / 256 ∨ i = 255)) ∧
    ((toHex id (.rgbP r g b a)).g = i ↔ (i : ℚ) / 256 ≤ g / 100 ∧ (g / 100 < ((i : ℚ) + 1) / 256 ∨ i = 255)) ∧
    ((toHex id (.rgbP r g b a)).b = i ↔ (i : ℚ) / 256 ≤ b / 100 ∧ (b / 100 < ((i : ℚ) + 1) / 256 ∨ i = 255)) ∧
    ((toHex id (.rgbP r g b a)).a = i ↔ (i : ℚ) / 256 ≤ a ∧ (a < ((i : ℚ) + 1) / 256 ∨ i = 255)) :=
  ⟨fltToInt_unit hi hr, fltToInt_unit hi hg, fltToInt_unit hi hb, fltToInt_unit hi ha⟩

example : (toHex id (.rgbP 50 100 0 1)).r = 128 :=
  (C113_css_percent (r := 50) (g := 100) (b := 0) (a := 1) (by norm_num) ⟨by norm_num, by norm_num⟩ ⟨by norm_num, by norm_num⟩
    ⟨by norm_num, by norm_num⟩ ⟨by norm_num, by norm_num⟩).1.mpr ⟨by norm_num, Or.inl (by norm_num)⟩

/-! ### C114: Periodic modulo -/

/-- For a positive period, the result is non-negative and less than the period, no matter how sums are rounded, as long as they do not
change sign. -/
theorem C114_range {rnd : ℚ → ℚ} (hr : ∀ x, 0 ≤ x → 0 ≤ rnd x) (a : ℚ) {b : ℚ} (hb : 0 < b) :
    0 ≤ periodicMod rnd a b ∧ periodicMod rnd a b < b :=
  periodicMod_pos hr a hb

/-- Without the extra check, the result could become equal to the period. -/
example : periodicMod (roundBin 24) (-1 / 2 ^ 30) 1 = 0 := by
  have ht : trunc (-1 / 2 ^ 30 / 1 : ℚ) = 0 := by
    unfold trunc
    rw [if_neg (by norm_num), Int.ceil_eq_iff]
    norm_num
  unfold periodicMod fmod
  simp only [ht]
  have hn : nearestEven ((-1 / 2 ^ 30 - 1 * ((0 : ℤ) : ℚ) + 1) / 2 ^ ((-1 : ℤ) - (24 - 1))) = 2 ^ 24 := by
    unfold nearestEven
    have : ⌊((-1 / 2 ^ 30 - 1 * ((0 : ℤ) : ℚ) + 1) / 2 ^ ((-1 : ℤ) - (24 - 1)))⌋ = 2 ^ 24 - 1 := by
      rw [Int.floor_eq_iff]; norm_num
    rw [Int.fract, this]
    norm_num
  rw [roundBin_of (k := -1) (by norm_num) (by norm_num), hn]
  norm_num

/-- For a negative period, the result is non-positive and greater than the period. -/
theorem C114_range_neg {rnd : ℚ → ℚ} (hr : ∀ x, x ≤ 0 → rnd x ≤ 0) (a : ℚ) {b : ℚ} (hb : b < 0) :
    periodicMod rnd a b ≤ 0 ∧ b < periodicMod rnd a b :=
  periodicMod_neg hr a hb

/-- In exact arithmetic, the difference between the first operand and the result is a whole number of periods. -/
theorem C114_congruent (a : ℚ) {b : ℚ} (hb : b ≠ 0) : ∃ n : ℤ, a = periodicMod id a b + b * n := periodicMod_congr a hb

/-- In exact arithmetic, the result is the only number in range that is congruent to the first operand. -/
theorem C114_unique (a : ℚ) {b c : ℚ} (hb : 0 < b) (h0 : 0 ≤ c) (h1 : c < b) (n : ℤ) (h : a = c + b * n) : periodicMod id a b = c := by
  rw [periodicMod_exact hb]
  have : Int.fract (a / b) = c / b := by
    rw [Int.fract_eq_iff]
    refine ⟨div_nonneg h0 hb.le, (div_lt_one hb).mpr h1, n, ?_⟩
    rw [h]; field_simp; ring
  rw [this]; field_simp

example : periodicMod id (-7 / 2) 3 = 5 / 2 := C114_unique _ (by norm_num) (by norm_num) (by norm_num) (-2) (by norm_num)

/-- The sum in floating-point arithmetic is the only source of error. If sums are rounded with relative error `u`, the result is
off by at most `u` times the period, or it is zero where the right result is just below the period. -/
theorem C114_error {rnd : ℚ → ℚ} {u : ℚ} (hr : RelErr u rnd) (hu : 0 ≤ u) (a : ℚ) {b : ℚ} (hb : 0 < b) :
    |periodicMod rnd a b - periodicMod id a b| ≤ u * b ∨ (periodicMod rnd a b = 0 ∧ b ≤ periodicMod id a b * (1 + u)) := by
  obtain ⟨h1, -⟩ := fmod_bounds a hb.ne'
  rw [abs_of_pos hb, abs_lt] at h1
  unfold periodicMod
  simp only [id]
  rw [if_pos hb.le, if_pos hb.le]
  split
  · left; rw [sub_self, abs_zero]; exact mul_nonneg hu hb.le
  · rw [if_pos (by linarith : fmod a b + b < b)]
    split
    · left
      refine le_trans (hr _) ?_
      apply mul_le_mul_of_nonneg_left _ hu
      rw [abs_of_nonneg (by linarith)]
      linarith
    · right
      refine ⟨rfl, ?_⟩
      have := (relErr_bounds hr (show 0 ≤ fmod a b + b by linarith)).2
      linarith

end Verif.ColorSpace
