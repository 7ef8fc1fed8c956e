import Verif.FloatInt.Spec
import Mathlib.Tactic.Linarith
import Mathlib.Tactic.FieldSimp
import Mathlib.Tactic.Ring
import Mathlib.Tactic.Push

/-!
# Lemmas about comparison and conversion between floating-point and integer values
-/

namespace Verif.FloatInt

open Spec

/-- All integers up to the radix are representable. -/
def Digits (F : FloatType) : Prop := ∀ i : ℤ, |i| ≤ F.radix → F.rep i

variable {F : FloatType} {I : IntType}

/-! ### Truncation -/

theorem trunc_nonneg {q : ℚ} (h : 0 ≤ q) : trunc q = ⌊q⌋ := by unfold trunc; rw [if_pos h]

theorem trunc_nonpos {q : ℚ} (h : q ≤ 0) : trunc q = ⌈q⌉ := by
  unfold trunc
  split
  · have : q = 0 := le_antisymm h (by assumption)
    subst this; simp
  · rfl

theorem trunc_int (k : ℤ) : trunc (k : ℚ) = k := by unfold trunc; split <;> simp

theorem isTrunc_trunc (q : ℚ) : IsTrunc q (trunc q) := by
  constructor
  · intro h
    rw [trunc_nonneg h]
    exact ⟨Int.floor_nonneg.mpr h, Int.floor_le q, Int.lt_floor_add_one q⟩
  · intro h
    rw [trunc_nonpos h]
    refine ⟨Int.ceil_le.mpr (by exact_mod_cast h), Int.le_ceil q, ?_⟩
    have := Int.ceil_lt_add_one q
    linarith

theorem isTrunc_unique {q : ℚ} {t : ℤ} (h : IsTrunc q t) : t = trunc q := by
  rcases le_total 0 q with h0 | h0
  · obtain ⟨_, h1, h2⟩ := h.1 h0
    rw [trunc_nonneg h0]
    exact (Int.floor_eq_iff.mpr ⟨h1, h2⟩).symm
  · obtain ⟨_, h1, h2⟩ := h.2 h0
    rw [trunc_nonpos h0]
    exact (Int.ceil_eq_iff.mpr ⟨h2, h1⟩).symm

theorem trunc_bounds {q : ℚ} {a b : ℤ} (ha : a ≤ 0) (hb : 0 ≤ b) (h1 : (a : ℚ) ≤ q) (h2 : q ≤ b) : a ≤ trunc q ∧ trunc q ≤ b := by
  rcases le_total 0 q with h0 | h0
  · rw [trunc_nonneg h0]
    have : 0 ≤ ⌊q⌋ := Int.floor_nonneg.mpr h0
    refine ⟨by omega, ?_⟩
    have : ((⌊q⌋ : ℤ) : ℚ) ≤ b := le_trans (Int.floor_le q) h2
    exact_mod_cast this
  · rw [trunc_nonpos h0]
    have h3 : ⌈q⌉ ≤ 0 := Int.ceil_le.mpr (by exact_mod_cast h0)
    refine ⟨?_, by omega⟩
    have : (a : ℚ) ≤ (⌈q⌉ : ℤ) := le_trans h1 (Int.le_ceil q)
    exact_mod_cast this

theorem wrap_of {i : ℤ} (h1 : I.lo ≤ i) (h2 : i ≤ I.hi) : I.wrap i = i := by
  unfold IntType.wrap
  rw [Int.emod_eq_of_lt (by omega) (by omega)]
  omega

theorem floatToIntA_of (hI : Std I) {q : ℚ} (h1 : I.lo ≤ trunc q) (h2 : trunc q ≤ I.hi) : floatToIntA I (.fin q) = some (trunc q) := by
  have := hI.plo_le
  have := hI.le_phi
  unfold floatToIntA toPromoted
  simp only
  rw [if_pos ⟨by omega, by omega⟩]
  simp [wrap_of h1 h2]

theorem floatToIntA_range (hI : Std I) {q : ℚ} (h1 : (I.lo : ℚ) ≤ q) (h2 : q ≤ I.hi) : floatToIntA I (.fin q) = some (trunc q) := by
  obtain ⟨h3, h4⟩ := trunc_bounds hI.lo_nonpos hI.hi_pos.le h1 h2
  exact floatToIntA_of hI h3 h4

/-! ### Adjacent values -/

theorem exists_below (hF : Conforms F) {i : ℤ} (hn : ¬F.rep i) {a0 : ℚ} (ha0 : F.rep a0) (hle : a0 ≤ i) :
    ∃ a : ℤ, F.rep a ∧ a < i ∧ ∀ c, F.rep c → c < i → c ≤ a := by
  classical
  have hex : ∃ k : ℕ, F.rep ((i - k : ℤ) : ℚ) := by
    have h1 : ⌊a0⌋ ≤ i := by
      have : ((⌊a0⌋ : ℤ) : ℚ) ≤ i := le_trans (Int.floor_le _) hle
      exact_mod_cast this
    refine ⟨(i - ⌊a0⌋).toNat, ?_⟩
    rw [Int.toNat_of_nonneg (by omega)]
    have := hF.rep_floor _ ha0
    simpa using this
  have hk := Nat.find_spec hex
  have hmin := fun k => Nat.find_min hex (m := k)
  generalize Nat.find hex = k at *
  have hk0 : k ≠ 0 := by
    rintro rfl
    apply hn
    simpa using hk
  refine ⟨i - k, hk, by omega, ?_⟩
  intro c hc hci
  by_contra hgt
  have hgt := lt_of_not_ge hgt
  -- the ceiling of c is representable and lies strictly between
  have h1 : F.rep ⌈c⌉ := hF.rep_ceil c hc
  have h2 : ⌈c⌉ ≤ i := Int.ceil_le.mpr hci.le
  have h3 : ⌈c⌉ ≠ i := by rintro e; apply hn; rw [← e]; exact h1
  have h4 : i - k < ⌈c⌉ := Int.lt_ceil.mpr hgt
  apply hmin (i - ⌈c⌉).toNat (by omega)
  rw [Int.toNat_of_nonneg (by omega)]
  simpa using h1

theorem exists_above (hF : Conforms F) {i : ℤ} (hn : ¬F.rep i) {b0 : ℚ} (hb0 : F.rep b0) (hle : (i : ℚ) ≤ b0) :
    ∃ b : ℤ, F.rep b ∧ i < b ∧ ∀ c, F.rep c → (i : ℚ) < c → (b : ℚ) ≤ c := by
  classical
  have hex : ∃ k : ℕ, F.rep ((i + k : ℤ) : ℚ) := by
    have h1 : i ≤ ⌈b0⌉ := by
      have : (i : ℚ) ≤ (⌈b0⌉ : ℤ) := le_trans hle (Int.le_ceil _)
      exact_mod_cast this
    refine ⟨(⌈b0⌉ - i).toNat, ?_⟩
    rw [Int.toNat_of_nonneg (by omega)]
    have := hF.rep_ceil _ hb0
    simpa using this
  have hk := Nat.find_spec hex
  have hmin := fun k => Nat.find_min hex (m := k)
  generalize Nat.find hex = k at *
  have hk0 : k ≠ 0 := by
    rintro rfl
    apply hn
    simpa using hk
  refine ⟨i + k, hk, by omega, ?_⟩
  intro c hc hci
  by_contra hgt
  have hgt := lt_of_not_ge hgt
  have h1 : F.rep ⌊c⌋ := hF.rep_floor c hc
  have h2 : i ≤ ⌊c⌋ := Int.le_floor.mpr hci.le
  have h3 : ⌊c⌋ ≠ i := by rintro e; apply hn; rw [← e]; exact h1
  have h4 : ⌊c⌋ < i + k := Int.floor_lt.mpr hgt
  apply hmin (⌊c⌋ - i).toNat (by omega)
  rw [Int.toNat_of_nonneg (by omega)]
  simpa using h1

theorem ofInt_adjacent (hF : Conforms F) {i : ℤ} {a b : ℤ} (ha : F.rep a) (hb : F.rep b) (hai : a < i) (hib : i < b)
    (hn : ¬F.rep i) (h1 : ∀ c, F.rep c → c < i → c ≤ a) (h2 : ∀ c, F.rep c → (i : ℚ) < c → (b : ℚ) ≤ c) :
    F.ofInt i = .fin a ∨ F.ofInt i = .fin b := by
  refine hF.ofInt_between i a b ha hb (by exact_mod_cast hai) (by exact_mod_cast hib) ?_
  intro c hc
  rcases lt_trichotomy c i with h | h | h
  · exact Or.inl (h1 c hc h)
  · subst h; exact absurd hc hn
  · exact Or.inr (h2 c hc h)

theorem ofInt_zero (hF : Conforms F) : F.ofInt 0 = .fin 0 := by
  have := hF.ofInt_exact 0 (by simpa using hF.rep_zero)
  simpa using this

/-- Division by the radix. -/
theorem div_radix (hF : Conforms F) {q : ℚ} (hq : F.rep q) (h : 1 < q ∨ q < -1) :
    F.div (.fin q) (F.ofInt F.radix) = .fin (q / F.radix) := by
  rw [hF.ofInt_exact _ hF.rep_radix]
  have := hF.radix_ge
  refine hF.div_exact q F.radix hq hF.rep_radix ?_ (hF.rep_div q hq h)
  have : (2 : ℚ) ≤ F.radix := by exact_mod_cast this
  linarith

theorem floor_div_int (a : ℤ) {r : ℤ} (hr : 2 ≤ r) : ⌊(a : ℚ) / r⌋ = a / r := by
  have hr' : (0 : ℚ) < r := by exact_mod_cast (by omega : 0 < r)
  rw [Int.floor_eq_iff]
  have h1 := Int.ediv_mul_le a (by omega : r ≠ 0)
  have h2 := Int.lt_ediv_add_one_mul_self a (by omega : 0 < r)
  constructor
  · rw [le_div_iff₀ hr']; exact_mod_cast h1
  · rw [div_lt_iff₀ hr']; exact_mod_cast h2

/-- Division by the radix followed by conversion to integer is integer division. -/
theorem trunc_div {a r : ℤ} (hr : 2 ≤ r) : trunc ((a : ℚ) / r) = a.tdiv r := by
  have hr' : (0 : ℚ) < r := by exact_mod_cast (by omega : 0 < r)
  rcases le_total 0 a with h | h
  · have h' : (0 : ℚ) ≤ a := by exact_mod_cast h
    rw [trunc_nonneg (div_nonneg h' hr'.le), floor_div_int _ hr, Int.tdiv_eq_ediv_of_nonneg h]
  · have h' : (a : ℚ) ≤ 0 := by exact_mod_cast h
    rw [trunc_nonpos (div_nonpos_of_nonpos_of_nonneg h' hr'.le)]
    have e : (a : ℚ) / r = -(((-a : ℤ) : ℚ) / r) := by push_cast; ring
    rw [e, Int.ceil_neg, floor_div_int _ hr]
    have : a.tdiv r = -((-a).tdiv r) := by rw [Int.neg_tdiv, neg_neg]
    rw [this, Int.tdiv_eq_ediv_of_nonneg (by omega)]

/-! ### Limits -/

theorem maxFloatNotAbove_spec (hF : Conforms F) (hD : Digits F) (hI : Std I) {i : ℤ} (h0 : 0 ≤ i) (hi : i ≤ I.hi)
    (hcov : ∃ b, F.rep b ∧ (i : ℚ) ≤ b) :
    ∃ m, maxFloatNotAbove F I i = some (.fin m) ∧ F.rep m ∧ m ≤ i ∧ ∀ c, F.rep c → c ≤ i → c ≤ m := by
  have hr := hF.radix_ge
  have hplo : I.plo ≤ 0 := le_trans hI.plo_le hI.lo_nonpos
  have hphi := hI.le_phi
  unfold maxFloatNotAbove
  simp only
  by_cases h1 : i ≤ 1
  · have hrep : F.rep i := by
      apply hD
      rw [abs_of_nonneg h0]; omega
    rw [if_pos h1, hF.ofInt_exact i hrep]
    exact ⟨i, rfl, hrep, le_refl _, fun c _ h => h⟩
  · rw [if_neg h1]
    by_cases hrep : F.rep i
    · have hgt : (1 : ℚ) < i := by exact_mod_cast (by omega : 1 < i)
      rw [hF.ofInt_exact i hrep, div_radix hF hrep (Or.inl hgt)]
      have hb : 0 ≤ i.tdiv F.radix ∧ i.tdiv F.radix ≤ i := by
        rw [Int.tdiv_eq_ediv_of_nonneg h0]
        exact ⟨Int.ediv_nonneg h0 (by omega), Int.ediv_le_self _ h0⟩
      unfold toPromoted
      simp only [trunc_div hr]
      rw [if_pos ⟨by omega, by omega⟩]
      simp only [le_refl, if_true]
      exact ⟨i, rfl, hrep, le_refl _, fun c _ h => h⟩
    · have hir : F.radix < i := by
        by_contra hc
        apply hrep
        apply hD
        rw [abs_of_nonneg h0]; omega
      obtain ⟨b0, hb0, hb0'⟩ := hcov
      obtain ⟨a, ha, hai, hamax⟩ := exists_below hF hrep hF.rep_zero (by exact_mod_cast h0)
      obtain ⟨b, hb, hib, hbmin⟩ := exists_above hF hrep hb0 hb0'
      have hra : F.radix ≤ a := by
        have := hamax F.radix hF.rep_radix (by exact_mod_cast hir)
        exact_mod_cast this
      have hmax : ∀ c, F.rep c → c ≤ i → c ≤ (a : ℚ) := by
        intro c hc hci
        rcases lt_or_eq_of_le hci with h | h
        · exact hamax c hc h
        · subst h; exact absurd hc hrep
      rcases ofInt_adjacent hF ha hb hai hib hrep hamax hbmin with e | e
      · have hgt : (1 : ℚ) < a := by exact_mod_cast (by omega : 1 < a)
        rw [e, div_radix hF ha (Or.inl hgt)]
        have hb' : 0 ≤ a.tdiv F.radix ∧ a.tdiv F.radix ≤ a := by
          rw [Int.tdiv_eq_ediv_of_nonneg (by omega)]
          exact ⟨Int.ediv_nonneg (by omega) (by omega), Int.ediv_le_self _ (by omega)⟩
        have hle : a.tdiv F.radix ≤ i.tdiv F.radix := by
          rw [Int.tdiv_eq_ediv_of_nonneg (by omega), Int.tdiv_eq_ediv_of_nonneg (by omega)]
          exact Int.ediv_le_ediv (by omega) (by omega)
        unfold toPromoted
        simp only [trunc_div hr]
        rw [if_pos ⟨by omega, by omega⟩]
        simp only [hle, if_true]
        exact ⟨a, rfl, ha, by exact_mod_cast hai.le, hmax⟩
      · have hgt : (1 : ℚ) < b := by exact_mod_cast (by omega : 1 < b)
        obtain ⟨k, hk⟩ := hF.int_above i b (by omega) hrep hb (by exact_mod_cast hib) hbmin
        have hrep' := hF.rep_div b hb (Or.inl hgt)
        have hr' : (0 : ℚ) < F.radix := by exact_mod_cast (by omega : 0 < F.radix)
        have hbk : b = k * F.radix := by
          have : (b : ℚ) = k * F.radix := by rw [← hk]; field_simp
          exact_mod_cast this
        have hkpos : 0 < k := by
          by_contra hc
          have : k * F.radix ≤ 0 := Int.mul_nonpos_of_nonpos_of_nonneg (by omega) (by omega)
          omega
        have hkb : k < b := by nlinarith
        have hki : k < i := by
          by_contra hc
          rw [hk] at hrep'
          have hne : k ≠ i := by rintro rfl; exact hrep hrep'
          have := hbmin k hrep' (by exact_mod_cast (by omega : i < k))
          have : b ≤ k := by exact_mod_cast this
          omega
        rw [e, div_radix hF hb (Or.inl hgt), hk]
        unfold toPromoted
        simp only [trunc_int]
        rw [if_pos ⟨by omega, by omega⟩]
        have hnle : ¬k ≤ i.tdiv F.radix := by
          rw [Int.tdiv_eq_ediv_of_nonneg (by omega)]
          intro hc
          have := (Int.le_ediv_iff_mul_le (by omega : 0 < F.radix)).mp hc
          omega
        simp only [hnle, if_false]
        obtain ⟨c, hc1, hc2, hc3, hc4⟩ := hF.next_pos b hb (by linarith)
        have hca : c = a := by
          apply le_antisymm
          · apply hamax c hc2
            rcases lt_trichotomy c i with h | h | h
            · exact h
            · subst h; exact absurd hc2 hrep
            · have := hbmin c hc2 h; linarith
          · exact hc4 a ha (by exact_mod_cast (by omega : a < b))
        rw [hc1, hca]
        exact ⟨a, rfl, ha, by exact_mod_cast hai.le, hmax⟩

theorem minFloatNotBelow_spec (hF : Conforms F) (hD : Digits F) (hI : Std I) {i : ℤ} (h0 : i ≤ 0) (hi : I.lo ≤ i)
    (hcov : ∃ a, F.rep a ∧ a ≤ i) :
    ∃ m, minFloatNotBelow F I i = some (.fin m) ∧ F.rep m ∧ (i : ℚ) ≤ m ∧ ∀ c, F.rep c → (i : ℚ) ≤ c → m ≤ c := by
  have hr := hF.radix_ge
  have hphi : 0 ≤ I.phi := le_trans hI.hi_pos.le hI.le_phi
  have hplo := hI.plo_le
  have td : ∀ x : ℤ, x ≤ 0 → x.tdiv F.radix = -((-x) / F.radix) := by
    intro x hx
    have : x.tdiv F.radix = -((-x).tdiv F.radix) := by rw [Int.neg_tdiv, neg_neg]
    rw [this, Int.tdiv_eq_ediv_of_nonneg (by omega)]
  have tb : ∀ x : ℤ, x ≤ 0 → x.tdiv F.radix ≤ 0 ∧ x ≤ x.tdiv F.radix := by
    intro x hx
    rw [td x hx]
    have h1 : 0 ≤ (-x) / F.radix := Int.ediv_nonneg (by omega) (by omega)
    have h2 : (-x) / F.radix ≤ -x := Int.ediv_le_self _ (by omega)
    omega
  unfold minFloatNotBelow
  simp only
  by_cases h1 : i ≥ -1
  · have hrep : F.rep i := by
      apply hD
      rw [abs_of_nonpos h0]; omega
    rw [if_pos h1, hF.ofInt_exact i hrep]
    exact ⟨i, rfl, hrep, le_refl _, fun c _ h => h⟩
  · rw [if_neg h1]
    by_cases hrep : F.rep i
    · have hgt : (i : ℚ) < -1 := by exact_mod_cast (by omega : i < -1)
      rw [hF.ofInt_exact i hrep, div_radix hF hrep (Or.inr hgt)]
      have hb := tb i h0
      unfold toPromoted
      simp only [trunc_div hr]
      rw [if_pos ⟨by omega, by omega⟩]
      simp only [ge_iff_le, le_refl, if_true]
      exact ⟨i, rfl, hrep, le_refl _, fun c _ h => h⟩
    · have hir : i < -F.radix := by
        by_contra hc
        apply hrep
        apply hD
        rw [abs_of_nonpos h0]; omega
      obtain ⟨a0, ha0, ha0'⟩ := hcov
      obtain ⟨a, ha, hai, hamax⟩ := exists_below hF hrep ha0 ha0'
      obtain ⟨b, hb, hib, hbmin⟩ := exists_above hF hrep hF.rep_zero (by exact_mod_cast h0)
      have hrb : b ≤ -F.radix := by
        have hneg : F.rep ((-F.radix : ℤ) : ℚ) := hD _ (by rw [abs_neg, abs_of_nonneg (by omega)])
        have := hbmin _ hneg (by exact_mod_cast hir)
        exact_mod_cast this
      have hmin : ∀ c, F.rep c → (i : ℚ) ≤ c → (b : ℚ) ≤ c := by
        intro c hc hci
        rcases lt_or_eq_of_le hci with h | h
        · exact hbmin c hc h
        · subst h; exact absurd hc hrep
      rcases ofInt_adjacent hF ha hb hai hib hrep hamax hbmin with e | e
      · -- too low
        have hgt : (a : ℚ) < -1 := by exact_mod_cast (by omega : a < -1)
        obtain ⟨k, hk⟩ := hF.int_below i a (by omega) hrep ha (by exact_mod_cast hai) hamax
        have hrep' := hF.rep_div a ha (Or.inr hgt)
        have hr' : (0 : ℚ) < F.radix := by exact_mod_cast (by omega : 0 < F.radix)
        have hak : a = k * F.radix := by
          have : (a : ℚ) = k * F.radix := by rw [← hk]; field_simp
          exact_mod_cast this
        have hkneg : k < 0 := by
          by_contra hc
          have : 0 ≤ k * F.radix := Int.mul_nonneg (by omega) (by omega)
          omega
        have hka : a < k := by nlinarith
        have hki : i < k := by
          by_contra hc
          rw [hk] at hrep'
          have hne : k ≠ i := by rintro rfl; exact hrep hrep'
          have := hamax k hrep' (by exact_mod_cast (by omega : k < i))
          have : k ≤ a := by exact_mod_cast this
          omega
        rw [e, div_radix hF ha (Or.inr hgt), hk]
        unfold toPromoted
        simp only [trunc_int]
        rw [if_pos ⟨by omega, by omega⟩]
        have hnle : ¬k ≥ i.tdiv F.radix := by
          rw [td i h0]
          intro hc
          have hc : -k ≤ -i / F.radix := by omega
          have := (Int.le_ediv_iff_mul_le (by omega : 0 < F.radix)).mp hc
          have : -k * F.radix = -(k * F.radix) := by ring
          omega
        simp only [hnle, if_false]
        obtain ⟨c, hc1, hc2, hc3, hc4⟩ := hF.next_neg a ha (by linarith)
        have hcb : c = b := by
          apply le_antisymm
          · exact hc4 b hb (by exact_mod_cast (by omega : a < b))
          · apply hbmin c hc2
            rcases lt_trichotomy c i with h | h | h
            · have := hamax c hc2 h; linarith
            · subst h; exact absurd hc2 hrep
            · exact h
        rw [hc1, hcb]
        exact ⟨b, rfl, hb, by exact_mod_cast hib.le, hmin⟩
      · have hgt : (b : ℚ) < -1 := by exact_mod_cast (by omega : b < -1)
        rw [e, div_radix hF hb (Or.inr hgt)]
        have hb' := tb b (by omega)
        have hle : b.tdiv F.radix ≥ i.tdiv F.radix := by
          rw [td b (by omega), td i h0]
          have := Int.ediv_le_ediv (by omega : 0 < F.radix) (by omega : -b ≤ -i)
          omega
        unfold toPromoted
        simp only [trunc_div hr]
        rw [if_pos ⟨by omega, by omega⟩]
        simp only [hle, if_true]
        exact ⟨b, rfl, hb, by exact_mod_cast hib.le, hmin⟩

/-- The lowest floating-point value in the range of the integer type separates values inside from values below. -/
theorem minFloat_spec (hF : Conforms F) (hD : Digits F) (hI : Std I) (hC : Covers F I) :
    ∃ m, minFloat F I = some (.fin m) ∧ F.rep m ∧ ∀ q, F.rep q → (m ≤ q ↔ (I.lo : ℚ) ≤ q) := by
  obtain ⟨m, h1, h2, h3, h4⟩ := minFloatNotBelow_spec hF hD hI hI.lo_nonpos (le_refl _) hC.1
  exact ⟨m, h1, h2, fun q hq => ⟨fun h => le_trans h3 h, fun h => h4 q hq h⟩⟩

theorem maxFloat_spec (hF : Conforms F) (hD : Digits F) (hI : Std I) (hC : Covers F I) :
    ∃ m, maxFloat F I = some (.fin m) ∧ F.rep m ∧ ∀ q, F.rep q → (q ≤ m ↔ q ≤ (I.hi : ℚ)) := by
  obtain ⟨m, h1, h2, h3, h4⟩ := maxFloatNotAbove_spec hF hD hI hI.hi_pos.le (le_refl _) hC.2
  exact ⟨m, h1, h2, fun q hq => ⟨fun h => le_trans h h3, fun h => h4 q hq h⟩⟩

end Verif.FloatInt
