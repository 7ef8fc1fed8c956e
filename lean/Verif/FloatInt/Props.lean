import Verif.FloatInt.Main

/-!
# Properties of comparison and conversion between floating-point and integer values
-/

namespace Verif.FloatInt

open Spec

/-! ### Types for examples -/

/-- `std::int32_t`, where `int` has 32 bits. -/
def int32 : IntType := ⟨-2147483648, 2147483647, -2147483648, 2147483647, true⟩

/-- `std::uint8_t`, where `int` has 32 bits. -/
def uint8 : IntType := ⟨0, 255, -2147483648, 2147483647, false⟩

/-- `bool`, where `int` has 32 bits. -/
def boolean : IntType := ⟨0, 1, -2147483648, 2147483647, false⟩

theorem std_int32 : Std int32 := ⟨by decide, by decide, by decide, by decide, by decide⟩

theorem std_uint8 : Std uint8 := ⟨by decide, by decide, by decide, by decide, by decide⟩

theorem std_boolean : Std boolean := ⟨by decide, by decide, by decide, by decide, by decide⟩

/-- The finite values of `float` (binary32). -/
abbrev single : ℚ → Prop := binaryRep 24 (-149) 104

theorem single_mk (m e : ℤ) (h1 : |m| < 2 ^ 24) (h2 : -149 ≤ e) (h3 : e ≤ 104) : single (m * 2 ^ e) := ⟨m, e, h1, h2, h3, rfl⟩

theorem covers_single {F : FloatType} (h : F.rep = single) {I : IntType} (h1 : -2147483648 ≤ I.lo) (h2 : I.hi ≤ 2147483647) : Covers F I := by
  have q1 : (-2147483648 : ℚ) ≤ I.lo := by exact_mod_cast h1
  have q2 : (I.hi : ℚ) ≤ 2147483647 := by exact_mod_cast h2
  refine ⟨⟨(-1 : ℤ) * 2 ^ (31 : ℤ), ?_, ?_⟩, ⟨(1 : ℤ) * 2 ^ (31 : ℤ), ?_, ?_⟩⟩
  · rw [h]; exact single_mk (-1) 31 (by norm_num) (by norm_num) (by norm_num)
  · norm_num; linarith
  · rw [h]; exact single_mk 1 31 (by norm_num) (by norm_num) (by norm_num)
  · norm_num; linarith

/-- A type with the values of `float`. -/
theorem exists_single : ∃ F : FloatType, F.rep = single ∧ F.radix = 2 ∧ Conforms F ∧ Digits F :=
  binary_exists (by norm_num) (by norm_num) (by norm_num)

variable {F : FloatType} {I : IntType}

/-! ### C115: limits -/

/-- `max_float_not_above_nonneg_int()` avoids undefined behavior, and gives the greatest value that is not greater than the integer. -/
theorem C115_not_above (hF : Conforms F) (hD : ∀ i : ℤ, |i| ≤ F.radix → F.rep i) (hI : Std I) {i : ℤ} (h0 : 0 ≤ i) (hi : i ≤ I.hi)
    (hC : ∃ b, F.rep b ∧ (i : ℚ) ≤ b) :
    ∃ q, maxFloatNotAbove F I i = some (.fin q) ∧ F.rep q ∧ q ≤ i ∧ ∀ c, F.rep c → c ≤ i → c ≤ q := by
  obtain ⟨q, e, hq, h⟩ := maxFloatNotAbove_spec hF hD hI h0 hi hC
  exact ⟨q, e, hq, h.1, h.2⟩

/-- `min_float_not_below_nonpos_int()` avoids undefined behavior, and gives the least value that is not less than the integer. -/
theorem C115_not_below (hF : Conforms F) (hD : ∀ i : ℤ, |i| ≤ F.radix → F.rep i) (hI : Std I) {i : ℤ} (h0 : i ≤ 0) (hi : I.lo ≤ i)
    (hC : ∃ a, F.rep a ∧ a ≤ (i : ℚ)) :
    ∃ q, minFloatNotBelow F I i = some (.fin q) ∧ F.rep q ∧ (i : ℚ) ≤ q ∧ ∀ c, F.rep c → (i : ℚ) ≤ c → q ≤ c := by
  obtain ⟨q, e, hq, h⟩ := minFloatNotBelow_spec hF hD hI h0 hi hC
  exact ⟨q, e, hq, h.1, h.2⟩

/-- `min_float_for_int()`, and `max_float_for_int()` avoid undefined behavior, and give the least and the greatest value in the range of
the integer type. -/
theorem C115_for_int (hF : Conforms F) (hD : ∀ i : ℤ, |i| ≤ F.radix → F.rep i) (hI : Std I) (hC : Covers F I) :
    ∃ m M, minFloat F I = some (.fin m) ∧ maxFloat F I = some (.fin M) ∧ F.rep m ∧ F.rep M ∧
      ∀ q, F.rep q → ((m ≤ q ∧ q ≤ M) ↔ ((I.lo : ℚ) ≤ q ∧ q ≤ I.hi)) := by
  obtain ⟨m, e1, hm, h1⟩ := minFloat_spec hF hD hI hC
  obtain ⟨M, e2, hM, h2⟩ := maxFloat_spec hF hD hI hC
  exact ⟨m, M, e1, e2, hm, hM, fun q hq => and_congr (h1 q hq) (h2 q hq)⟩

/-- For `float`, and 32-bit integers, the highest value in range is 2147483520. -/
example (hF : Conforms F) (h : F.rep = single) (hr : F.radix = 2) : maxFloat F int32 = some (.fin 2147483520) := by
  have hD : ∀ i : ℤ, |i| ≤ F.radix → F.rep i := by
    intro i hi
    rw [h]; rw [hr] at hi
    exact binaryRep_int (by norm_num) (by norm_num) (by norm_num) (by omega)
  obtain ⟨M, e, hM, hle, hmax⟩ := C115_not_above hF hD std_int32 (i := 2147483647) (by norm_num) (by decide)
    (covers_single h (I := int32) (by decide) (by decide)).2
  show maxFloatNotAbove F int32 2147483647 = _
  rw [e]
  have h1 : (2147483520 : ℚ) ≤ M := by
    apply hmax _ _ (by norm_num)
    rw [h]
    have := single_mk 16777215 7 (by norm_num) (by norm_num) (by norm_num)
    norm_num at this
    exact this
  rw [h] at hM
  obtain ⟨m, k, hm, hk1, hk2, rfl⟩ := hM
  push_cast at hle
  -- The exponent is at least 7, and the value is a multiple of 128
  have hm' : (m : ℚ) ≤ 16777215 := by
    have : m ≤ 16777215 := by have := (abs_lt.mp hm).2; norm_num at this; omega
    exact_mod_cast this
  have hk : 7 ≤ k := by
    by_contra hc
    have hpow : (0 : ℚ) < 2 ^ k := zpow_pos (by norm_num) _
    have hpow1 : (2 : ℚ) ^ k ≤ 2 ^ (6 : ℤ) := zpow_le_zpow_right₀ (by norm_num) (by omega)
    have : (m : ℚ) * 2 ^ k ≤ 16777215 * 2 ^ (6 : ℤ) := mul_le_mul hm' hpow1 hpow.le (by norm_num)
    norm_num at this
    linarith
  have e1 : ((m : ℚ) * 2 ^ k) = ((m * 2 ^ (k - 7).toNat * 128 : ℤ) : ℚ) := by
    have : (2 : ℚ) ^ k = 2 ^ (k - 7) * 2 ^ (7 : ℤ) := by rw [← zpow_add₀ (by norm_num)]; congr 1; ring
    rw [this, zpow_int (by omega : 0 ≤ k - 7)]
    push_cast; norm_num; ring
  rw [e1] at h1 hle ⊢
  generalize m * 2 ^ (k - 7).toNat = x at *
  have h1 : (2147483520 : ℤ) ≤ x * 128 := by exact_mod_cast h1
  have hle : x * 128 ≤ (2147483647 : ℤ) := by
    have : ((x * 128 : ℤ) : ℚ) ≤ ((2147483647 : ℤ) : ℚ) := by simpa using hle
    exact_mod_cast this
  have : x * 128 = 2147483520 := by omega
  rw [this]; norm_num

/-- A type with radix 3, and values -3, -1, 0, 1, and 3. -/
def sparse : FloatType where
  rep q := q = -3 ∨ q = -1 ∨ q = 0 ∨ q = 1 ∨ q = 3
  radix := 3
  ofInt i := if i = 2 then .fin 1 else if i = -2 then .fin (-1) else .fin i
  next
    | .fin q => if q = 3 then .fin 1 else if q = -3 then .fin (-1) else .fin 0
    | v => v
  div
    | .fin a, .fin b => if a = 1 ∧ b = 3 then .fin 1 else .fin (a / b)
    | _, _ => .nan

theorem sparse_int {q : ℚ} (h : sparse.rep q) : ∃ k : ℤ, q = k ∧ |k| ≤ 3 := by
  rcases h with rfl | rfl | rfl | rfl | rfl
  · exact ⟨-3, by norm_num, by decide⟩
  · exact ⟨-1, by norm_num, by decide⟩
  · exact ⟨0, by norm_num, by decide⟩
  · exact ⟨1, by norm_num, by decide⟩
  · exact ⟨3, by norm_num, by decide⟩

/-- The documented requirements for floating-point types are not sufficient. Representability of all integers up to the radix is also
needed: without it, `max_float_not_above_nonneg_int()` can give a value that is not the greatest. -/
theorem C115_requirements_insufficient : Conforms sparse ∧ sparse.rep 1 ∧ maxFloatNotAbove sparse int32 2 = some (.fin 0) := by
  refine ⟨?_, by simp [sparse], ?_⟩
  · constructor
    · simp [sparse]
    · simp [sparse]
    · simp [sparse]
    · simp [sparse]
    · simp [sparse]
    · rintro a b ha hb h0 hr
      have : ¬(a = 1 ∧ b = 3) := by
        rintro ⟨rfl, rfl⟩
        simp only [sparse] at hr
        norm_num at hr
      simp [sparse, this]
    · intro a ha
      obtain ⟨k, rfl, hk⟩ := sparse_int ha
      rw [Int.floor_intCast]; exact ha
    · intro a ha
      obtain ⟨k, rfl, hk⟩ := sparse_int ha
      rw [Int.ceil_intCast]; exact ha
    · intro i hi
      have h1 : i ≠ 2 := by
        rintro rfl; simp only [sparse] at hi; norm_num at hi
      have h2 : i ≠ -2 := by
        rintro rfl; simp only [sparse] at hi; norm_num at hi
      simp [sparse, h1, h2]
    · intro i a b ha hb hai hib hab
      simp only [sparse] at ha hb hab
      have hlt : a < b := lt_trans hai hib
      have h0 := hab 0 (by norm_num)
      have h1 := hab 1 (by norm_num)
      have h1' := hab (-1) (by norm_num)
      have hcase : (a = 1 ∧ b = 3) ∨ (a = -3 ∧ b = -1) ∨ (a = -1 ∧ b = 0) ∨ (a = 0 ∧ b = 1) := by
        rcases ha with rfl | rfl | rfl | rfl | rfl <;> rcases hb with rfl | rfl | rfl | rfl | rfl <;> 
          first
            | (exfalso; revert hlt; norm_num; done)
            | (exfalso; revert h0; norm_num; done)
            | (exfalso; revert h1; norm_num; done)
            | (exfalso; revert h1'; norm_num; done)
            | norm_num
      rcases hcase with ⟨rfl, rfl⟩ | ⟨rfl, rfl⟩ | ⟨rfl, rfl⟩ | ⟨rfl, rfl⟩
      · have : i = 2 := by
          have : (1 : ℤ) < i := by exact_mod_cast hai
          have : i < (3 : ℤ) := by exact_mod_cast hib
          omega
        left; simp [sparse, this]
      · have : i = -2 := by
          have : (-3 : ℤ) < i := by exact_mod_cast hai
          have : i < (-1 : ℤ) := by exact_mod_cast hib
          omega
        right; simp [sparse, this]
      · exfalso
        have : (-1 : ℤ) < i := by exact_mod_cast hai
        have : i < (0 : ℤ) := by exact_mod_cast hib
        omega
      · exfalso
        have : (0 : ℤ) < i := by exact_mod_cast hai
        have : i < (1 : ℤ) := by exact_mod_cast hib
        omega
    · rintro a (rfl | rfl | rfl | rfl | rfl) h <;> simp only [sparse] <;> (try norm_num at h) <;> norm_num
    · rintro i b hi hn (rfl | rfl | rfl | rfl | rfl) hib -
      · exfalso
        have : i < (-3 : ℤ) := by exact_mod_cast hib
        omega
      · exfalso
        have : i < (-1 : ℤ) := by exact_mod_cast hib
        omega
      · exfalso
        have : i < (0 : ℤ) := by exact_mod_cast hib
        omega
      · exfalso
        have : i < (1 : ℤ) := by exact_mod_cast hib
        omega
      · exact ⟨1, by simp [sparse]⟩
    · rintro i b hi hn (rfl | rfl | rfl | rfl | rfl) hib -
      · exact ⟨-1, by simp [sparse]⟩
      · exfalso
        have : (-1 : ℤ) < i := by exact_mod_cast hib
        omega
      · exfalso
        have : (0 : ℤ) < i := by exact_mod_cast hib
        omega
      · exfalso
        have : (1 : ℤ) < i := by exact_mod_cast hib
        omega
      · exfalso
        have : (3 : ℤ) < i := by exact_mod_cast hib
        omega
    · rintro a (rfl | rfl | rfl | rfl | rfl) hp
      · norm_num at hp
      · norm_num at hp
      · norm_num at hp
      · refine ⟨0, by simp only [sparse]; norm_num, by simp [sparse], by norm_num, ?_⟩
        rintro c (rfl | rfl | rfl | rfl | rfl) h <;> (try norm_num at h) <;> norm_num
      · refine ⟨1, by simp only [sparse]; norm_num, by simp [sparse], by norm_num, ?_⟩
        rintro c (rfl | rfl | rfl | rfl | rfl) h <;> (try norm_num at h) <;> norm_num
    · rintro a (rfl | rfl | rfl | rfl | rfl) hp
      · refine ⟨-1, by simp only [sparse]; norm_num, by simp [sparse], by norm_num, ?_⟩
        rintro c (rfl | rfl | rfl | rfl | rfl) h <;> (try norm_num at h) <;> norm_num
      · refine ⟨0, by simp only [sparse]; norm_num, by simp [sparse], by norm_num, ?_⟩
        rintro c (rfl | rfl | rfl | rfl | rfl) h <;> (try norm_num at h) <;> norm_num
      · norm_num at hp
      · norm_num at hp
      · norm_num at hp
  · have : trunc (1 : ℚ) = 1 := by exact_mod_cast trunc_int 1
    simp [maxFloatNotAbove, sparse, toPromoted, this, int32]
    norm_num

/-! ### C116: comparisons -/

theorem and_not_iff' {P S : Prop} (h : P → ¬S) : P ∧ ¬S ↔ P := ⟨fun x => x.1, fun x => ⟨x, h x⟩⟩

theorem or_and_iff' {P Q S : Prop} (h : P → ¬S) : Q ∨ P ∧ S ↔ Q := by
  constructor
  · rintro (x | ⟨x, y⟩)
    · exact x
    · exact absurd y (h x)
  · exact Or.inl

/-- `float_equal_int()` avoids undefined behavior, and is correct for all values. -/
theorem C116_equal (h : Setup F I) {v : Val} (hv : IsVal F v) {n : ℤ} (h1 : I.lo ≤ n) (h2 : n ≤ I.hi) :
    ∃ b, floatEqualInt F I v n = some b ∧ (b = true ↔ Equal v n) :=
  floatEqualInt_eq h hv h1 h2

/-- None of the comparisons invoke undefined behavior. -/
theorem C116_defined (h : Setup F I) {v : Val} (hv : IsVal F v) {n : ℤ} (h1 : I.lo ≤ n) (h2 : n ≤ I.hi) :
    (floatEqualInt F I v n).isSome ∧ (floatLessInt F I v n).isSome ∧ (floatGreaterInt F I v n).isSome ∧
      (floatLessEqualInt F I v n).isSome ∧ (floatGreaterEqualInt F I v n).isSome := by
  obtain ⟨b1, e1, -⟩ := floatEqualInt_eq h hv h1 h2
  obtain ⟨b2, e2, -⟩ := floatLessInt_eq h hv h1 h2
  obtain ⟨b3, e3, -⟩ := floatGreaterInt_eq h hv h1 h2
  obtain ⟨b4, e4, -⟩ := floatLessEqualInt_eq h hv h1 h2
  obtain ⟨b5, e5, -⟩ := floatGreaterEqualInt_eq h hv h1 h2
  simp [e1, e2, e3, e4, e5]

/-- The comparisons are correct if the integer can be represented in the floating-point type. -/
theorem C116_representable_partial (h : Setup F I) {v : Val} (hv : IsVal F v) {n : ℤ} (h1 : I.lo ≤ n) (h2 : n ≤ I.hi) (hn : F.rep n) :
    (floatLessInt F I v n = some true ↔ Less v n) ∧ (floatGreaterInt F I v n = some true ↔ Greater v n) ∧
      (floatLessEqualInt F I v n = some true ↔ Less v n ∨ Equal v n) ∧
      (floatGreaterEqualInt F I v n = some true ↔ Greater v n ∨ Equal v n) := by
  have s1 : Less v n → ¬SkipUp F I v n := by
    rintro hl ⟨q, rfl, -, -, -, hs⟩
    exact lt_irrefl _ (hs n hn hl)
  have s2 : Greater v n → ¬SkipDown F I v n := by
    rintro hl ⟨q, rfl, -, -, hs⟩
    exact lt_irrefl _ (hs n hn hl)
  obtain ⟨b2, e2, i2⟩ := floatLessInt_eq h hv h1 h2
  obtain ⟨b3, e3, i3⟩ := floatGreaterInt_eq h hv h1 h2
  obtain ⟨b4, e4, i4⟩ := floatLessEqualInt_eq h hv h1 h2
  obtain ⟨b5, e5, i5⟩ := floatGreaterEqualInt_eq h hv h1 h2
  rw [e2, e3, e4, e5]
  simp only [Option.some.injEq]
  rw [i2, i3, i4, i5]
  exact ⟨and_not_iff' s1, and_not_iff' s2, or_and_iff' s2, or_and_iff' s1⟩

/-- The comparisons are correct if the floating-point value is zero, a NaN, or an infinity, or if it is outside the range of the integer
type. -/
theorem C116_outside_partial (h : Setup F I) {v : Val} (hv : IsVal F v) {n : ℤ} (h1 : I.lo ≤ n) (h2 : n ≤ I.hi)
    (hout : ∀ q, v = .fin q → q = 0 ∨ q < I.lo ∨ (I.hi : ℚ) < q) :
    (floatLessInt F I v n = some true ↔ Less v n) ∧ (floatGreaterInt F I v n = some true ↔ Greater v n) ∧
      (floatLessEqualInt F I v n = some true ↔ Less v n ∨ Equal v n) ∧
      (floatGreaterEqualInt F I v n = some true ↔ Greater v n ∨ Equal v n) := by
  have hlo : (I.lo : ℚ) ≤ 0 := by exact_mod_cast h.std.lo_nonpos
  have hhi : (0 : ℚ) ≤ I.hi := by exact_mod_cast h.std.hi_pos.le
  have s1 : ¬SkipUp F I v n := by
    rintro ⟨q, rfl, -, a, b, -⟩
    rcases hout q rfl with hc | hc | hc <;> linarith
  have s2 : ¬SkipDown F I v n := by
    rintro ⟨q, rfl, a, b, -⟩
    rcases hout q rfl with hc | hc | hc <;> linarith
  obtain ⟨b2, e2, i2⟩ := floatLessInt_eq h hv h1 h2
  obtain ⟨b3, e3, i3⟩ := floatGreaterInt_eq h hv h1 h2
  obtain ⟨b4, e4, i4⟩ := floatLessEqualInt_eq h hv h1 h2
  obtain ⟨b5, e5, i5⟩ := floatGreaterEqualInt_eq h hv h1 h2
  rw [e2, e3, e4, e5]
  simp only [Option.some.injEq]
  rw [i2, i3, i4, i5]
  exact ⟨and_not_iff' fun _ => s1, and_not_iff' fun _ => s2, or_and_iff' fun _ => s2, or_and_iff' fun _ => s1⟩

/-- For nonnegative values, `float_less_int()`, and `float_greater_equal_int()` are correct. For nonpositive values, `float_greater_int()`,
and `float_less_equal_int()` are correct. -/
theorem C116_sign_partial (h : Setup F I) {q : ℚ} (hq : F.rep q) {n : ℤ} (h1 : I.lo ≤ n) (h2 : n ≤ I.hi) :
    (0 ≤ q → ((floatLessInt F I (.fin q) n = some true ↔ q < n) ∧ (floatGreaterEqualInt F I (.fin q) n = some true ↔ (n : ℚ) ≤ q))) ∧
    (q ≤ 0 → ((floatGreaterInt F I (.fin q) n = some true ↔ (n : ℚ) < q) ∧ (floatLessEqualInt F I (.fin q) n = some true ↔ q ≤ n))) := by
  obtain ⟨b2, e2, i2⟩ := floatLessInt_eq h (v := .fin q) hq h1 h2
  obtain ⟨b3, e3, i3⟩ := floatGreaterInt_eq h (v := .fin q) hq h1 h2
  obtain ⟨b4, e4, i4⟩ := floatLessEqualInt_eq h (v := .fin q) hq h1 h2
  obtain ⟨b5, e5, i5⟩ := floatGreaterEqualInt_eq h (v := .fin q) hq h1 h2
  rw [e2, e3, e4, e5]
  simp only [Option.some.injEq]
  rw [i2, i3, i4, i5]
  refine ⟨fun h0 => ?_, fun h0 => ?_⟩
  · have s1 : ¬SkipUp F I (.fin q) n := by
      rintro ⟨q', e, -, a, -⟩
      cases e; linarith
    refine ⟨⟨fun x => x.1, fun x => ⟨x, s1⟩⟩, ?_⟩
    have : (Greater (.fin q) n ∨ Equal (.fin q) n) ↔ (n : ℚ) ≤ q := by
      show (n : ℚ) < q ∨ q = n ↔ _
      rw [le_iff_lt_or_eq, eq_comm]
    rw [or_and_iff' fun _ => s1, this]
  · have s2 : ¬SkipDown F I (.fin q) n := by
      rintro ⟨q', e, a, -⟩
      cases e; linarith
    refine ⟨⟨fun x => x.1, fun x => ⟨x, s2⟩⟩, ?_⟩
    have : (Less (.fin q) n ∨ Equal (.fin q) n) ↔ q ≤ n := le_iff_lt_or_eq.symm
    rw [or_and_iff' fun _ => s2, this]

/-- Exactly when the value is positive, and in range, and there is an integer below it with no representable value between the two
(inclusive of the integer), `float_greater_int()`, and `float_less_equal_int()` give the wrong result. -/
theorem C116_wrong_positive (h : Setup F I) {q : ℚ} (hq : F.rep q) {n : ℤ} (h1 : I.lo ≤ n) (h2 : n ≤ I.hi) (hn : (n : ℚ) < q) :
    (floatGreaterInt F I (.fin q) n = some false ↔ (0 < q ∧ q ≤ I.hi ∧ ∀ c, F.rep c → (n : ℚ) ≤ c → q ≤ c)) ∧
    (floatLessEqualInt F I (.fin q) n = some true ↔ (0 < q ∧ q ≤ I.hi ∧ ∀ c, F.rep c → (n : ℚ) ≤ c → q ≤ c)) := by
  have hskip : SkipDown F I (.fin q) n ↔ (0 < q ∧ q ≤ I.hi ∧ ∀ c, F.rep c → (n : ℚ) ≤ c → q ≤ c) := by
    constructor
    · rintro ⟨q', e, a, b, c⟩
      cases e
      refine ⟨a, b, fun x hx hnx => ?_⟩
      by_contra hc
      have := c x hx (lt_of_not_ge hc)
      linarith
    · rintro ⟨a, b, c⟩
      refine ⟨q, rfl, a, b, fun x hx hxq => ?_⟩
      by_contra hc
      have := c x hx (le_of_not_gt hc)
      linarith
  obtain ⟨b3, e3, i3⟩ := floatGreaterInt_eq h (v := .fin q) hq h1 h2
  obtain ⟨b4, e4, i4⟩ := floatLessEqualInt_eq h (v := .fin q) hq h1 h2
  rw [e3, e4, ← hskip]
  have hg : Greater (.fin q) n := hn
  have hl : ¬(Less (.fin q) n ∨ Equal (.fin q) n) := by
    rintro (hc | hc)
    · have hc : q < n := hc
      linarith
    · have hc : q = n := hc
      linarith
  constructor
  · cases b3 <;> simp_all
  · cases b4 <;> simp_all

@[inherit_doc C116_wrong_positive]
theorem C116_wrong_negative (h : Setup F I) (hs : I.signed = true) {q : ℚ} (hq : F.rep q) {n : ℤ} (h1 : I.lo ≤ n) (h2 : n ≤ I.hi)
    (hn : q < (n : ℚ)) :
    (floatLessInt F I (.fin q) n = some false ↔ (q < 0 ∧ (I.lo : ℚ) ≤ q ∧ ∀ c, F.rep c → c ≤ (n : ℚ) → c ≤ q)) ∧
    (floatGreaterEqualInt F I (.fin q) n = some true ↔ (q < 0 ∧ (I.lo : ℚ) ≤ q ∧ ∀ c, F.rep c → c ≤ (n : ℚ) → c ≤ q)) := by
  have hskip : SkipUp F I (.fin q) n ↔ (q < 0 ∧ (I.lo : ℚ) ≤ q ∧ ∀ c, F.rep c → c ≤ (n : ℚ) → c ≤ q) := by
    constructor
    · rintro ⟨q', e, -, a, b, c⟩
      cases e
      refine ⟨a, b, fun x hx hnx => ?_⟩
      by_contra hc
      have := c x hx (lt_of_not_ge hc)
      linarith
    · rintro ⟨a, b, c⟩
      refine ⟨q, rfl, hs, a, b, fun x hx hxq => ?_⟩
      by_contra hc
      have := c x hx (le_of_not_gt hc)
      linarith
  obtain ⟨b3, e3, i3⟩ := floatLessInt_eq h (v := .fin q) hq h1 h2
  obtain ⟨b4, e4, i4⟩ := floatGreaterEqualInt_eq h (v := .fin q) hq h1 h2
  rw [e3, e4, ← hskip]
  have hg : Less (.fin q) n := hn
  have hl : ¬(Greater (.fin q) n ∨ Equal (.fin q) n) := by
    rintro (hc | hc)
    · have hc : n < q := hc
      linarith
    · have hc : q = n := hc
      linarith
  constructor
  · cases b3 <;> simp_all
  · cases b4 <;> simp_all

/-- The conditions are met by every type with the values of `float`. -/
theorem setup_single (hF : Conforms F) (h : F.rep = single) (hr : F.radix = 2) : Setup F int32 := by
  refine ⟨hF, ?_, std_int32, covers_single h (by decide) (by decide)⟩
  intro i hi
  rw [h]; rw [hr] at hi
  exact binaryRep_int (by norm_num) (by norm_num) (by norm_num) (by omega)

/-- With `float`, and 32-bit integers, 16777218 is claimed to be less than, or equal to 16777217, and not greater than it. -/
theorem C116_wrong_single (hF : Conforms F) (h : F.rep = single) (hr : F.radix = 2) :
    floatGreaterInt F int32 (.fin 16777218) 16777217 = some false ∧ floatLessEqualInt F int32 (.fin 16777218) 16777217 = some true ∧
    floatLessInt F int32 (.fin (-16777218)) (-16777217) = some false ∧
    floatGreaterEqualInt F int32 (.fin (-16777218)) (-16777217) = some true := by
  have hS := setup_single hF h hr
  have hrep : single 16777218 := by
    have := single_mk 8388609 1 (by norm_num) (by norm_num) (by norm_num)
    norm_num at this
    exact this
  have hgap : ∀ c, single c → (16777217 : ℚ) ≤ c → 16777218 ≤ c := by
    intro c hc hle
    obtain ⟨k, rfl⟩ := binaryRep_even hc (by rw [abs_of_pos (by linarith)]; norm_num; linarith)
    have : (16777217 : ℤ) ≤ 2 * k := by exact_mod_cast hle
    have : (16777218 : ℤ) ≤ 2 * k := by omega
    exact_mod_cast this
  have w1 := C116_wrong_positive hS (q := 16777218) (by rw [h]; exact hrep) (n := 16777217) (by decide) (by decide) (by norm_num)
  have w2 := C116_wrong_negative hS rfl (q := -16777218) (by rw [h]; exact binaryRep_neg hrep) (n := -16777217) (by decide) (by decide)
    (by norm_num)
  have c1 : (0 : ℚ) < 16777218 ∧ (16777218 : ℚ) ≤ int32.hi ∧ ∀ c, F.rep c → (((16777217 : ℤ)) : ℚ) ≤ c → 16777218 ≤ c := by
    refine ⟨by norm_num, by norm_num [int32], ?_⟩
    rw [h]
    intro c hc hle
    exact hgap c hc (by exact_mod_cast hle)
  have c2 : (-16777218 : ℚ) < 0 ∧ (int32.lo : ℚ) ≤ -16777218 ∧ ∀ c, F.rep c → c ≤ (((-16777217 : ℤ)) : ℚ) → c ≤ -16777218 := by
    refine ⟨by norm_num, by norm_num [int32], ?_⟩
    rw [h]
    intro c hc hle
    push_cast at hle
    have := hgap (-c) (binaryRep_neg hc) (by linarith)
    linarith
  exact ⟨w1.1.mpr c1, w1.2.mpr c1, w2.1.mpr c2, w2.2.mpr c2⟩

/-- For `float`, and 32-bit integers, all integers of magnitude at most 2^24 are compared correctly. -/
example (hF : Conforms F) (h : F.rep = single) (hr : F.radix = 2) {v : Val} (hv : IsVal F v) {n : ℤ} (hn : |n| ≤ 2 ^ 24) :
    (floatLessInt F int32 v n = some true ↔ Less v n) ∧ (floatGreaterInt F int32 v n = some true ↔ Greater v n) := by
  have hn' : -(2 ^ 24) ≤ n ∧ n ≤ 2 ^ 24 := abs_le.mp hn
  have := C116_representable_partial (setup_single hF h hr) hv (n := n) (by simp only [int32]; omega) (by simp only [int32]; omega)
    (by rw [h]; exact binaryRep_int (by norm_num) (by norm_num) (by norm_num) hn)
  exact ⟨this.1, this.2.1⟩

/-- 0.5 is not equal to zero, and greater than it. -/
example (hF : Conforms F) (h : F.rep = single) (hr : F.radix = 2) :
    floatEqualInt F int32 (.fin (1 / 2)) 0 = some false ∧ floatGreaterInt F int32 (.fin (1 / 2)) 0 = some true := by
  have hS := setup_single hF h hr
  have hv : IsVal F (.fin (1 / 2)) := by
    show F.rep _
    rw [h]
    have := single_mk 1 (-1) (by norm_num) (by norm_num) (by norm_num)
    norm_num at this ⊢
    exact this
  obtain ⟨b, e, hb⟩ := C116_equal hS hv (n := 0) (by decide) (by decide)
  refine ⟨?_, ?_⟩
  · rw [e]
    cases b
    · rfl
    · exfalso
      have : (1 / 2 : ℚ) = ((0 : ℤ) : ℚ) := hb.mp rfl
      norm_num at this
  · refine (C116_representable_partial hS hv (n := 0) (by decide) (by decide) (by simpa using hF.rep_zero)).2.1.mpr ?_
    show ((0 : ℤ) : ℚ) < 1 / 2
    norm_num

/-! ### C117: conversions -/

/-- `try_float_to_int()` avoids undefined behavior. A finite value is converted precisely when it is in the range of the integer type, and
it is then truncated. -/
theorem C117_try (h : Setup F I) {q : ℚ} (hq : F.rep q) :
    ∃ r, tryFloatToInt F I (.fin q) = some r ∧ (∀ t, r = some t ↔ ((I.lo : ℚ) ≤ q ∧ q ≤ I.hi ∧ IsTrunc q t)) := by
  refine ⟨_, tryFloatToInt_fin h hq, ?_⟩
  intro t
  split
  · rename_i hc
    simp only [Option.some.injEq]
    constructor
    · rintro rfl; exact ⟨hc.1, hc.2, isTrunc_trunc q⟩
    · rintro ⟨-, -, ht⟩; exact (isTrunc_unique ht).symm
  · rename_i hc
    simp only [reduceCtorEq, false_iff]
    rintro ⟨a, b, -⟩
    exact hc ⟨a, b⟩

/-- `try_float_to_int()` rejects NaN, and infinities. -/
theorem C117_try_special (h : Setup F I) :
    tryFloatToInt F I .nan = some none ∧ tryFloatToInt F I .ninf = some none ∧ tryFloatToInt F I .pinf = some none :=
  ⟨tryFloatToInt_other h (by simp), tryFloatToInt_other h (by simp), tryFloatToInt_other h (by simp)⟩

/-- `clamped_float_to_int()` avoids undefined behavior. A finite value is truncated if it is in the range of the integer type, and
otherwise becomes the nearest limit of that range. -/
theorem C117_clamped (h : Setup F I) {q : ℚ} (hq : F.rep q) :
    ∃ t, clampedFloatToInt F I (.fin q) = some t ∧ I.lo ≤ t ∧ t ≤ I.hi ∧ (q < I.lo → t = I.lo) ∧ ((I.hi : ℚ) < q → t = I.hi) ∧
      ((I.lo : ℚ) ≤ q → q ≤ I.hi → IsTrunc q t) := by
  have hlohi : I.lo ≤ I.hi := le_trans h.std.lo_nonpos h.std.hi_pos.le
  have hlohi' : (I.lo : ℚ) ≤ I.hi := by exact_mod_cast hlohi
  refine ⟨_, clampedFloatToInt_fin h hq, ?_⟩
  by_cases c1 : q < I.lo
  · rw [if_pos c1]
    exact ⟨le_rfl, hlohi, fun _ => rfl, fun c => absurd c (by linarith), fun c => absurd c1 (not_lt.mpr c)⟩
  · rw [if_neg c1]
    by_cases c2 : (I.hi : ℚ) < q
    · rw [if_pos c2]
      exact ⟨hlohi, le_rfl, fun c => absurd c c1, fun _ => rfl, fun _ c => absurd c2 (not_lt.mpr c)⟩
    · rw [if_neg c2]
      have hb := trunc_bounds h.std.lo_nonpos h.std.hi_pos.le (le_of_not_gt c1) (le_of_not_gt c2)
      exact ⟨hb.1, hb.2, fun c => absurd c c1, fun c => absurd c c2, fun _ _ => isTrunc_trunc q⟩

/-- `clamped_float_to_int()` converts NaN to zero, and infinities to the limits of the range of the integer type. -/
theorem C117_clamped_special (h : Setup F I) :
    clampedFloatToInt F I .nan = some 0 ∧ clampedFloatToInt F I .ninf = some I.lo ∧ clampedFloatToInt F I .pinf = some I.hi :=
  clampedFloatToInt_other h

/-- Conversion of an integer to floating-point, and back gives the original integer if the floating-point type can represent it. -/
theorem C117_round_trip (h : Setup F I) {n : ℤ} (h1 : I.lo ≤ n) (h2 : n ≤ I.hi) (hn : F.rep n) :
    tryFloatToInt F I (F.ofInt n) = some (some n) ∧ clampedFloatToInt F I (F.ofInt n) = some n := by
  have q1 : (I.lo : ℚ) ≤ n := by exact_mod_cast h1
  have q2 : (n : ℚ) ≤ I.hi := by exact_mod_cast h2
  rw [h.conforms.ofInt_exact n hn, tryFloatToInt_fin h hn, clampedFloatToInt_fin h hn, if_pos ⟨q1, q2⟩, if_neg (not_lt.mpr q1),
    if_neg (not_lt.mpr q2), trunc_int]
  exact ⟨rfl, rfl⟩

/-- 255.5 is outside the range of 8-bit unsigned integers. -/
example (hS : Setup F uint8) (hq : F.rep (511 / 2)) :
    tryFloatToInt F uint8 (.fin (511 / 2)) = some none ∧ clampedFloatToInt F uint8 (.fin (511 / 2)) = some 255 := by
  obtain ⟨r, e, hr⟩ := C117_try hS hq
  obtain ⟨t, e', -, -, -, ht, -⟩ := C117_clamped hS hq
  refine ⟨?_, ?_⟩
  · rw [e]
    cases r with
    | none => rfl
    | some t =>
      exfalso
      have := ((hr t).mp rfl).2.1
      norm_num [uint8] at this
  · rw [e', ht (by norm_num [uint8])]
    rfl

/-- -1.75 is converted to -1. -/
example (hS : Setup F int32) (hq : F.rep (-7 / 4)) : tryFloatToInt F int32 (.fin (-7 / 4)) = some (some (-1)) := by
  obtain ⟨r, e, hr⟩ := C117_try hS hq
  rw [e, (hr (-1)).mpr ⟨by norm_num [int32], by norm_num [int32], by norm_num [IsTrunc]⟩]

/-! ### C118: binary formats -/

/-- The finite values of a binary floating-point format satisfy the documented requirements that concern representability (requirements 1,
7, 10, and 11), if its exponent range is not extremely narrow. -/
theorem C118_binary {p : ℕ} {emin emax : ℤ} (hp : 1 ≤ p) (hmin : emin ≤ -p) (hmax : 1 ≤ emax) :
    (∀ i : ℤ, |i| ≤ 2 → binaryRep p emin emax i) ∧
    (∀ q, binaryRep p emin emax q → binaryRep p emin emax ⌊q⌋ ∧ binaryRep p emin emax ⌈q⌉) ∧
    (∀ q, binaryRep p emin emax q → 1 < |q| → binaryRep p emin emax (q / 2)) ∧
    (∀ (i : ℤ) (q : ℚ), ¬binaryRep p emin emax i → binaryRep p emin emax q → |(i : ℚ)| ≤ |q| → ∃ k : ℤ, q / 2 = k) := by
  have h0 : emin ≤ 0 := by omega
  refine ⟨?_, fun q hq => ⟨binaryRep_floor hp h0 hmax hq, binaryRep_ceil hp h0 hmax hq⟩, fun q hq h => binaryRep_half hmin hq h,
    fun i q hn hq h => binaryRep_int_above hp h0 hmax hn hq h⟩
  intro i hi
  apply binaryRep_int hp h0 hmax
  have h2p : (2 : ℤ) ≤ 2 ^ p := by
    calc (2 : ℤ) = 2 ^ 1 := by norm_num
      _ ≤ 2 ^ p := pow_le_pow_right₀ (by norm_num) hp
  omega

/-- There is a floating-point type with exactly those values which satisfies all the requirements. -/
theorem C118_exists {p : ℕ} {emin emax : ℤ} (hp : 1 ≤ p) (hmin : emin ≤ -p) (hmax : 1 ≤ emax) :
    ∃ F : FloatType, F.rep = binaryRep p emin emax ∧ F.radix = 2 ∧ Conforms F ∧ ∀ i : ℤ, |i| ≤ F.radix → F.rep i :=
  binary_exists hp hmin hmax

/-- In such a type, the integers that are compared correctly by all functions include those of magnitude at most `2 ^ p`, but if the range
of the integer type extends far enough, not the next one. -/
theorem C118_comparison_limit {p : ℕ} {emin emax : ℤ} (hp : 1 ≤ p) (hmin : emin ≤ -p) (hmax : 1 ≤ emax) (h : Setup F I)
    (hrep : F.rep = binaryRep p emin emax) (hhi : (2 : ℤ) ^ p + 2 ≤ I.hi) :
    (∀ (v : Val) (n : ℤ), IsVal F v → I.lo ≤ n → |n| ≤ 2 ^ p → (floatGreaterInt F I v n = some true ↔ Greater v n)) ∧
    (F.rep ((2 : ℚ) ^ p + 2) → floatGreaterInt F I (.fin (2 ^ p + 2)) (2 ^ p + 1) = some false) := by
  have h0 : emin ≤ 0 := by omega
  constructor
  · intro v n hv h1 hn
    have hn' := abs_le.mp hn
    exact (C116_representable_partial h hv h1 (by omega) (by rw [hrep]; exact binaryRep_int hp h0 hmax hn)).2.1
  · intro hr
    have h2p : (0 : ℤ) < 2 ^ p := by positivity
    have h2p' : (0 : ℚ) < 2 ^ p := by positivity
    refine (C116_wrong_positive h hr (n := 2 ^ p + 1) (by have := h.std.lo_nonpos; omega) (by omega) (by push_cast; linarith)).1.mpr ?_
    refine ⟨by linarith, by exact_mod_cast hhi, ?_⟩
    intro c hc hle
    rw [hrep] at hc
    push_cast at hle
    obtain ⟨k, rfl⟩ := binaryRep_even hc (by rw [abs_of_pos (by linarith)]; linarith)
    have hpp : (2 : ℤ) ^ p = 2 * 2 ^ (p - 1) := by rw [← pow_succ']; congr 1; omega
    have h3 : (2 : ℤ) ^ p + 1 ≤ 2 * k := by exact_mod_cast hle
    have h4 : (2 : ℤ) ^ p + 2 ≤ 2 * k := by omega
    exact_mod_cast h4

/-- The formats of `float`, and `double`. -/
example : (∃ F : FloatType, F.rep = binaryRep 24 (-149) 104 ∧ F.radix = 2 ∧ Conforms F ∧ ∀ i : ℤ, |i| ≤ F.radix → F.rep i) ∧
    ∃ F : FloatType, F.rep = binaryRep 53 (-1074) 971 ∧ F.radix = 2 ∧ Conforms F ∧ ∀ i : ℤ, |i| ≤ F.radix → F.rep i :=
  ⟨C118_exists (by norm_num) (by norm_num) (by norm_num), C118_exists (by norm_num) (by norm_num) (by norm_num)⟩

/-- The greatest finite value of `float`. -/
example : single ((2 ^ 24 - 1) * 2 ^ 104) := ⟨2 ^ 24 - 1, 104, by norm_num, by norm_num, by norm_num, by norm_num⟩

end Verif.FloatInt
