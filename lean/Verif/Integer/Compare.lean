import Verif.Integer.Mul
import Verif.Integer.Model2
set_option linter.unusedSimpArgs false
namespace Verif.Integer

/-- The promoted common type: either signed and at least as wide as both, or unsigned and wide enough. -/
theorem common_promoted (I : Nat) (A B : Ty) :
    ∃ m, I ≤ m ∧ A.bits ≤ m ∧ B.bits ≤ m ∧
      (promote I (common A B) = ⟨true, m⟩ ∨
        (promote I (common A B) = ⟨false, m⟩ ∧ I < m ∧ (A.signed = true → A.bits < m) ∧
          (B.signed = true → B.bits < m) ∧ (A.signed = false ∨ B.signed = false))) := by
  obtain ⟨sa, a⟩ := A
  obtain ⟨sb, b⟩ := B
  cases sa <;> cases sb
  · rw [common_uu]
    by_cases h : max a b ≤ I
    · refine ⟨I, by omega, by simp only; omega, by simp only; omega, Or.inl ?_⟩
      exact if_pos h
    · refine ⟨max a b, by omega, by simp only; omega, by simp only; omega, Or.inr ⟨promote_u (by omega), by omega, by simp, by simp, by simp⟩⟩
  · rw [common_us]
    by_cases h : b ≥ a
    · rw [if_pos h, promote_s]
      exact ⟨max b I, by omega, by simp only; omega, by simp only; omega, Or.inl rfl⟩
    · rw [if_neg h]
      by_cases h2 : a ≤ I
      · exact ⟨I, by omega, by simp only; omega, by simp only; omega, Or.inl (if_pos h2)⟩
      · exact ⟨a, by omega, by simp only; omega, by simp only; omega,
          Or.inr ⟨promote_u (by omega), by omega, by simp, by simp only; omega, by simp⟩⟩
  · rw [common_su]
    by_cases h : a ≥ b
    · rw [if_pos h, promote_s]
      exact ⟨max a I, by omega, by simp only; omega, by simp only; omega, Or.inl rfl⟩
    · rw [if_neg h]
      by_cases h2 : b ≤ I
      · exact ⟨I, by omega, by simp only; omega, by simp only; omega, Or.inl (if_pos h2)⟩
      · exact ⟨b, by omega, by simp only; omega, by simp only; omega,
          Or.inr ⟨promote_u (by omega), by omega, by simp only; omega, by simp, by simp⟩⟩
  · rw [common_ss, promote_s]
    exact ⟨max (max a b) I, by omega, by simp only; omega, by simp only; omega, Or.inl rfl⟩

/-- A value of a type is unaffected by conversion to a signed type with at least as many value bits. -/
theorem cast_signed {t : Ty} {m : Nat} {x : Int} (hx : t.In x) (h : t.bits ≤ m) : cast ⟨true, m⟩ x = x := by
  have e := p_le h
  obtain ⟨s, b⟩ := t
  cases s
  · rw [In_u] at hx; simp only at e; exact castS_id (by have := p_pos m; omega) (by omega)
  · rw [In_s] at hx; simp only at e; exact castS_id (by omega) (by omega)

theorem cast_unsigned {t : Ty} {m : Nat} {x : Int} (hx : t.In x) (h : t.bits ≤ m) (h0 : 0 ≤ x) : cast ⟨false, m⟩ x = x := by
  have e := p_le h
  have := In_lt hx
  exact castU_id h0 (by omega)

theorem nonneg_of_unsigned {t : Ty} {x : Int} (h : t.signed = false) (hx : t.In x) : 0 ≤ x := by
  obtain ⟨s, b⟩ := t
  simp only at h
  subst h
  rw [In_u] at hx
  exact hx.1

theorem isNegative_eq {t : Ty} {x : Int} (hx : t.In x) : isNegative t x = decide (x < 0) := by
  obtain ⟨s, b⟩ := t
  cases s
  · rw [In_u] at hx
    rw [isNegative_u]
    have : ¬ x < 0 := by omega
    simp [this]
  · rw [isNegative_s]

theorem intEqual_spec (I : Nat) (A B : Ty) (a b : Int) (ha : A.In a) (hb : B.In b) :
    intEqual I A B a b = decide (a = b) := by
  obtain ⟨m, hI, hA, hB, ht⟩ := common_promoted I A B
  unfold intEqual
  rcases ht with ht | ⟨ht, h1, h2, h3, h4⟩
  · simp only [ht, cast_signed ha hA, cast_signed hb hB, isNegative_eq ha, isNegative_eq hb]
    cases hsa : A.signed <;> cases hsb : B.signed <;>
      simp only [Bool.not_false, Bool.not_true, if_true, Bool.false_eq_true, if_false]
    · rfl
    · have := nonneg_of_unsigned hsa ha
      by_cases h : b < 0
      · have : ¬ a = b := by omega
        simp [h, this]
      · simp [h]; rfl
    · have := nonneg_of_unsigned hsb hb
      by_cases h : a < 0
      · have : ¬ a = b := by omega
        simp [h, this]
      · simp [h]; rfl
    · rfl
  · simp only [ht, isNegative_eq ha, isNegative_eq hb]
    cases hsa : A.signed <;> cases hsb : B.signed <;>
      simp only [Bool.not_false, Bool.not_true, if_true, Bool.false_eq_true, if_false]
    · rw [cast_unsigned ha hA (nonneg_of_unsigned hsa ha), cast_unsigned hb hB (nonneg_of_unsigned hsb hb)]; rfl
    · have h0 := nonneg_of_unsigned hsa ha
      by_cases h : b < 0
      · have : ¬ a = b := by omega
        simp [h, this]
      · rw [cast_unsigned ha hA h0, cast_unsigned hb hB (by omega)]
        simp [h]; rfl
    · have h0 := nonneg_of_unsigned hsb hb
      by_cases h : a < 0
      · have : ¬ a = b := by omega
        simp [h, this]
      · rw [cast_unsigned ha hA (by omega), cast_unsigned hb hB h0]
        simp [h]; rfl
    · simp_all

theorem intLess_spec (I : Nat) (A B : Ty) (a b : Int) (ha : A.In a) (hb : B.In b) :
    intLess I A B a b = decide (a < b) := by
  obtain ⟨m, hI, hA, hB, ht⟩ := common_promoted I A B
  unfold intLess
  rcases ht with ht | ⟨ht, h1, h2, h3, h4⟩
  · simp only [ht, cast_signed ha hA, cast_signed hb hB, isNegative_eq ha, isNegative_eq hb]
    cases hsa : A.signed <;> cases hsb : B.signed <;>
      simp only [Bool.not_false, Bool.not_true, if_true, Bool.false_eq_true, if_false]
    · have := nonneg_of_unsigned hsa ha
      by_cases h : b < 0
      · have : ¬ a < b := by omega
        simp [h, this]
      · simp [h]
    · have := nonneg_of_unsigned hsb hb
      by_cases h : a < 0
      · have : a < b := by omega
        simp [h, this]
      · simp [h]
  · simp only [ht, isNegative_eq ha, isNegative_eq hb]
    cases hsa : A.signed <;> cases hsb : B.signed <;>
      simp only [Bool.not_false, Bool.not_true, if_true, Bool.false_eq_true, if_false]
    · rw [cast_unsigned ha hA (nonneg_of_unsigned hsa ha), cast_unsigned hb hB (nonneg_of_unsigned hsb hb)]
    · have h0 := nonneg_of_unsigned hsa ha
      by_cases h : b < 0
      · have : ¬ a < b := by omega
        simp [h, this]
      · rw [cast_unsigned ha hA h0, cast_unsigned hb hB (by omega)]
        simp [h]
    · have h0 := nonneg_of_unsigned hsb hb
      by_cases h : a < 0
      · have : a < b := by omega
        simp [h, this]
      · rw [cast_unsigned ha hA (by omega), cast_unsigned hb hB h0]
        simp [h]
    · simp_all

theorem In_min (t : Ty) : t.In t.min := by
  obtain ⟨s, b⟩ := t
  have := p_pos b
  cases s
  · rw [In_u]; unfold Ty.min; simp; omega
  · rw [In_s]; unfold Ty.min; simp; omega

theorem In_max (t : Ty) : t.In t.max := by
  obtain ⟨s, b⟩ := t
  have := p_pos b
  cases s
  · rw [In_u]; unfold Ty.max; simp; omega
  · rw [In_s]; unfold Ty.max; simp; omega

theorem canIntCast_spec (I : Nat) (T F : Ty) (x : Int) (hx : F.In x) : canIntCast I T F x = decide (T.In x) := by
  unfold canIntCast intGreaterEqual intLessEqual
  rw [intLess_spec I F T x T.min hx (In_min T), intLess_spec I T F T.max x (In_max T) hx]
  rw [Bool.eq_iff_iff, decide_eq_true_iff]
  simp [Ty.In]

theorem tryIntCast_spec (I : Nat) (T F : Ty) (x : Int) (hx : F.In x) :
    tryIntCast I T F x = if T.In x then some x else none := by
  unfold tryIntCast
  rw [canIntCast_spec I T F x hx]
  by_cases h : T.In x
  · simp [h, cast_id h]
  · simp [h]

end Verif.Integer
