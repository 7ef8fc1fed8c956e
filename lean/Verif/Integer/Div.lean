import Verif.Integer.Pow
set_option linter.unusedSimpArgs false
namespace Verif.Integer

theorem In_common {I : Nat} {T U : Ty} {x : Int} (h0 : 0 ≤ x) (h : T.In x ∨ U.In x) :
    (promote I (common T U)).In x := by
  obtain ⟨m, hI, hA, hB, ht⟩ := common_promoted I T U
  have e1 := p_le hA
  have e2 := p_le hB
  have : x < 2 ^ m := by
    rcases h with h | h <;> have := In_lt h <;> omega
  rcases ht with ht | ⟨ht, _⟩ <;> rw [ht, In_nonneg h0] <;> exact this

theorem In_mono {t : Ty} {x y : Int} (h0 : 0 ≤ x) (h : x ≤ y) (hy : t.In y) : t.In x := by
  rw [In_nonneg h0]; have := In_lt hy; omega

theorem divmod_common {I : Nat} {T U : Ty} {a b : Int} (h0 : 0 ≤ a) (hb : 0 < b) (ha : T.In a) :
    divOp I (promote I (common T U)) a b = some (a / b) ∧ modOp I (promote I (common T U)) a b = some (a % b) := by
  have e : Int.tdiv a b = a / b := Int.tdiv_eq_ediv_of_nonneg h0
  have e2 : Int.tmod a b = a % b := Int.tmod_eq_emod_of_nonneg h0
  have q0 : 0 ≤ a / b := Int.ediv_nonneg h0 (by omega)
  have q1 : a / b ≤ a := Int.ediv_le_self b h0
  have r0 : 0 ≤ a % b := Int.emod_nonneg a (by omega)
  have r1 : a % b ≤ a := by
    have := Int.emod_add_mul_ediv a b
    have : 0 ≤ b * (a / b) := Int.mul_nonneg (by omega) q0
    omega
  have i1 : (promote I (common T U)).In (a / b) := In_common q0 (Or.inl (In_mono q0 q1 ha))
  have i2 : (promote I (common T U)).In (a % b) := In_common r0 (Or.inl (In_mono r0 r1 ha))
  unfold divOp modOp
  rw [if_neg (by omega), if_neg (by omega), e, e2, arith_ok (by rw [promote_promote]; exact i1), arith_ok (by rw [promote_promote]; exact i2)]
  exact ⟨rfl, rfl⟩

theorem succ_quot {a b : Int} (h0 : 0 ≤ a) (hb : 0 < b) (hr : a % b ≠ 0) : a / b + 1 ≤ a := by
  have h2 : 2 ≤ b := by
    by_contra hc
    have : b = 1 := by omega
    subst this
    simp at hr
  have := Int.emod_add_mul_ediv a b
  have r0 : 0 ≤ a % b := Int.emod_nonneg a (by omega)
  have q0 : 0 ≤ a / b := Int.ediv_nonneg h0 (by omega)
  have : 2 * (a / b) ≤ b * (a / b) := Int.mul_le_mul_of_nonneg_right h2 q0
  omega

theorem divRoundUp_spec (I : Nat) (T U : Ty) (a b : Int) (ha : T.In a) (hb : U.In b) (h0 : 0 ≤ a) (hb0 : 0 < b) :
    divRoundUp I T U a b = some (a / b + (if a % b = 0 then 0 else 1)) := by
  unfold divRoundUp
  rw [isNegative_eq ha, isNegative_eq hb]
  simp only [show ¬ a < 0 by omega, show ¬ b < 0 by omega, decide_false, Bool.or_self, Bool.false_eq_true, if_false]
  rw [cast_id (In_common (by omega) (Or.inl ha)), cast_id (In_common (by omega) (Or.inr hb)),
    (divmod_common h0 hb0 ha).1, (divmod_common h0 hb0 ha).2]
  simp only [Option.bind_eq_bind, Option.bind_some]
  have q0 : 0 ≤ a / b := Int.ediv_nonneg h0 (by omega)
  by_cases hr : a % b = 0
  · rw [if_neg (by omega), if_pos hr, cast_id (In_mono q0 (Int.ediv_le_self b h0) ha), Int.add_zero]
  · have hq := In_mono (show 0 ≤ a / b + 1 by omega) (succ_quot h0 hb0 hr) ha
    rw [if_pos hr, if_neg hr, arith_ok (by rw [promote_promote]; exact In_common (by omega) (Or.inl hq)), Option.bind_some,
      cast_id hq]

theorem divRoundHalfDown_spec (I : Nat) (T U : Ty) (a b : Int) (ha : T.In a) (hb : U.In b) (h0 : 0 ≤ a) (hb0 : 0 < b) :
    divRoundHalfDown I T U a b = some (a / b + (if 2 * (a % b) ≤ b then 0 else 1)) := by
  unfold divRoundHalfDown
  rw [isNegative_eq ha, isNegative_eq hb]
  simp only [show ¬ a < 0 by omega, show ¬ b < 0 by omega, decide_false, Bool.or_self, Bool.false_eq_true, if_false]
  have e : Int.tdiv b 2 = b / 2 := Int.tdiv_eq_ediv_of_nonneg (by omega)
  rw [cast_id (In_common (by omega) (Or.inl ha)), cast_id (In_common (by omega) (Or.inr hb)),
    (divmod_common h0 hb0 ha).1, (divmod_common h0 hb0 ha).2, e,
    cast_id (In_common (by omega) (Or.inr (In_mono (by omega) (show b / 2 ≤ b by omega) hb)))]
  simp only [Option.bind_eq_bind, Option.bind_some]
  have q0 : 0 ≤ a / b := Int.ediv_nonneg h0 (by omega)
  by_cases hr : 2 * (a % b) ≤ b
  · rw [if_pos (by omega), if_pos hr, cast_id (In_mono q0 (Int.ediv_le_self b h0) ha), Int.add_zero]
  · have hq := In_mono (show 0 ≤ a / b + 1 by omega) (succ_quot h0 hb0 (by omega)) ha
    rw [if_neg (by omega), if_neg hr, arith_ok (by rw [promote_promote]; exact In_common (by omega) (Or.inl hq)), Option.bind_some,
      cast_id hq]

/-! ### Periodic modulo -/

theorem modOp_ok {I : Nat} {t : Ty} {a b : Int} (hb : b ≠ 0) (h1 : (promote I t).In (Int.tdiv a b))
    (h2 : (promote I t).In (Int.tmod a b)) : modOp I t a b = some (Int.tmod a b) := by
  unfold modOp
  rw [if_neg hb, arith_ok h1, arith_ok h2]; rfl

theorem tmod_bounds {m : Nat} {a b : Int} (ha : -(2 ^ m) ≤ a) (ha2 : a < 2 ^ m) :
    -(2 ^ m) ≤ Int.tmod a b ∧ Int.tmod a b < 2 ^ m := by
  have h1 := Int.natAbs_tmod a b
  have h2 : a.natAbs % b.natAbs ≤ a.natAbs := Nat.mod_le _ _
  by_cases h : 0 ≤ a
  · have := Int.tmod_nonneg b h
    omega
  · have h3 : Int.tmod a b ≤ 0 := by
      have := Int.tmod_nonneg b (show 0 ≤ -a by omega)
      rw [Int.neg_tmod] at this; omega
    omega

theorem tdiv_bounds {m : Nat} {a b : Int} (hb0 : b ≠ 0) (hb1 : b ≠ -1) (ha : -(2 ^ m) ≤ a) (ha2 : a < 2 ^ m) :
    -(2 ^ m) ≤ Int.tdiv a b ∧ Int.tdiv a b < 2 ^ m := by
  have h1 : (Int.tdiv a b).natAbs = a.natAbs / b.natAbs := Int.natAbs_tdiv a b
  have hp := p_pos m
  have h2 : a.natAbs / b.natAbs ≤ a.natAbs := Nat.div_le_self _ _
  by_cases hb : b = 1
  · subst hb; rw [Int.tdiv_one]; exact ⟨ha, ha2⟩
  · have hb2 : 2 ≤ b.natAbs := by omega
    have h3 : a.natAbs / b.natAbs ≤ a.natAbs / 2 := Nat.div_le_div_left hb2 (by omega)
    omega

/-- The specification of the periodic modulo operation: `r = a - floor(a / b) * b`. -/
def IsPeriodicMod (a b r : Int) : Prop := b ∣ a - r ∧ ((0 < b ∧ 0 ≤ r ∧ r < b) ∨ (b < 0 ∧ b < r ∧ r ≤ 0))

theorem dvd_sub_tmod (a b : Int) : b ∣ a - Int.tmod a b :=
  ⟨Int.tdiv a b, by have := Int.tmod_add_mul_tdiv a b; omega⟩

theorem tmod_abs_lt {a b : Int} (hb : b ≠ 0) : (Int.tmod a b).natAbs < b.natAbs := by
  rw [Int.natAbs_tmod]; exact Nat.mod_lt _ (by omega)

/-- The homogeneous operation on a promoted type whose operands have their mathematical values. -/
theorem periodicModImpl_spec (I : Nat) (t : Ty) (ht : promote I t = t) (a b : Int) (ha : t.In a) (hb : t.In b)
    (hb0 : b ≠ 0) : ∃ r, periodicModImpl I t a b = some r ∧ IsPeriodicMod a b r := by
  have hm1 : (intTy I).In (-1) := by unfold intTy; rw [In_s]; have := p_pos I; omega
  have hlt := tmod_abs_lt (a := a) hb0
  have hodd : oddMod I t a b = some (Int.tmod a b) := by
    unfold oddMod intNotEqual
    rw [intEqual_spec I _ _ _ _ hb hm1]
    by_cases h : b = -1
    · subst h
      simp
    · simp only [h, decide_false, Bool.not_false, if_true]
      obtain ⟨s, m⟩ := t
      cases s
      · rw [In_u] at ha hb
        have q0 : 0 ≤ Int.tdiv a b := Int.tdiv_nonneg (by omega) (by omega)
        have r0 : 0 ≤ Int.tmod a b := Int.tmod_nonneg b (by omega)
        apply modOp_ok hb0
        · rw [ht, In_u]
          have := Int.tdiv_le_self b (show 0 ≤ a by omega)
          omega
        · rw [ht, In_u]; omega
      · rw [In_s] at ha hb
        have := tdiv_bounds hb0 h (show -(2 ^ m) ≤ a by omega) (by omega)
        have := tmod_bounds (b := b) (show -(2 ^ m) ≤ a by omega) (show a < 2 ^ m by omega)
        apply modOp_ok hb0 <;> rw [ht, In_s] <;> omega
  unfold periodicModImpl
  rw [hodd]
  simp only [Option.bind_eq_bind, Option.bind_some]
  have hd := dvd_sub_tmod a b
  have hd2 : b ∣ a - (b + Int.tmod a b) := by
    have : a - (b + Int.tmod a b) = a - Int.tmod a b - b := by omega
    rw [this]; exact Int.dvd_sub hd (Int.dvd_refl b)
  have hin : (0 < b ∧ Int.tmod a b < 0) ∨ (b < 0 ∧ 0 < Int.tmod a b) → arith I t (b + Int.tmod a b) = some (b + Int.tmod a b) := by
    intro h
    apply arith_ok
    rw [ht]
    obtain ⟨s, m⟩ := t
    cases s
    · rw [In_u] at *
      have r0 : 0 ≤ Int.tmod a b := Int.tmod_nonneg b (by omega)
      omega
    · rw [In_s] at *; omega
  by_cases h1 : b ≥ 0
  · rw [if_pos h1]
    by_cases h2 : Int.tmod a b ≥ 0
    · rw [if_pos h2]; exact ⟨_, rfl, hd, by omega⟩
    · rw [if_neg h2, hin (by omega)]; exact ⟨_, rfl, hd2, by omega⟩
  · rw [if_neg h1]
    by_cases h2 : Int.tmod a b ≤ 0
    · rw [if_pos h2]; exact ⟨_, rfl, hd, by omega⟩
    · rw [if_neg h2, hin (by omega)]; exact ⟨_, rfl, hd2, by omega⟩

theorem periodicMod_in {U : Ty} {a b r : Int} (hb : U.In b) (h : IsPeriodicMod a b r) : U.In r := by
  obtain ⟨s, u⟩ := U
  have := h.2
  cases s
  · rw [In_u] at *; omega
  · rw [In_s] at *; omega

theorem periodicMod_spec (I : Nat) (T U : Ty) (a b : Int) (ha : T.In a) (hb : U.In b) (hb0 : b ≠ 0) :
    ∃ r, periodicMod I T U a b = some r ∧ IsPeriodicMod a b r := by
  obtain ⟨m, hI, hA, hB, ht⟩ := common_promoted I T U
  have hpp := promote_promote I (common T U)
  unfold periodicMod
  rw [isNegative_eq ha, isNegative_eq hb]
  have direct : cast (promote I (common T U)) a = a → cast (promote I (common T U)) b = b →
      ∃ r, ((periodicModImpl I (promote I (common T U)) (cast (promote I (common T U)) a) (cast (promote I (common T U)) b)).bind
        fun r => some (cast U r)) = some r ∧ IsPeriodicMod a b r := by
    intro h1 h2
    have i1 := cast_in (promote I (common T U)) a
    have i2 := cast_in (promote I (common T U)) b
    rw [h1] at i1 ⊢
    rw [h2] at i2 ⊢
    obtain ⟨r, h, hr⟩ := periodicModImpl_spec I _ hpp a b i1 i2 hb0
    refine ⟨r, ?_, hr⟩
    rw [h, Option.bind_some, cast_id (periodicMod_in hb hr)]
  rcases ht with ht | ⟨ht, h1, h2, h3, h4⟩
  · simp only [ht, Bool.not_true, Bool.false_and, Bool.false_eq_true, if_false, Option.bind_eq_bind]
    have := direct (by rw [ht, cast_signed ha hA]) (by rw [ht, cast_signed hb hB])
    rw [ht] at this
    exact this
  · have hp : promote I ⟨false, m⟩ = ⟨false, m⟩ := promote_u h1
    have e1 := p_le hA
    have e2 := p_le hB
    have hla := In_lt ha
    have hlb := In_lt hb
    by_cases hna : a < 0
    · simp only [ht, Bool.not_false, hna, decide_true, Bool.and_self, if_true, Option.bind_eq_bind]
      have hTs : T.signed = true := by
        by_contra hc
        have := nonneg_of_unsigned (by simpa using hc) ha
        omega
      have hb' : 0 < b := by
        have : U.signed = false := by
          rcases h4 with h | h
          · rw [hTs] at h; simp at h
          · exact h
        have := nonneg_of_unsigned this hb
        omega
      have hal : -(2 ^ m) ≤ a := by
        obtain ⟨s, l⟩ := T
        simp only at hTs e1
        subst hTs
        rw [In_s] at ha; omega
      have hnot : bitNot ⟨false, m⟩ (cast ⟨false, m⟩ a) = -1 - a := by
        unfold bitNot
        rw [castU_neg hal hna]
        apply cast_eq
        · rw [In_u]; omega
        · exact ⟨-1, by simp only [width_u]; omega⟩
      have hcb : cast ⟨false, m⟩ b = b := castU_id (by omega) (by omega)
      rw [hnot, hcb]
      have r0 : 0 ≤ Int.tmod (-1 - a) b := Int.tmod_nonneg b (by omega)
      have rl := tmod_abs_lt (a := -1 - a) hb0
      have q0 : 0 ≤ Int.tdiv (-1 - a) b := Int.tdiv_nonneg (by omega) (by omega)
      have q1 := Int.tdiv_le_self b (show 0 ≤ -1 - a by omega)
      have hm2 : Int.tmod (-1 - a) b ≤ -1 - a := by
        have := Int.tmod_add_mul_tdiv (-1 - a) b
        have : 0 ≤ b * Int.tdiv (-1 - a) b := Int.mul_nonneg (by omega) q0
        omega
      rw [modOp_ok hb0 (by rw [hp, In_u]; omega) (by rw [hp, In_u]; omega), Option.bind_some,
        arith_ok (by rw [hp, In_u]; omega), Option.bind_some, arith_ok (by rw [hp, In_u]; omega), Option.bind_some]
      have hr : IsPeriodicMod a b (b - 1 - Int.tmod (-1 - a) b) := by
        constructor
        · have : a - (b - 1 - Int.tmod (-1 - a) b) = -((-1 - a) - Int.tmod (-1 - a) b) - b := by omega
          rw [this]
          exact Int.dvd_sub (Int.dvd_neg.mpr (dvd_sub_tmod _ b)) (Int.dvd_refl b)
        · omega
      exact ⟨_, by rw [cast_id (periodicMod_in hb hr)], hr⟩
    · by_cases hnb : b < 0
      · simp only [ht, Bool.not_false, hna, hnb, decide_true, decide_false, Bool.and_false, Bool.false_eq_true, if_false,
          Bool.and_self, if_true, Option.bind_eq_bind]
        have hUs : U.signed = true := by
          by_contra hc
          have := nonneg_of_unsigned (by simpa using hc) hb
          omega
        have hbl : -(2 ^ m) < b := by
          have := p_lt (h3 hUs)
          have := p_pos U.bits
          obtain ⟨s, l⟩ := U
          simp only at *
          subst hUs
          rw [In_s] at hb; omega
        have hnot : bitNot ⟨false, m⟩ (cast ⟨false, m⟩ b) = -1 - b := by
          unfold bitNot
          rw [castU_neg (by omega) hnb]
          apply cast_eq
          · rw [In_u]; omega
          · exact ⟨-1, by simp only [width_u]; omega⟩
        have hca : cast ⟨false, m⟩ a = a := castU_id (by omega) (by omega)
        rw [hnot, hca, show -1 - b + 1 = -b by omega, arith_ok (by rw [hp, In_u]; omega), Option.bind_some]
        have r0 : 0 ≤ Int.tmod a (-b) := Int.tmod_nonneg _ (by omega)
        have rl := tmod_abs_lt (a := a) (show -b ≠ 0 by omega)
        have q0 : 0 ≤ Int.tdiv a (-b) := Int.tdiv_nonneg (by omega) (by omega)
        have q1 := Int.tdiv_le_self (-b) (show 0 ≤ a by omega)
        rw [modOp_ok (by omega) (by rw [hp, In_u]; omega) (by rw [hp, In_u]; omega), Option.bind_some]
        have hd : b ∣ a - Int.tmod a (-b) := by
          have := dvd_sub_tmod a (-b)
          exact (Int.neg_dvd).mp this
        by_cases hc : Int.tmod a (-b) ≠ 0
        · rw [if_pos hc]
          have hcast : cast (promote I U) (Int.tmod a (-b)) = Int.tmod a (-b) := by
            apply cast_id
            obtain ⟨s, l⟩ := U
            simp only at hUs
            subst hUs
            have e3 := p_le (Nat.le_max_left l I)
            rw [promote_s, In_s]
            rw [In_s] at hb
            omega
          have hr : IsPeriodicMod a b (b + Int.tmod a (-b)) := by
            constructor
            · have : a - (b + Int.tmod a (-b)) = a - Int.tmod a (-b) - b := by omega
              rw [this]; exact Int.dvd_sub hd (Int.dvd_refl b)
            · omega
          have hi := periodicMod_in hb hr
          rw [hcast, arith_ok (In_promote hi), Option.bind_some, cast_id hi]
          exact ⟨_, rfl, hr⟩
        · rw [if_neg hc]
          have hc0 : Int.tmod a (-b) = 0 := by omega
          have hr : IsPeriodicMod a b 0 := ⟨by rw [hc0] at hd; exact hd, by omega⟩
          exact ⟨_, by rw [cast_id (periodicMod_in hb hr)], hr⟩
      · simp only [ht, Bool.not_false, hna, hnb, decide_false, Bool.and_false, Bool.false_eq_true, if_false, Option.bind_eq_bind]
        have := direct (by rw [ht, castU_id (by omega) (by omega)]) (by rw [ht, castU_id (by omega) (by omega)])
        rw [ht] at this
        exact this

end Verif.Integer
