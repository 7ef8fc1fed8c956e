import Verif.Integer.Lemmas
set_option linter.unusedSimpArgs false
namespace Verif.Integer

/-- The type in which products are calculated. -/
theorem common_intTy (I : Nat) (L R : Ty) :
    ∃ m, I ≤ m ∧ L.bits ≤ m ∧ R.bits ≤ m ∧
      (common (intTy I) (common L R) = ⟨true, m⟩ ∨
        (common (intTy I) (common L R) = ⟨false, m⟩ ∧ I < m ∧ (L.signed = true → L.bits < m) ∧
          (R.signed = true → R.bits < m) ∧ (L.signed = false ∨ R.signed = false))) := by
  obtain ⟨sl, l⟩ := L
  obtain ⟨sr, r⟩ := R
  unfold intTy
  cases sl <;> cases sr
  · rw [common_uu, common_su]
    by_cases h : I ≥ max l r
    · rw [if_pos h]; exact ⟨I, by omega, by simp only; omega, by simp only; omega, Or.inl rfl⟩
    · rw [if_neg h]
      exact ⟨max l r, by omega, by simp only; omega, by simp only; omega,
        Or.inr ⟨rfl, by omega, by simp, by simp, by simp⟩⟩
  · rw [common_us]
    by_cases h : r ≥ l
    · rw [if_pos h, common_ss]
      exact ⟨max I r, by omega, by simp only; omega, by simp only; omega, Or.inl rfl⟩
    · rw [if_neg h, common_su]
      by_cases h2 : I ≥ l
      · rw [if_pos h2]; exact ⟨I, by omega, by simp only; omega, by simp only; omega, Or.inl rfl⟩
      · rw [if_neg h2]
        exact ⟨l, by omega, by simp only; omega, by simp only; omega,
          Or.inr ⟨rfl, by omega, by simp, by simp only; omega, by simp⟩⟩
  · rw [common_su]
    by_cases h : l ≥ r
    · rw [if_pos h, common_ss]
      exact ⟨max I l, by omega, by simp only; omega, by simp only; omega, Or.inl rfl⟩
    · rw [if_neg h, common_su]
      by_cases h2 : I ≥ r
      · rw [if_pos h2]; exact ⟨I, by omega, by simp only; omega, by simp only; omega, Or.inl rfl⟩
      · rw [if_neg h2]
        exact ⟨r, by omega, by simp only; omega, by simp only; omega,
          Or.inr ⟨rfl, by omega, by simp only; omega, by simp, by simp⟩⟩
  · rw [common_ss, common_ss]
    exact ⟨max I (max l r), by omega, by simp only; omega, by simp only; omega, Or.inl rfl⟩

/-- An operand or result between 0 and `2^m - 1` is unaffected in a type with `m` value bits. -/
theorem cast_nonneg {s : Bool} {m : Nat} {x : Int} (h1 : 0 ≤ x) (h2 : x < 2 ^ m) : cast ⟨s, m⟩ x = x := by
  cases s
  · exact castU_id h1 h2
  · exact castS_id (by omega) h2

theorem arith_nonneg {I : Nat} {s : Bool} {m : Nat} {x : Int} (hm : I < m ∨ s = true) (h1 : 0 ≤ x) (h2 : x < 2 ^ m) :
    arith I ⟨s, m⟩ x = some x := by
  cases s
  · rw [arith_u (by simpa using hm), castU_id h1 h2]
  · exact arith_s (by omega) h2

theorem In_lt {t : Ty} {x : Int} (h : t.In x) : x < 2 ^ t.bits := by
  unfold Ty.In Ty.max at h; omega

theorem In_nonneg {t : Ty} {x : Int} (h1 : 0 ≤ x) : t.In x ↔ x < 2 ^ t.bits := by
  obtain ⟨s, b⟩ := t
  have := p_pos b
  cases s
  · rw [In_u]; simp only; omega
  · rw [In_s]; simp only; omega

theorem divOp_nonneg {I : Nat} {s : Bool} {m : Nat} {x y : Int} (hm : I < m ∨ s = true) (h1 : 0 ≤ x) (h2 : x < 2 ^ m)
    (hy : 0 < y) : divOp I ⟨s, m⟩ x y = some (x / y) := by
  unfold divOp
  rw [if_neg (by omega), Int.tdiv_eq_ediv_of_nonneg h1]
  apply arith_nonneg hm (Int.ediv_nonneg h1 (by omega))
  have := Int.ediv_le_self y h1
  omega

theorem tryMul_nonneg_pos (I : Nat) (L R : Ty) (x y : Int) (hx : L.In x) (hy : R.In y) (h1 : 0 ≤ x) (h2 : 0 < y) :
    tryMul I L R x y = checked L (x * y) := by
  obtain ⟨m, hI, hL, hR, ht⟩ := common_intTy I L R
  have e1 := p_le hL
  have e2 := p_le hR
  have ex := In_lt hx
  have ey := In_lt hy
  obtain ⟨s, hm, ht⟩ : ∃ s, (I < m ∨ s = true) ∧ common (intTy I) (common L R) = ⟨s, m⟩ := by
    rcases ht with ht | ⟨ht, h, _⟩
    · exact ⟨true, Or.inr rfl, ht⟩
    · exact ⟨false, Or.inl h, ht⟩
  have pl := p_pos L.bits
  have n1 : isNegative R y = false := by simp [isNegative]; intro; omega
  have n2 : isNegative L x = false := by simp [isNegative]; intro; omega
  unfold tryMul
  simp only [ht, ne_eq, show ¬ (y = 0) by omega, not_false_eq_true, if_true, n1, n2, Bool.not_false]
  rw [cast_nonneg (x := x) h1 (by omega), cast_nonneg (x := y) (by omega) (by omega)]
  unfold Ty.max
  rw [cast_nonneg (by omega) (by omega), divOp_nonneg hm (by omega) (by omega) h2]
  simp only [Option.bind_eq_bind, Option.bind_some]
  have hp : 0 ≤ x * y := Int.mul_nonneg h1 (by omega)
  have key : x ≤ (2 ^ L.bits - 1) / y ↔ x * y ≤ 2 ^ L.bits - 1 := Int.le_ediv_iff_mul_le h2
  by_cases c : x ≤ (2 ^ L.bits - 1) / y
  · have c' := key.mp c
    have hin : L.In (x * y) := (In_nonneg hp).mpr (by omega)
    rw [if_pos c, arith_nonneg hm hp (by omega), Option.bind_some, cast_id hin, checked_yes hin]
  · have c' := mt key.mpr c
    rw [if_neg c, checked_no (by rw [In_nonneg hp]; omega)]

theorem mul_neg_pos {l : Nat} {x y : Int} (h2 : 0 < y) : x ≥ Int.tdiv (-(2 ^ l)) y ↔ -(2 ^ l) ≤ x * y := by
  have pl := p_pos l
  have : Int.tdiv (-(2 ^ l)) y = -((2 ^ l) / y) := by
    rw [Int.neg_tdiv, Int.tdiv_eq_ediv_of_nonneg (by omega)]
  rw [this]
  have key : -x ≤ (2 ^ l) / y ↔ -x * y ≤ 2 ^ l := Int.le_ediv_iff_mul_le h2
  rw [Int.neg_mul] at key
  constructor <;> intro h
  · have := key.mp (by omega); omega
  · have := key.mpr (by omega); omega

theorem tdiv_min_bounds {l : Nat} {y : Int} (h2 : 0 < y) :
    -(2 ^ l) ≤ Int.tdiv (-(2 ^ l)) y ∧ Int.tdiv (-(2 ^ l)) y ≤ 0 := by
  have pl := p_pos l
  have : Int.tdiv (-(2 ^ l)) y = -((2 ^ l) / y) := by
    rw [Int.neg_tdiv, Int.tdiv_eq_ediv_of_nonneg (by omega)]
  rw [this]
  have h3 := Int.ediv_le_self y (show (0 : Int) ≤ 2 ^ l by omega)
  have h4 := Int.ediv_nonneg (show (0 : Int) ≤ 2 ^ l by omega) (show 0 ≤ y by omega)
  omega

theorem tryMul_spec (I : Nat) (L R : Ty) (x y : Int) (hx : L.In x) (hy : R.In y) :
    tryMul I L R x y = checked L (x * y) := by
  by_cases hy0 : y = 0
  · subst hy0
    unfold tryMul
    simp only [ne_eq, not_true_eq_false, if_false, Int.mul_zero]
    have : L.In 0 := (In_nonneg (by omega)).mpr (p_pos _)
    rw [checked_yes this]
  by_cases hyp : 0 < y
  · by_cases hx0 : 0 ≤ x
    · exact tryMul_nonneg_pos I L R x y hx hy hx0 hyp
    -- negative times positive
    have hxn : x < 0 := by omega
    have hneg : x * y < 0 := Int.mul_neg_of_neg_of_pos hxn hyp
    have hle : x * y ≤ x := by
      have : x * y ≤ x * 1 := Int.mul_le_mul_of_nonpos_left (by omega) (by omega)
      omega
    have hLs : L.signed = true := by
      obtain ⟨s, l⟩ := L
      cases s
      · rw [In_u] at hx; omega
      · rfl
    obtain ⟨m, hI, hL, hR, ht⟩ := common_intTy I L R
    obtain ⟨sl, l⟩ := L
    simp only at hLs hL
    subst hLs
    have e1 := p_le hL
    have e2 := p_le hR
    have ey := In_lt hy
    have hx' := hx
    rw [In_s] at hx'
    have n1 : isNegative R y = false := by simp [isNegative]; intro; omega
    have n2 : isNegative ⟨true, l⟩ x = true := by simp [isNegative]; omega
    have hin : (⟨true, l⟩ : Ty).In (x * y) ↔ -(2 ^ l) ≤ x * y := by rw [In_s]; omega
    have hb := tdiv_min_bounds (l := l) hyp
    unfold tryMul
    simp only [ne_eq, hy0, not_false_eq_true, if_true, n1, n2, Bool.not_false, Bool.not_true, Bool.false_eq_true, if_false]
    by_cases hRs : R.signed = true
    · rcases ht with ht | ⟨_, _, _, _, h | h⟩
      · rw [if_pos hRs, ht]
        rw [castS_id (x := x) (by omega) (by omega), castS_id (x := y) (by omega) (by omega), min_s,
          castS_id (by omega) (by omega)]
        unfold divOp
        rw [if_neg hy0, arith_s (by omega) (by omega)]
        simp only [Option.bind_eq_bind, Option.bind_some]
        by_cases c : x ≥ Int.tdiv (-(2 ^ l)) y
        · have c' := (mul_neg_pos hyp).mp c
          rw [if_pos c, arith_s (by omega) (by omega), Option.bind_some, cast_id (hin.mpr c'), checked_yes (hin.mpr c')]
        · rw [if_neg c, checked_no (by rw [hin]; exact mt (mul_neg_pos hyp).mpr c)]
      · simp at h
      · rw [hRs] at h; simp at h
    · rw [if_neg hRs]
      unfold tryMulNegPosU
      have hr2 : cast (common (intTy I) (common ⟨true, l⟩ R)) y = y := by
        rcases ht with ht | ⟨ht, _⟩ <;> rw [ht] <;> exact cast_nonneg (by omega) (by omega)
      have hmax : cast (common (intTy I) (common ⟨true, l⟩ R)) (2 ^ l - 1) = 2 ^ l - 1 := by
        have := p_pos l
        rcases ht with ht | ⟨ht, _⟩ <;> rw [ht] <;> exact cast_nonneg (by omega) (by omega)
      have pl := p_pos l
      simp only [max_t, min_s, hr2, hmax]
      by_cases c1 : y ≤ 2 ^ l - 1
      · rw [if_pos c1, castS_id (x := y) (by omega) (by omega)]
        unfold divOp
        rw [if_neg hy0, arith_s (by omega) (by omega)]
        simp only [Option.bind_eq_bind, Option.bind_some]
        have hcmp : (cast (common (intTy I) (common ⟨true, l⟩ R)) x ≥
            cast (common (intTy I) (common ⟨true, l⟩ R)) (Int.tdiv (-(2 ^ l)) y)) ↔ x ≥ Int.tdiv (-(2 ^ l)) y := by
          have hq : Int.tdiv (-(2 ^ l)) y < 0 := by
            by_contra hc
            have : -1 ≥ Int.tdiv (-(2 ^ l)) y ↔ _ := mul_neg_pos hyp
            have := this.mpr (by omega)
            omega
          rcases ht with ht | ⟨ht, _, h3, _⟩
          · rw [ht, castS_id (by omega) (by omega), castS_id (by omega) (by omega)]
          · rw [ht, castU_neg (by omega) hxn, castU_neg (by omega) hq]; omega
        have hres : -(2 ^ l) ≤ x * y →
            ((arith I (common (intTy I) (common ⟨true, l⟩ R)) (cast (common (intTy I) (common ⟨true, l⟩ R)) x * y)).bind
              fun s => some (some (cast ⟨true, l⟩ s))) = some (some (x * y)) := by
          intro hge
          have hin' := hin.mpr hge
          rcases ht with ht | ⟨ht, h2, h3, _⟩
          · rw [ht, castS_id (by omega) (by omega), arith_s (by omega) (by omega), Option.bind_some, cast_id hin']
          · have hw := h3 rfl
            simp only at hw
            rw [ht, castU_neg (by omega) hxn, arith_u h2, Option.bind_some, cast_cast (by simp only [width_s]; omega)]
            congr 2
            apply cast_eq hin'
            have hd : (2 : Int) ^ (l + 1) ∣ 2 ^ m := p_dvd (by omega)
            obtain ⟨k, hk⟩ := hd
            exact ⟨k * y, by rw [width_s, hk]; ring⟩
        by_cases c : x ≥ Int.tdiv (-(2 ^ l)) y
        · have c' := (mul_neg_pos hyp).mp c
          rw [if_pos (hcmp.mpr c), checked_yes (hin.mpr c')]
          exact hres c'
        · rw [if_neg (mt hcmp.mp c), checked_no (by rw [hin]; exact mt (mul_neg_pos hyp).mpr c)]
      · rw [if_neg c1]
        have hd : arith I (common (intTy I) (common ⟨true, l⟩ R)) (y - 1) = some (y - 1) := by
          rcases ht with ht | ⟨ht, h2, _⟩ <;> rw [ht]
          · exact arith_nonneg (Or.inr rfl) (by omega) (by omega)
          · exact arith_nonneg (Or.inl h2) (by omega) (by omega)
        rw [hd, arith_s (by omega) (by omega)]
        simp only [Option.bind_eq_bind, Option.bind_some]
        rw [show (-1 - -(2 ^ l) : Int) = 2 ^ l - 1 by omega, hmax]
        by_cases c2 : y - 1 ≤ 2 ^ l - 1
        · have hy' : y = 2 ^ l := by omega
          rw [if_pos c2]
          by_cases c3 : x = -1
          · rw [if_pos c3, checked_yes (hin.mpr (by rw [c3]; omega)), c3, hy']; simp
          · rw [if_neg c3, checked_no]
            rw [hin]
            have : x * y ≤ -2 * y := Int.mul_le_mul_of_nonneg_right (by omega) (by omega)
            omega
        · rw [if_neg c2, checked_no]
          rw [hin]
          have : x * y ≤ -1 * y := Int.mul_le_mul_of_nonneg_right (by omega) (by omega)
          omega
  · -- negative right operand
    have hyn : y < 0 := by omega
    have hRs : R.signed = true := by
      obtain ⟨s, r⟩ := R
      cases s
      · rw [In_u] at hy; omega
      · rfl
    obtain ⟨m, hI, hL, hR, ht⟩ := common_intTy I L R
    obtain ⟨sr, r⟩ := R
    simp only at hRs hR
    subst hRs
    have e1 := p_le hL
    have e2 := p_le hR
    have hy' := hy
    rw [In_s] at hy'
    have n1 : isNegative ⟨true, r⟩ y = true := by simp [isNegative]; omega
    by_cases hx0 : 0 ≤ x
    · have n2 : isNegative L x = false := by simp [isNegative]; intro; omega
      unfold tryMul
      simp only [ne_eq, hy0, not_false_eq_true, if_true, n1, n2, Bool.not_false, Bool.not_true, Bool.false_eq_true, if_false]
      have ex := In_lt hx
      by_cases hLs : L.signed = true
      · obtain ⟨sl, l⟩ := L
        simp only at hLs hL ex e1
        subst hLs
        have pl := p_pos l
        have hnp : x * y ≤ 0 := Int.mul_nonpos_of_nonneg_of_nonpos hx0 (by omega)
        have hin : (⟨true, l⟩ : Ty).In (x * y) ↔ -(2 ^ l) ≤ x * y := by rw [In_s]; omega
        rw [if_pos rfl]
        by_cases c : y = -1
        · rw [if_neg (by omega), arith_s (by omega) (by omega)]
          simp only [Option.bind_eq_bind, Option.bind_some]
          rw [castS_id (by omega) (by omega), c, show x * -1 = -x by omega, checked_yes]
          rw [In_s]; omega
        · rw [if_pos c]
          rcases ht with ht | ⟨_, _, _, _, h | h⟩
          · rw [ht, castS_id (x := x) (by omega) (by omega), castS_id (x := y) (by omega) (by omega), min_s,
              castS_id (by omega) (by omega)]
            have hq : Int.tdiv (-(2 ^ l)) y = (2 ^ l) / (-y) := by
              have : y = -(-y) := by omega
              conv_lhs => rw [this]
              rw [Int.neg_tdiv_neg, Int.tdiv_eq_ediv_of_nonneg (by omega)]
            have hq1 : (2 ^ l : Int) / (-y) < 2 ^ l := Int.ediv_lt_of_lt_mul (by omega) (by
              have : (2 : Int) ^ l * 2 ≤ 2 ^ l * -y := Int.mul_le_mul_of_nonneg_left (by omega) (by omega)
              omega)
            have hq0 : 0 ≤ (2 ^ l : Int) / (-y) := Int.ediv_nonneg (by omega) (by omega)
            unfold divOp
            rw [if_neg hy0, hq, arith_s (by omega) (by omega)]
            simp only [Option.bind_eq_bind, Option.bind_some]
            have key : x ≤ (2 ^ l) / (-y) ↔ x * (-y) ≤ 2 ^ l := Int.le_ediv_iff_mul_le (by omega)
            rw [Int.mul_neg] at key
            by_cases c3 : x ≤ (2 ^ l) / (-y)
            · have c' := key.mp c3
              rw [if_pos c3, arith_s (by omega) (by omega), Option.bind_some, cast_id (hin.mpr (by omega)),
                checked_yes (hin.mpr (by omega))]
            · have c' := mt key.mpr c3
              rw [if_neg c3, checked_no (by rw [hin]; omega)]
          · simp at h
          · simp at h
      · have hLs' : L.signed = false := by simpa using hLs
        rw [if_neg hLs]
        obtain ⟨sl, l⟩ := L
        simp only at hLs'
        subst hLs'
        by_cases c : x = 0
        · rw [if_pos c, c, Int.zero_mul, checked_yes]
          rw [In_u]; have := p_pos l; omega
        · rw [if_neg c, checked_no]
          rw [In_u]
          have := Int.mul_neg_of_pos_of_neg (show 0 < x by omega) hyn
          omega
    · have hxn : x < 0 := by omega
      have n2 : isNegative L x = true := by
        obtain ⟨s, l⟩ := L
        cases s
        · rw [In_u] at hx; omega
        · simp [isNegative]; omega
      have hLs : L.signed = true := by
        obtain ⟨s, l⟩ := L
        cases s
        · rw [In_u] at hx; omega
        · rfl
      obtain ⟨sl, l⟩ := L
      simp only at hLs hL e1
      subst hLs
      have pl := p_pos l
      have hpos : 0 < x * y := Int.mul_pos_of_neg_of_neg hxn hyn
      have hx' := hx
      rw [In_s] at hx'
      have hin : (⟨true, l⟩ : Ty).In (x * y) ↔ x * y ≤ 2 ^ l - 1 := by rw [In_s]; omega
      unfold tryMul
      simp only [ne_eq, hy0, not_false_eq_true, if_true, n1, n2, Bool.not_false, Bool.not_true, Bool.false_eq_true, if_false]
      rcases ht with ht | ⟨_, _, _, _, h | h⟩
      · rw [ht, castS_id (x := x) (by omega) (by omega), castS_id (x := y) (by omega) (by omega), max_t,
          castS_id (by omega) (by omega)]
        have hq : Int.tdiv (2 ^ l - 1) y = -((2 ^ l - 1) / (-y)) := by
          have : y = -(-y) := by omega
          conv_lhs => rw [this]
          rw [Int.tdiv_neg, Int.tdiv_eq_ediv_of_nonneg (by omega)]
        have hq1 := Int.ediv_le_self (-y) (show (0 : Int) ≤ 2 ^ l - 1 by omega)
        have hq0 : 0 ≤ (2 ^ l - 1 : Int) / (-y) := Int.ediv_nonneg (by omega) (by omega)
        unfold divOp
        rw [if_neg hy0, hq, arith_s (by omega) (by omega)]
        simp only [Option.bind_eq_bind, Option.bind_some]
        have key : -x ≤ (2 ^ l - 1) / (-y) ↔ -x * (-y) ≤ 2 ^ l - 1 := Int.le_ediv_iff_mul_le (by omega)
        rw [Int.neg_mul_neg] at key
        by_cases c3 : x ≥ -((2 ^ l - 1) / (-y))
        · have c' := key.mp (by omega)
          rw [if_pos c3, arith_s (by omega) (by omega), Option.bind_some, cast_id (hin.mpr (by omega)),
            checked_yes (hin.mpr (by omega))]
        · have c' := mt key.mpr (by omega)
          rw [if_neg c3, checked_no (by rw [hin]; omega)]
      · simp at h
      · simp at h

end Verif.Integer
