import Verif.Integer.TwosCompl
set_option linter.unusedSimpArgs false
namespace Verif.Integer

theorem tcCastA_spec {I : Nat} {T F : Ty} {x : Int} (hF : 1 ≤ F.bits) (hx : F.In x) :
    tcCastA I T F x = some (cast T (tcVal F x)) := by
  unfold tcCastA
  cases hs : T.signed <;> cases hf : F.signed <;>
    simp only [Bool.not_false, Bool.not_true, Bool.and_self, Bool.and_false, Bool.false_and, Bool.true_and, if_true,
      Bool.false_eq_true, if_false]
  · have hx0 := nonneg_of_unsigned hf hx
    have hxl := In_lt hx
    have hwT : T.width = T.bits := by unfold Ty.width; simp [hs]
    have hwF : F.width = F.bits := by unfold Ty.width; simp [hf]
    by_cases h : T.width ≥ F.width
    · rw [if_pos h]
      have e := p_le (show F.bits ≤ T.bits by omega)
      have hxT : T.In x := by rw [In_nonneg hx0]; omega
      rw [cast_id hxT, hwF, signExtend_spec hs hF hx0 hxl (by omega), tcVal_u hf]
    · rw [if_neg h, tcVal_u hf]
      congr 1
      split
      · apply cast_congr
        rw [show x - (x - 2 ^ F.bits) = 2 ^ F.bits by omega]
        exact p_dvd (by omega)
      · rfl
  · rw [tcVal_s hf]
  · unfold castFromTwosComplA
    rw [tcVal_u hf]
    split <;> rfl
  · rw [tcVal_s hf]

/-! ### Most significant bit -/

theorem msbLoop_spec : ∀ (fuel v i j : Nat), j - i < fuel → v < 2 ^ (j - i) →
    msbLoop fuel v i j = if v = 0 then (i : Int) - 1 else (i : Int) + Nat.log2 v
  | 0, _, _, _, h, _ => by omega
  | fuel + 1, v, i, j, h, hv => by
    unfold msbLoop
    simp only
    by_cases hn : (j - i) / 2 > 0
    · rw [if_pos hn]
      by_cases hw : v / 2 ^ ((j - i) / 2) ≠ 0
      · rw [if_pos hw]
        have hv0 : v ≠ 0 := by rintro rfl; simp at hw
        have h2 : v / 2 ^ ((j - i) / 2) < 2 ^ (j - (i + (j - i) / 2)) := by
          rw [Nat.div_lt_iff_lt_mul (Nat.two_pow_pos _), ← pow_add]
          rw [show j - (i + (j - i) / 2) + (j - i) / 2 = j - i by omega]; exact hv
        rw [msbLoop_spec fuel _ _ _ (by omega) h2, if_neg hw, if_neg hv0]
        have : Nat.log2 v = Nat.log2 (v / 2 ^ ((j - i) / 2)) + (j - i) / 2 := by
          rw [Nat.log2_eq_iff hv0]
          have h3 := Nat.log2_self_le hw
          have h4 := @Nat.lt_log2_self (v / 2 ^ ((j - i) / 2))
          constructor
          · rw [pow_add]
            exact (Nat.le_div_iff_mul_le (Nat.two_pow_pos _)).mp h3
          · rw [show Nat.log2 (v / 2 ^ ((j - i) / 2)) + (j - i) / 2 + 1 = (Nat.log2 (v / 2 ^ ((j - i) / 2)) + 1) + (j - i) / 2 by omega,
              pow_add]
            exact (Nat.div_lt_iff_lt_mul (Nat.two_pow_pos _)).mp h4
        rw [this]; push_cast; omega
      · rw [if_neg hw]
        have hw' : v / 2 ^ ((j - i) / 2) = 0 := by omega
        have h2 : v < 2 ^ ((j - i) / 2) := by
          rcases Nat.div_eq_zero_iff.mp hw' with h | h
          · have := Nat.two_pow_pos ((j - i) / 2); omega
          · exact h
        exact msbLoop_spec fuel v i (i + (j - i) / 2) (by omega) (by rw [show i + (j - i) / 2 - i = (j - i) / 2 by omega]; exact h2)
    · rw [if_neg hn]
      have h1 : v < 2 := by
        have : 2 ^ (j - i) ≤ 2 ^ 1 := Nat.pow_le_pow_right (by omega) (by omega)
        omega
      by_cases hv0 : v = 0
      · simp [hv0]
      · have : v = 1 := by omega
        subst this
        have : Nat.log2 1 = 0 := (Nat.log2_eq_iff (by omega)).mpr (by simp)
        simp [this]

/-- The specification of the position of the most significant bit. -/
def IsMsbPos (t : Ty) (x p : Int) : Prop :=
  (x < 0 → p = t.bits) ∧ (x = 0 → p = -1) ∧ (0 < x → 0 ≤ p ∧ 2 ^ p.toNat ≤ x ∧ x < 2 ^ (p.toNat + 1))

theorem IsMsbPos_log2 {t : Ty} {x : Int} (h : 0 < x) : IsMsbPos t x (Nat.log2 x.toNat : Nat) := by
  obtain ⟨n, rfl⟩ := Int.eq_ofNat_of_zero_le (show 0 ≤ x by omega)
  have hn : n ≠ 0 := by omega
  refine ⟨by omega, by omega, fun _ => ⟨by omega, ?_, ?_⟩⟩
  · rw [Int.toNat_natCast, Int.toNat_natCast, ← cast_pow]
    exact_mod_cast Nat.log2_self_le hn
  · rw [Int.toNat_natCast, Int.toNat_natCast, ← cast_pow]
    exact_mod_cast Nat.lt_log2_self

theorem log2_lt_bits {t : Ty} {x : Int} (hx : t.In x) (h : 0 < x) : Nat.log2 x.toNat < t.bits := by
  have := In_lt hx
  rw [Nat.log2_lt (by omega)]
  rw [← cast_pow] at this
  omega

theorem findMsbPos_pos {t : Ty} {x : Int} (hx : t.In x) (h : 0 < x) : findMsbPos t x = (Nat.log2 x.toNat : Nat) := by
  have hl := log2_lt_bits hx h
  unfold findMsbPos
  rw [bitsOf_nonneg (by omega) (In_lt hx)]
  simp only [show x.toNat ≠ 0 by omega, if_false]
  have : t.bits ≤ t.width := by unfold Ty.width; omega
  omega

theorem findMsbPos_spec {t : Ty} {x : Int} (hx : t.In x) : IsMsbPos t x (findMsbPos t x) := by
  by_cases h : 0 < x
  · rw [findMsbPos_pos hx h]; exact IsMsbPos_log2 h
  · refine ⟨?_, ?_, by omega⟩
    · intro hneg
      have hs : t.signed = true := by
        by_contra hc
        have := nonneg_of_unsigned (by simpa using hc) hx
        omega
      obtain ⟨s, b⟩ := t
      simp only at hs
      subst hs
      rw [In_s] at hx
      have hp := p_pos b
      have e := p_succ b
      have hb : bitsOf ⟨true, b⟩ x = (x + 2 ^ (b + 1)).toNat := by
        unfold bitsOf
        rw [width_s, ← Int.add_mul_emod_self_left x (2 ^ (b + 1)) 1, Int.mul_one, Int.emod_eq_of_lt (by omega) (by omega)]
      have hlog : Nat.log2 (x + 2 ^ (b + 1)).toNat = b := by
        rw [Nat.log2_eq_iff (by omega)]
        have e1 : ((2 ^ b : Nat) : Int) = 2 ^ b := cast_pow b
        have e2 : ((2 ^ (b + 1) : Nat) : Int) = 2 ^ (b + 1) := cast_pow (b + 1)
        omega
      unfold findMsbPos
      simp only [hb, hlog, show (x + 2 ^ (b + 1)).toNat ≠ 0 by omega, if_false, width_s]
      omega
    · rintro rfl
      unfold findMsbPos
      have : bitsOf t 0 = 0 := by simp [bitsOf]
      simp only [this, if_true]
      omega

theorem findMsbPosGeneric_spec {t : Ty} {x : Int} (hx : t.In x) : IsMsbPos t x (findMsbPosGeneric t x) := by
  unfold findMsbPosGeneric
  rw [isNegative_eq hx]
  by_cases h : x < 0
  · simp only [h, decide_true, Bool.not_true, Bool.false_eq_true, if_false]
    exact ⟨fun _ => rfl, by omega, by omega⟩
  · simp only [h, decide_false, Bool.not_false, if_true]
    have := In_lt hx
    rw [← cast_pow] at this
    rw [msbLoop_spec _ _ _ _ (by omega) (by simp only [Nat.sub_zero]; omega)]
    by_cases h0 : x = 0
    · subst h0; exact ⟨by omega, by simp, by omega⟩
    · rw [if_neg (by omega)]
      simpa using IsMsbPos_log2 (t := t) (show 0 < x by omega)

/-! ### Most significant digit -/

theorem tdiv_natAbs (a b : Int) : (Int.tdiv a b).natAbs = a.natAbs / b.natAbs := Int.natAbs_tdiv a b

theorem msdLoop_spec (I : Nat) (type : Ty) (htp : promote I type = type) (base : Int) (hb : 2 ≤ base) :
    ∀ (fuel : Nat) (v i : Int), type.In v → v.natAbs < fuel →
    ∃ n : Nat, msdLoop I type base fuel v i = some (i + n) ∧ v.natAbs < base.natAbs ^ n ∧
      (n = 0 ∨ base.natAbs ^ (n - 1) ≤ v.natAbs)
  | 0, _, _, _, h => by omega
  | fuel + 1, v, i, hv, hf => by
    unfold msdLoop
    by_cases h0 : v = 0
    · subst h0
      exact ⟨0, by simp, by simp, Or.inl rfl⟩
    · rw [if_pos h0]
      have hq := tdiv_natAbs v base
      have hlt : (Int.tdiv v base).natAbs < v.natAbs := by
        rw [hq]; exact Nat.div_lt_self (by omega) (by omega)
      have hin : type.In (Int.tdiv v base) := by
        obtain ⟨s, b⟩ := type
        cases s
        · rw [In_u] at *
          have := Int.tdiv_nonneg (show 0 ≤ v by omega) (show 0 ≤ base by omega)
          omega
        · rw [In_s] at *
          by_cases hneg : 0 ≤ v
          · have := Int.tdiv_nonneg hneg (show 0 ≤ base by omega)
            omega
          · have : 0 ≤ Int.tdiv (-v) base := Int.tdiv_nonneg (by omega) (by omega)
            rw [Int.neg_tdiv] at this
            omega
      have hd : divOp I type v base = some (Int.tdiv v base) := by
        unfold divOp
        rw [if_neg (by omega), arith_ok (by rw [htp]; exact hin)]
      rw [hd]
      simp only [Option.bind_eq_bind, Option.bind_some]
      obtain ⟨n, h1, h2, h3⟩ := msdLoop_spec I type htp base hb fuel (Int.tdiv v base) (i + 1) hin (by omega)
      have hbp : 0 < base.natAbs := by omega
      refine ⟨n + 1, ?_, ?_, Or.inr ?_⟩
      · rw [h1]; congr 1; push_cast; omega
      · rw [hq, Nat.div_lt_iff_lt_mul hbp] at h2
        rw [pow_succ]; exact h2
      · rw [Nat.add_sub_cancel]
        rcases h3 with h3 | h3
        · subst h3; simp; omega
        · rcases Nat.eq_zero_or_pos n with hn | hn
          · subst hn; simp; omega
          · rw [hq, Nat.le_div_iff_mul_le hbp, ← pow_succ] at h3
            rwa [show n - 1 + 1 = n by omega] at h3

/-- The specification of the number of digits of `x` in the given base. -/
def IsNumDigits (x base : Int) (n : Nat) : Prop :=
  x.natAbs < base.natAbs ^ n ∧ (n = 0 ∨ base.natAbs ^ (n - 1) ≤ x.natAbs)

theorem findMsdPos_spec {I : Nat} {t : Ty} {x base : Int} (hx : t.In x) (hb : 2 ≤ base) (hbi : (intTy I).In base) :
    ∃ n : Nat, findMsdPos I t x base = some ((n : Int) - 1) ∧ IsNumDigits x base n := by
  have hbb := promote_bits I t
  have e := p_le hbb.1
  have hbl := In_lt hbi
  unfold intTy at hbl
  simp only at hbl
  have hbt : (promote I t).In base := by rw [In_nonneg (by omega)]; omega
  unfold findMsdPos
  simp only [strong_eq, cast_promote hx, cast_id hbt]
  rw [if_pos (by unfold Ty.max; omega)]
  obtain ⟨n, h1, h2, h3⟩ := msdLoop_spec I (promote I t) (promote_promote I t) base hb (x.natAbs + 1) x (-1)
    (In_promote hx) (by omega)
  exact ⟨n, by rw [h1]; congr 1, h2, h3⟩

/-! ### Square root -/

theorem newton_step {v v0 : Int} (hv : 0 ≤ v) (h0 : 0 < v0) :
    v < ((v0 + v / v0) / 2 + 1) * ((v0 + v / v0) / 2 + 1) := by
  have hd := Int.emod_add_mul_ediv v v0
  have hm := Int.emod_lt_of_pos v h0
  have hq : 0 ≤ v / v0 := Int.ediv_nonneg hv (by omega)
  generalize v / v0 = q at *
  generalize hs : (v0 + q) / 2 + 1 = s
  have h2 : v0 + q + 1 ≤ 2 * s := by omega
  have h3 : v < v0 * (q + 1) := by rw [Int.mul_add]; omega
  have h4 : (v0 + q + 1) * (v0 + q + 1) ≤ (2 * s) * (2 * s) := Int.mul_le_mul h2 h2 (by omega) (by omega)
  have h5 : 0 ≤ (v0 - (q + 1)) * (v0 - (q + 1)) := mul_self_nonneg _
  nlinarith

theorem sqrtLoop_spec (I : Nat) (type : Ty) (v V : Int) (hv : 0 < v) (hvin : v < 2 ^ type.bits)
    (htp : promote I type = type) (hw : 1 < type.width) (hV : 2 * V + 2 < 2 ^ type.bits) :
    ∀ (fuel : Nat) (v0 : Int), 0 < v0 → v0 ≤ V → v < (v0 + 1) * (v0 + 1) → v0.toNat < fuel →
    ∃ r, sqrtLoop I type v fuel v0 = some r ∧ 0 ≤ r ∧ r * r ≤ v ∧ v < (r + 1) * (r + 1)
  | 0, _, _, _, _, h => by omega
  | fuel + 1, v0, h0, hle, hs, hf => by
    have hq0 : 0 ≤ v / v0 := Int.ediv_nonneg (by omega) (by omega)
    have hq1 : v / v0 ≤ v0 + 2 := by
      have : v / v0 < v0 + 3 := Int.ediv_lt_of_lt_mul h0 (by nlinarith)
      omega
    have hqv : v / v0 ≤ v := Int.ediv_le_self v0 (by omega)
    have hdiv : divOp I type v v0 = some (v / v0) := by
      unfold divOp
      rw [if_neg (by omega), Int.tdiv_eq_ediv_of_nonneg (by omega), arith_ok]
      rw [htp, In_nonneg hq0]; omega
    have hadd : arith I type (v0 + v / v0) = some (v0 + v / v0) := by
      apply arith_ok
      rw [htp, In_nonneg (by omega)]; omega
    have hshr : shr type (v0 + v / v0) 1 = some ((v0 + v / v0) / 2) := by
      unfold shr; rw [if_pos hw, pow_one]
    unfold sqrtLoop
    rw [hdiv]
    simp only [Option.bind_eq_bind, Option.bind_some, hadd, hshr]
    by_cases hlt : (v0 + v / v0) / 2 < v0
    · rw [if_pos hlt]
      have hpos : 0 < (v0 + v / v0) / 2 := by
        by_contra hc
        have h1 : v0 = 1 ∧ v / v0 = 0 := by omega
        rw [h1.1] at h1
        simp at h1; omega
      exact sqrtLoop_spec I type v V hv hvin htp hw hV fuel _ hpos (by omega) (newton_step (by omega) h0) (by omega)
    · rw [if_neg hlt]
      refine ⟨v0, rfl, by omega, ?_, hs⟩
      have : v0 ≤ v / v0 := by omega
      exact (Int.le_ediv_iff_mul_le h0).mp this

theorem intSqrt_spec {I : Nat} (hI : 15 ≤ I) {T : Ty} {x : Int} (hx : T.In x) (h0 : 0 ≤ x) :
    ∃ r, intSqrt I T x = some r ∧ 0 ≤ r ∧ r * r ≤ x ∧ x < (r + 1) * (r + 1) := by
  unfold intSqrt
  rw [isNegative_eq hx]
  simp only [show ¬ x < 0 by omega, decide_false, Bool.false_eq_true, if_false, cast_promote hx]
  by_cases hz : x = 0
  · subst hz
    exact ⟨0, by simp, by simp, by simp, by simp⟩
  · rw [if_pos hz]
    have hpos : 0 < x := by omega
    have hxp : (promote I T).In x := In_promote hx
    have hu : toUnsigned (promote I T) x = x := toUnsigned_nonneg hxp h0
    have hul : (unsignedOf (promote I T)).In x := by
      have := In_lt hxp
      have h2 : (promote I T).bits ≤ (unsignedOf (promote I T)).bits := by unfold unsignedOf; split <;> simp
      have := p_le h2
      rw [In_nonneg h0]; omega
    rw [hu, findMsbPos_pos hul hpos]
    generalize hk : Nat.log2 x.toNat = k
    have hkb : k < (promote I T).bits := by rw [← hk]; exact log2_lt_bits hxp hpos
    have hm := (promote_bits I T).1
    have hxk : x < 2 ^ (k + 1) := by
      have := (IsMsbPos_log2 (t := T) hpos).2.2 hpos
      rw [hk] at this
      simpa using this.2.2
    have hsh : (Int.tdiv (k : Int) 2 + 1).toNat = k / 2 + 1 := by
      rw [Int.tdiv_eq_ediv_of_nonneg (by omega)]; omega
    rw [hsh]
    have hbits : k / 2 + 1 < (promote I T).bits := by omega
    have hlt := p_lt hbits
    have hp := p_pos (k / 2 + 1)
    have hshl : shl (promote I T) 1 (k / 2 + 1) = some (2 ^ (k / 2 + 1)) := by
      unfold shl
      rw [if_pos (by unfold Ty.width; omega), Int.one_mul, cast_id]
      rw [In_nonneg (by omega)]; omega
    have hw : 1 < (promote I T).width := by unfold Ty.width; omega
    rw [hshl]
    simp only [Option.bind_eq_bind, Option.bind_some]
    have hV : 2 * 2 ^ (k / 2 + 1) + 2 < (2 : Int) ^ (promote I T).bits := by
      have h1 := p_le (show k / 2 + 1 + 1 + 1 ≤ (promote I T).bits by omega)
      have h2 := p_succ (k / 2 + 1)
      have h3 := p_succ (k / 2 + 1 + 1)
      have h4 := p_le (show 1 ≤ k / 2 + 1 by omega)
      omega
    have hsq : x < ((2 : Int) ^ (k / 2 + 1) + 1) * (2 ^ (k / 2 + 1) + 1) := by
      have h1 : (2 : Int) ^ (k + 1) ≤ 2 ^ (k / 2 + 1) * 2 ^ (k / 2 + 1) := by
        rw [← pow_add]; exact p_le (by omega)
      nlinarith
    obtain ⟨r, hr, hr0, hr1, hr2⟩ := sqrtLoop_spec I (promote I T) x (2 ^ (k / 2 + 1)) hpos (In_lt hxp) (promote_promote I T) hw hV
      ((2 ^ (k / 2 + 1) : Int).toNat + 1) (2 ^ (k / 2 + 1)) hp (by omega) hsq (by omega)
    refine ⟨r, ?_, hr0, hr1, hr2⟩
    rw [hr, Option.bind_some, cast_id]
    apply In_mono hr0 _ hx
    by_contra hc
    have : x * 1 < r * r := by nlinarith
    omega

/-! ### Shifts and masks -/

theorem tryShl_spec {I : Nat} {T : Ty} {x i : Int} (hx : T.In x) (h0 : 0 ≤ x) (hi : 0 ≤ i) :
    tryShl I T x i = checked T (x * 2 ^ i.toNat) := by
  obtain ⟨n, rfl⟩ := Int.eq_ofNat_of_zero_le hi
  have hb := promote_bits I T
  have hpn := p_pos n
  have hpr : 0 ≤ x * 2 ^ n := Int.mul_nonneg h0 (by omega)
  unfold tryShl
  rw [isNegative_eq hx]
  simp only [show ¬ x < 0 by omega, show ¬ ((n : Int) < 0) by omega, decide_false, Bool.or_self, Bool.false_eq_true, if_false,
    Int.toNat_natCast]
  by_cases hlt : (n : Int) < (promote I T).bits
  · rw [if_pos hlt]
    have hw : n < (promote I T).width := by unfold Ty.width; omega
    unfold shr
    rw [if_pos hw]
    simp only [Option.bind_eq_bind, Option.bind_some]
    have key : T.max / 2 ^ n ≥ x ↔ x * 2 ^ n ≤ T.max := Int.le_ediv_iff_mul_le hpn
    by_cases h : T.max / 2 ^ n ≥ x
    · have h' := key.mp h
      have hin : T.In (x * 2 ^ n) := by rw [In_nonneg hpr]; unfold Ty.max at h'; omega
      rw [if_pos h]
      unfold shl
      rw [if_pos hw, Option.bind_some, cast_id (In_promote hin), cast_id hin, checked_yes hin]
    · have h' := mt key.mpr h
      rw [if_neg h, checked_no]
      rw [In_nonneg hpr]; unfold Ty.max at h'; omega
  · rw [if_neg hlt]
    by_cases hz : x = 0
    · subst hz
      rw [if_pos rfl, Int.zero_mul, checked_yes hx]
    · rw [if_neg hz, checked_no]
      rw [In_nonneg hpr]
      have h1 := p_le (show T.bits ≤ n by omega)
      have : 1 * 2 ^ n ≤ x * 2 ^ n := Int.mul_le_mul_of_nonneg_right (by omega) (by omega)
      omega

theorem logicShl_spec {I : Nat} {T : Ty} {x i : Int} (hT : T.signed = false) (hi : 0 ≤ i) :
    logicShl I T x i = some (x * 2 ^ i.toNat % 2 ^ T.bits) := by
  obtain ⟨n, rfl⟩ := Int.eq_ofNat_of_zero_le hi
  have hb := promote_bits I T
  have hT' : T = ⟨false, T.bits⟩ := by obtain ⟨s, b⟩ := T; simp only at hT; subst hT; rfl
  unfold logicShl
  simp only [show ¬ ((n : Int) < 0) by omega, if_false, Int.toNat_natCast]
  by_cases hlt : (n : Int) < (promote I T).bits
  · rw [if_pos hlt]
    have hw : n < (promote I T).width := by unfold Ty.width; omega
    unfold shl
    rw [if_pos hw]
    simp only [Option.bind_eq_bind, Option.bind_some]
    rw [cast_cast' (promote_width I T)]
    congr 1
    conv_lhs => rw [hT']
    exact cast_u _ _
  · rw [if_neg hlt]
    have : (x * 2 ^ n % 2 ^ T.bits : Int) = 0 := by
      apply Int.emod_eq_zero_of_dvd
      exact Int.dvd_trans (p_dvd (by omega)) (Int.dvd_mul_left _ _)
    rw [this]

theorem logicShr_spec {I : Nat} {T : Ty} {x i : Int} (hx : T.In x) (h0 : 0 ≤ x) (hi : 0 ≤ i) :
    logicShr I T x i = some (x / 2 ^ i.toNat) := by
  obtain ⟨n, rfl⟩ := Int.eq_ofNat_of_zero_le hi
  have hb := promote_bits I T
  have hxl := In_lt hx
  unfold logicShr
  rw [isNegative_eq hx]
  simp only [show ¬ x < 0 by omega, show ¬ ((n : Int) < 0) by omega, decide_false, Bool.or_self, Bool.false_eq_true, if_false,
    Int.toNat_natCast]
  have hq : 0 ≤ x / 2 ^ n := Int.ediv_nonneg h0 (by have := p_pos n; omega)
  by_cases hlt : (n : Int) < (promote I T).bits
  · rw [if_pos hlt]
    have hw : n < (promote I T).width := by unfold Ty.width; omega
    unfold shr
    rw [if_pos hw]
    simp only [Option.bind_eq_bind, Option.bind_some]
    rw [cast_id (In_mono hq (Int.ediv_le_self _ h0) hx)]
  · rw [if_neg hlt]
    have h1 := p_le (show T.bits ≤ n by omega)
    rw [Int.ediv_eq_zero_of_lt h0 (by omega)]

theorem intMask_spec {I : Nat} (hI : 1 ≤ I) {T : Ty} (n : Int) :
    intMask I T n = some (2 ^ (min n.toNat T.bits) - 1) := by
  have hb := promote_bits I T
  unfold intMask
  by_cases h : n > 0
  · rw [if_pos h]
    obtain ⟨k, rfl⟩ := Int.eq_ofNat_of_zero_le (show 0 ≤ n by omega)
    have key : ∀ e : Nat, e ≤ T.bits → e < (promote I T).width → (do
        let y ← shr (promote I T) T.max e
        some (cast T y)) = some (2 ^ (T.bits - e) - 1) := by
      intro e he hw
      unfold shr
      rw [if_pos hw]
      simp only [Option.bind_eq_bind, Option.bind_some]
      have hp := p_pos e
      have hp2 := p_pos (T.bits - e)
      have h1 : (2 : Int) ^ T.bits = 2 ^ (T.bits - e) * 2 ^ e := by rw [← pow_add]; congr 1; omega
      have h2 : T.max / 2 ^ e = 2 ^ (T.bits - e) - 1 := by
        unfold Ty.max
        rw [h1]
        apply le_antisymm
        · have : (2 ^ (T.bits - e) * 2 ^ e - 1 : Int) / 2 ^ e < 2 ^ (T.bits - e) :=
            Int.ediv_lt_of_lt_mul hp (by omega)
          omega
        · rw [Int.le_ediv_iff_mul_le hp, Int.sub_mul]; omega
      have h3 := p_le (show T.bits - e ≤ T.bits by omega)
      rw [h2, cast_id]
      rw [In_nonneg (by omega)]; omega
    have hw0 : 0 < (promote I T).width := by unfold Ty.width; omega
    by_cases hk : (k : Int) ≤ T.bits
    · simp only [hk, if_true]
      have e : ((T.bits : Int) - k).toNat = T.bits - k := by omega
      rw [e, key _ (by omega) (by unfold Ty.width; omega)]
      simp only [Int.toNat_natCast]
      congr 3; omega
    · simp only [hk, if_false]
      rw [show Int.toNat 0 = 0 from rfl, key 0 (by omega) hw0]
      simp only [Int.toNat_natCast]
      congr 3; omega
  · rw [if_neg h]
    have : n.toNat = 0 := by omega
    simp [this]

theorem isPowerOfTwo_spec {I : Nat} {T : Ty} {x : Int} (hx : T.In x) :
    ∃ b, isPowerOfTwo I T x = some b ∧ (b = true ↔ ∃ k : Nat, x = 2 ^ k) := by
  have hxp := In_promote (I := I) hx
  have hxl := In_lt hxp
  unfold isPowerOfTwo
  simp only [cast_promote hx]
  by_cases h : x > 0
  · rw [if_pos h, arith_ok (by rw [promote_promote, In_nonneg (by omega)]; omega)]
    simp only [Option.bind_eq_bind, Option.bind_some]
    refine ⟨_, rfl, ?_⟩
    obtain ⟨n, rfl⟩ := Int.eq_ofNat_of_zero_le (show 0 ≤ x by omega)
    rw [decide_eq_true_iff, bitAnd_left (by omega) (by omega), bitsOf_nonneg (by omega) (by omega)]
    have e1 : ((n : Int) - 1).toNat = n - 1 := by omega
    rw [e1, Int.toNat_natCast]
    have hz : (((n &&& (n - 1) : Nat)) : Int) = 0 ↔ n &&& (n - 1) = 0 := by omega
    rw [hz, Nat.and_sub_one_eq_zero_iff_isPowerOfTwo (by omega)]
    unfold Nat.isPowerOfTwo
    constructor
    · rintro ⟨k, hk⟩; exact ⟨k, by rw [hk, cast_pow]⟩
    · rintro ⟨k, hk⟩
      refine ⟨k, ?_⟩
      rw [← cast_pow] at hk
      exact_mod_cast hk
  · rw [if_neg h]
    refine ⟨false, rfl, ?_⟩
    constructor
    · simp
    · rintro ⟨k, rfl⟩; have := p_pos k; omega

end Verif.Integer
