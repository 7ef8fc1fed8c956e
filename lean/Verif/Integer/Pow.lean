import Verif.Integer.Compare
import Mathlib.Algebra.Group.Int.Units
set_option linter.unusedSimpArgs false
namespace Verif.Integer

theorem strong_eq (I : Nat) (t : Ty) : strong I t = promote I t := by
  unfold strong intTy
  obtain ⟨s, b⟩ := t
  cases s
  · by_cases h : b ≤ I
    · have : promote I ⟨false, b⟩ = ⟨true, I⟩ := if_pos h
      rw [this, common_ss]; simp
    · rw [promote_u (by omega), common_su, if_neg (by omega)]
  · rw [promote_s, common_ss]
    congr 1; omega

theorem promote_cases (I : Nat) (t : Ty) :
    (∃ m, promote I t = ⟨true, m⟩ ∧ I ≤ m ∧ t.bits ≤ m) ∨ (promote I t = t ∧ t.signed = false ∧ I < t.bits) := by
  obtain ⟨s, b⟩ := t
  cases s
  · by_cases h : b ≤ I
    · exact Or.inl ⟨I, if_pos h, by omega, h⟩
    · exact Or.inr ⟨promote_u (by omega), rfl, by simp only; omega⟩
  · exact Or.inl ⟨max b I, promote_s I b, by omega, by simp only; omega⟩

theorem promote_bits (I : Nat) (t : Ty) : I ≤ (promote I t).bits ∧ t.bits ≤ (promote I t).bits := by
  rcases promote_cases I t with ⟨m, h, h1, h2⟩ | ⟨h, h1, h2⟩
  · rw [h]; exact ⟨h1, h2⟩
  · rw [h]; omega

theorem promote_promote (I : Nat) (t : Ty) : promote I (promote I t) = promote I t := by
  rcases promote_cases I t with ⟨m, h, h1, h2⟩ | ⟨h, h1, h2⟩
  · rw [h, promote_s]; congr 1; omega
  · rw [h, h]

theorem cast_promote {I : Nat} {t : Ty} {x : Int} (hx : t.In x) : cast (promote I t) x = x := by
  rcases promote_cases I t with ⟨m, h, h1, h2⟩ | ⟨h, h1, h2⟩
  · rw [h]; exact cast_signed hx h2
  · rw [h]; exact cast_id hx

theorem In_promote {I : Nat} {t : Ty} {x : Int} (hx : t.In x) : (promote I t).In x := by
  rw [← cast_promote (I := I) hx]; exact cast_in _ _

/-- Arithmetic is exact when the result is in range of the promoted type. -/
theorem arith_ok {I : Nat} {t : Ty} {x : Int} (hx : (promote I t).In x) : arith I t x = some x := by
  unfold arith
  rcases promote_cases I t with ⟨m, h, h1, h2⟩ | ⟨h, h1, h2⟩
  · rw [h] at hx ⊢
    simp only [hx, if_true]
  · rw [h] at hx ⊢
    obtain ⟨s, b⟩ := t
    simp only at h1
    subst h1
    have : x % 2 ^ b = x := by
      rw [In_u] at hx
      exact Int.emod_eq_of_lt hx.1 (by omega)
    simp only [Bool.false_eq_true, if_false, this]

theorem one_le_sq {b : Int} (h : b ≠ 0) (n : Nat) : 1 ≤ (b * b) ^ n := by
  have h1 : 1 ≤ b * b := by
    have : 0 < b * b := by
      rcases Int.lt_or_gt_of_ne h with h | h
      · exact Int.mul_pos_of_neg_of_neg h h
      · exact Int.mul_pos h h
    omega
  exact one_le_pow₀ h1

theorem notIn_mul {B : Ty} {x y : Int} (hx : ¬ B.In x) (hy : 1 ≤ y) : ¬ B.In (x * y) := by
  obtain ⟨s, b⟩ := B
  have := p_pos b
  cases s
  · rw [In_u] at hx ⊢
    by_cases h : x < 0
    · have : x * y < 0 := Int.mul_neg_of_neg_of_pos h (by omega)
      omega
    · have : x * 1 ≤ x * y := Int.mul_le_mul_of_nonneg_left hy (by omega)
      omega
  · rw [In_s] at hx ⊢
    by_cases h : x < 0
    · have : x * y ≤ x * 1 := Int.mul_le_mul_of_nonpos_left (by omega) hy
      omega
    · have : x * 1 ≤ x * y := Int.mul_le_mul_of_nonneg_left hy (by omega)
      omega

theorem powLoop_spec (I : Nat) (B : Ty) (h1 : B.In 1) : ∀ (fuel : Nat) (result base exp : Int), 0 ≤ exp → exp.toNat < fuel →
    B.In result → B.In base → (base ≠ 0 → result ≠ 0) → (result = -1 → base * base = 1) →
    powLoop I B fuel result base exp = checked B (result * base ^ exp.toNat)
  | 0, _, _, _, _, h, _, _, _, _ => by omega
  | fuel + 1, result, base, exp, h0, hf, hr, hb, q1, q2 => by
    obtain ⟨n, rfl⟩ := Int.eq_ofNat_of_zero_le h0
    have hn : ((n : Int) / 2).toNat = n / 2 := by omega
    have key : ∀ r', B.In r' → (base ≠ 0 → r' ≠ 0) → (r' = -1 → base * base = 1) →
        (if (n : Int) / 2 = 0 then some (some r')
          else match tryMul I B B base base with
          | none => none
          | some none => some none
          | some (some base) => powLoop I B fuel r' base ((n : Int) / 2)) = checked B (r' * (base * base) ^ (n / 2)) := by
      intro r' hr' p1 p2
      by_cases hz : (n : Int) / 2 = 0
      · have : n / 2 = 0 := by omega
        rw [if_pos hz, this, pow_zero, Int.mul_one, checked_yes hr']
      · have hn2 : 0 < n / 2 := by omega
        rw [if_neg hz, tryMul_spec I B B base base hb hb]
        by_cases hin : B.In (base * base)
        · rw [checked_yes hin]
          simp only
          rw [powLoop_spec I B h1 fuel r' (base * base) ((n : Int) / 2) (by omega) (by simp only [Int.toNat_natCast] at hf; omega) hr' hin, hn]
          · intro h; exact p1 (by rintro rfl; simp at h)
          · intro h; rw [p2 h]; rfl
        · rw [checked_no hin]
          simp only
          rw [checked_no]
          have hb0 : base ≠ 0 := by
            rintro rfl
            exact hin ((In_nonneg (by omega)).mpr (p_pos _))
          have hr0 := p1 hb0
          have hsq : 2 ^ B.bits ≤ base * base := by
            have h1 := one_le_sq hb0 1
            rw [pow_one] at h1
            have := mt (In_nonneg (t := B) (show 0 ≤ base * base by omega)).mpr hin
            omega
          have hpw : base * base ≤ (base * base) ^ (n / 2) := by
            have h1 := one_le_sq hb0 (n / 2 - 1)
            have : (base * base) ^ (n / 2) = (base * base) * (base * base) ^ (n / 2 - 1) := by
              conv_lhs => rw [show n / 2 = (n / 2 - 1) + 1 by omega]
              rw [pow_succ]; ring
            rw [this]
            have := Int.mul_le_mul_of_nonneg_left h1 (show 0 ≤ base * base by have := p_pos B.bits; omega)
            omega
          have hp := p_pos B.bits
          by_cases hneg : r' < 0
          · have hr2 : r' ≤ -2 := by
              by_contra hc
              have : r' = -1 := by omega
              have := p2 this
              apply hin
              rw [this]
              exact h1
            have : r' * (base * base) ^ (n / 2) ≤ -2 * (base * base) ^ (n / 2) :=
              Int.mul_le_mul_of_nonneg_right hr2 (by omega)
            obtain ⟨s, b⟩ := B
            cases s
            · rw [In_u]; simp only at *; omega
            · rw [In_s]; simp only at *; omega
          · have : 1 * (base * base) ^ (n / 2) ≤ r' * (base * base) ^ (n / 2) :=
              Int.mul_le_mul_of_nonneg_right (by omega) (by omega)
            intro h
            have := In_lt h
            omega
    unfold powLoop
    simp only [Int.toNat_natCast]
    by_cases hodd : (n : Int) % 2 ≠ 0
    · rw [if_pos hodd, tryMul_spec I B B result base hr hb]
      have he : result * base ^ n = result * base * (base * base) ^ (n / 2) := by
        have : n = 2 * (n / 2) + 1 := by omega
        conv_lhs => rw [this, pow_succ, pow_mul, pow_two]
        ring
      rw [he]
      by_cases hin : B.In (result * base)
      · rw [checked_yes hin]
        apply key _ hin
        · intro h; exact mul_ne_zero (q1 h) h
        · intro h
          have : base * (-result) = 1 := by rw [Int.mul_neg, Int.mul_comm]; omega
          rcases Int.eq_one_or_neg_one_of_mul_eq_one this with h | h <;> rw [h] <;> rfl
      · rw [checked_no hin]
        simp only
        have hb0 : base ≠ 0 := by
          rintro rfl
          rw [Int.mul_zero] at hin
          exact hin ((In_nonneg (by omega)).mpr (p_pos _))
        rw [checked_no (notIn_mul hin (one_le_sq hb0 _))]
    · rw [if_neg hodd]
      have he : result * base ^ n = result * (base * base) ^ (n / 2) := by
        have : n = 2 * (n / 2) := by omega
        conv_lhs => rw [this, pow_mul, pow_two]
      rw [he]
      exact key _ hr q1 q2

/-- The mathematical result of exponentiation, with the documented meaning of negative exponents (integer
division of 1 by the power); `none` for a negative power of zero. -/
def powSpec (l r : Int) : Option Int :=
  if 0 ≤ r then some (l ^ r.toNat)
  else if l = 0 then none
  else some (Int.tdiv 1 (l ^ (-r).toNat))

theorem tdiv_one_pow {l : Int} (h0 : l ≠ 0) (h1 : l ≠ 1) (h2 : l ≠ -1) {n : Nat} (hn : 0 < n) :
    Int.tdiv 1 (l ^ n) = 0 := by
  have h3 : 2 ≤ l.natAbs := by omega
  have h4 : 2 ≤ (l ^ n).natAbs := by
    rw [Int.natAbs_pow]
    calc 2 ≤ l.natAbs := h3
      _ = l.natAbs ^ 1 := (pow_one _).symm
      _ ≤ l.natAbs ^ n := Nat.pow_le_pow_right (by omega) hn
  generalize l ^ n = y at h4
  by_cases hy : 0 ≤ y
  · exact Int.tdiv_eq_zero_of_lt (by omega) (by omega)
  · have : y = -(-y) := by omega
    rw [this, Int.tdiv_neg, Int.tdiv_eq_zero_of_lt (by omega) (by omega)]; rfl

theorem tryPow_spec (I : Nat) (hI : 1 ≤ I) (L R : Ty) (hL : 1 ≤ L.bits) (l r : Int) (hl : L.In l) (hr : R.In r) :
    tryPow I L R l r = some (match powSpec l r with | some v => if L.In v then some v else none | none => none) := by
  have hB := promote_bits I L
  have hp : (2 : Int) ^ 1 ≤ 2 ^ (promote I L).bits := p_le (by omega)
  have h1 : (promote I L).In 1 := (In_nonneg (by omega)).mpr (by omega)
  have hl' := In_promote (I := I) hl
  have hr' := In_promote (I := I) hr
  unfold tryPow powSpec
  simp only [strong_eq, cast_promote hl, cast_promote hr, isNegative_eq hr']
  by_cases h0 : 0 ≤ r
  · simp only [h0, if_true, show ¬ r < 0 by omega, decide_false, Bool.not_false]
    rw [powLoop_spec I _ h1 _ _ _ _ h0 (by omega) h1 hl' (by omega) (by omega), Int.one_mul]
    by_cases hin : (promote I L).In (l ^ r.toNat)
    · rw [checked_yes hin]
      simp only
      rw [tryIntCast_spec I L _ _ hin]
    · rw [checked_no hin]
      simp only
      rw [if_neg (fun h => hin (In_promote h))]
  · simp only [h0, if_false, show r < 0 by omega, decide_true, Bool.not_true, Bool.false_eq_true]
    by_cases hz : l = 0
    · simp [hz]
    · rw [if_neg hz, if_neg hz]
      simp only
      have hm1 : (intTy I).In (-1) := by unfold intTy; rw [In_s]; have := p_pos I; omega
      rw [intEqual_spec I _ _ _ _ hl' hm1]
      have hLp : (2 : Int) ^ 1 ≤ 2 ^ L.bits := p_le hL
      have i1 : L.In 1 := (In_nonneg (by omega)).mpr (by omega)
      have i0 : L.In 0 := (In_nonneg (by omega)).mpr (by omega)
      have im : l = -1 → L.In (-1) := by rintro rfl; exact hl
      obtain ⟨n, hn⟩ : ∃ n : Nat, -r = n := Int.eq_ofNat_of_zero_le (by omega)
      have hn' : (-r).toNat = n := by omega
      have hpos : 0 < n := by omega
      rw [hn']
      have key : ∀ q, L.In q → (arith I (promote I L) q).bind (fun result => some (tryIntCast I L (promote I L) result)) =
          some (if L.In q then some q else none) := by
        intro q hq
        have hq' := In_promote (I := I) hq
        rw [arith_ok (by rw [promote_promote]; exact hq'), Option.bind_some, tryIntCast_spec I L _ _ hq']
      by_cases c1 : l = 1
      · subst c1
        have : (1 : Int).tdiv 1 = 1 := rfl
        simp only [show ¬ ((1 : Int) = -1) by omega, decide_false, Bool.false_and, Bool.false_eq_true, if_false, one_pow,
          divOp, show ¬ ((1 : Int) = 0) by omega, this]
        exact key 1 i1
      · by_cases c2 : l = -1
        · subst c2
          by_cases he : r % 2 = 0
          · have hne : n % 2 = 0 := by omega
            have hp1 : (-1 : Int) ^ n = 1 := Even.neg_one_pow (Nat.even_iff.mpr hne)
            have : (1 : Int).tdiv 1 = 1 := rfl
            simp only [he, decide_true, Bool.and_self, if_true, hp1, divOp, show ¬ ((1 : Int) = 0) by omega, if_false, this]
            exact key 1 i1
          · have hne : n % 2 = 1 := by omega
            have hp1 : (-1 : Int) ^ n = -1 := Odd.neg_one_pow (Nat.odd_iff.mpr hne)
            have : (1 : Int).tdiv (-1) = -1 := rfl
            simp only [he, decide_true, decide_false, Bool.and_false, Bool.false_eq_true, if_false, hp1, divOp,
              show ¬ ((-1 : Int) = 0) by omega, this]
            exact key (-1) (im rfl)
        · rw [tdiv_one_pow hz c1 c2 hpos]
          have h5 : Int.tdiv 1 l = 0 := by
            have := tdiv_one_pow hz c1 c2 (n := 1) (by omega)
            rwa [pow_one] at this
          simp only [c2, decide_false, Bool.false_and, Bool.false_eq_true, if_false, divOp, hz, h5]
          exact key 0 i0

end Verif.Integer
