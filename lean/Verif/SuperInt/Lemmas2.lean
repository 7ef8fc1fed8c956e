import Verif.SuperInt.Lemmas
import Verif.IntText.Props
import Mathlib.Tactic.LinearCombination

namespace Verif.SuperInt

open Spec

/-! ### Multiplication -/

theorem mul_wrap {N : Nat} (hN : 0 < N) {a b : SuperInt} (ha : Valid N a) (hb : Valid N b) :
    Valid N (mul N a b) ∧ IsWrap N (a.num N * b.num N) ((mul N a b).num N) := by
  obtain ⟨h1, h2⟩ := mul_rep hN ha hb
  refine ⟨h1, wrap_of_rep h1 ?_⟩
  obtain ⟨k, hk⟩ := num_rep N a
  obtain ⟨l, hl⟩ := num_rep N b
  rw [h2, hk, hl]
  generalize a.rep N = x
  generalize b.rep N = y
  have := Nat.div_add_mod (x * y) (2 ^ (N + 1))
  have h3 : ((2 ^ (N + 1) * (x * y / 2 ^ (N + 1)) + x * y % 2 ^ (N + 1) : Nat) : Int) = (x * y : Nat) :=
    congrArg _ this
  push_cast at h3
  refine ⟨-(x * y / 2 ^ (N + 1)) - k * y - x * l - k * l * 2 ^ (N + 1), ?_⟩
  push_cast
  linear_combination h3

theorem unot_num {N : Nat} {a : SuperInt} (ha : Valid N a) (hs : a.sign = true) :
    a.num N = -((unot N a.value : Nat) + 1 : Int) ∧ unot N a.value < 2 ^ N := by
  unfold Valid at ha
  rw [num_true hs]
  unfold unot
  omega

theorem prod_bound {W a b : Nat} (ha : 0 < a) (haW : a < W) : b ≤ (W - 1 - (a - 1)) / a ↔ a * (b + 1) ≤ W := by
  rw [Nat.le_div_iff_mul_le ha, mul_add, mul_comm b a, mul_one]
  omega

theorem mulOverflow_spec {N : Nat} (hN : 0 < N) {x y : SuperInt} (hx : Valid N x) (hy : Valid N y) :
    (Representable N (x.num N * y.num N) → mulOverflow N x y = some (false, mul N x y)) ∧
    (¬ Representable N (x.num N * y.num N) → mulOverflow N x y = some (true, x)) := by
  have hW : 1 < 2 ^ N := Nat.one_lt_two_pow (by omega)
  have hmax : umax N = 2 ^ N - 1 := rfl
  suffices h : ∃ good : Bool, (good = true ↔ Representable N (x.num N * y.num N)) ∧
      mulOverflow N x y = some (if good then (false, mul N x y) else (true, x)) by
    obtain ⟨good, h1, h2⟩ := h
    rw [h2]
    cases good
    · exact ⟨fun h => absurd (h1.mpr h) (by simp), fun _ => rfl⟩
    · exact ⟨fun _ => rfl, fun h => absurd (h1.mp rfl) h⟩
  have wrap : ∀ o : Option Bool, ∀ good : Bool, o = some good →
      (match o with
        | none => none
        | some true => some (false, mul N x y)
        | some false => some (true, x)) = some (if good then (false, mul N x y) else (true, x)) := by
    rintro _ good rfl
    cases good <;> rfl
  have e1 : (2 : Int) ^ N = ((2 ^ N : Nat) : Int) := by push_cast; rfl
  unfold mulOverflow
  simp only
  rw [representable_iff]
  have hx' := hx
  have hy' := hy
  unfold Valid at hx' hy'
  cases hsx : x.sign <;> cases hsy : y.sign <;> simp only [Bool.not_false, Bool.not_true, if_true,
    Bool.false_eq_true, if_false]
  · -- Both non-negative
    rw [num_false hsx, num_false hsy]
    refine ⟨decide (x.value * y.value < 2 ^ N), ?_, wrap _ _ ?_⟩
    · rw [decide_eq_true_iff]
      rw [← Nat.cast_mul]; omega
    · split
      · rename_i h; rw [h]; simp
      · rename_i h
        unfold udiv
        rw [if_neg h, hmax]
        simp only [Option.some.injEq, decide_eq_decide]
        rw [Nat.le_div_iff_mul_le (by omega)]; omega
  · -- Non-negative and negative
    obtain ⟨h1, h2⟩ := unot_num hy hsy
    rw [num_false hsx, h1]
    generalize unot N y.value = b at *
    refine ⟨decide (x.value * (b + 1) ≤ 2 ^ N), ?_, wrap _ _ ?_⟩
    · rw [decide_eq_true_iff]
      rw [mul_neg, ← Nat.cast_succ, ← Nat.cast_mul, Nat.succ_eq_add_one]; omega
    · split
      · rename_i h; rw [h]; simp
      · rename_i h
        have u1 : usub N x.value 1 = x.value - 1 := by
          rw [usub_eq hx' hW, if_pos (by omega)]
        have u2 : usub N (umax N) (x.value - 1) = 2 ^ N - 1 - (x.value - 1) := by
          rw [usub_eq (by omega) (by omega), if_pos (by omega), hmax]
        rw [u1, u2]
        unfold udiv
        rw [if_neg h]
        simp only [Option.some.injEq, decide_eq_decide]
        exact prod_bound (by omega) hx'
  · -- Negative and non-negative
    obtain ⟨h1, h2⟩ := unot_num hx hsx
    rw [num_false hsy, h1]
    generalize unot N x.value = b at *
    refine ⟨decide (y.value * (b + 1) ≤ 2 ^ N), ?_, wrap _ _ ?_⟩
    · rw [decide_eq_true_iff]
      rw [neg_mul, ← Nat.cast_succ, ← Nat.cast_mul, Nat.succ_eq_add_one, mul_comm y.value]; omega
    · split
      · rename_i h; rw [h]; simp
      · rename_i h
        have u1 : usub N y.value 1 = y.value - 1 := by
          rw [usub_eq hy' hW, if_pos (by omega)]
        have u2 : usub N (umax N) (y.value - 1) = 2 ^ N - 1 - (y.value - 1) := by
          rw [usub_eq (by omega) (by omega), if_pos (by omega), hmax]
        rw [u1, u2]
        unfold udiv
        rw [if_neg h]
        simp only [Option.some.injEq, decide_eq_decide]
        exact prod_bound (by omega) hy'
  · -- Both negative
    obtain ⟨h1, h2⟩ := unot_num hx hsx
    obtain ⟨g1, g2⟩ := unot_num hy hsy
    rw [h1, g1]
    have hz : x.value ≠ 0 ↔ unot N x.value + 1 < 2 ^ N := by unfold unot; omega
    have hprod : -((unot N x.value : Nat) + 1 : Int) * -((unot N y.value : Nat) + 1 : Int) =
        (((unot N x.value + 1) * (unot N y.value + 1) : Nat) : Int) := by push_cast; ring
    rw [hprod]
    generalize unot N x.value = a at *
    generalize unot N y.value = b at *
    refine ⟨decide ((a + 1) * (b + 1) < 2 ^ N), ?_, wrap _ _ ?_⟩
    · rw [decide_eq_true_iff]; omega
    · have u1 : usub N (umax N) 1 = 2 ^ N - 2 := by
        rw [usub_eq (by omega) hW, if_pos (by omega), hmax]; omega
      rw [u1]
      by_cases hb : b = 0
      · rw [if_neg (by simpa using hb), hb]
        simp only [Option.some.injEq, decide_eq_decide]
        rw [hz]; simp
      · rw [if_pos hb]
        have hexp : (a + 1) * (b + 1) = a * b + a + b + 1 := by ring
        rw [hexp]
        have hnn : 0 ≤ a * b := Nat.zero_le _
        by_cases h3 : a ≤ 2 ^ N - 2
        · rw [if_pos h3]
          have u2 : usub N (2 ^ N - 2) a = 2 ^ N - 2 - a := by
            rw [usub_eq (by omega) (by omega), if_pos h3]
          rw [u2]
          by_cases h4 : b ≤ 2 ^ N - 2 - a
          · rw [if_pos h4]
            have u3 : usub N (2 ^ N - 2 - a) b = 2 ^ N - 2 - a - b := by
              rw [usub_eq (by omega) (by omega), if_pos h4]
            rw [u3]
            unfold udiv
            rw [if_neg hb]
            simp only [Option.some.injEq, decide_eq_decide]
            rw [Nat.le_div_iff_mul_le (by omega)]; omega
          · rw [if_neg h4]
            simp only [Option.some.injEq]
            rw [eq_comm, decide_eq_false_iff_not]; omega
        · rw [if_neg h3]
          simp only [Option.some.injEq]
          rw [eq_comm, decide_eq_false_iff_not]; omega

/-! ### Division -/

theorem negate_eq {N v : Nat} (h : 0 < v) (hv : v < 2 ^ N) : uadd N (unot N v) 1 = 2 ^ N - v := by
  unfold uadd unot
  rw [Nat.mod_eq_of_lt (by omega)]; omega

theorem negate_zero (N : Nat) : uadd N (unot N 0) 1 = 0 := by
  have := pow_pos' N
  unfold uadd unot
  rw [show 2 ^ N - 1 - 0 + 1 = 2 ^ N by omega, Nat.mod_self]

theorem negated_num {N q : Nat} (hq : q < 2 ^ N) :
    Valid N ⟨uadd N (unot N q) 1, decide (q > 0)⟩ ∧
    (SuperInt.num N ⟨uadd N (unot N q) 1, decide (q > 0)⟩) = -(q : Int) := by
  rcases Nat.eq_zero_or_pos q with h | h
  · subst h
    rw [negate_zero]
    exact ⟨pow_pos' N, by rw [num_false (by simp)]; simp⟩
  · rw [negate_eq h hq]
    refine ⟨by unfold Valid; simp only; omega, ?_⟩
    rw [num_true (by simpa using h)]
    simp only; omega

theorem maxQuot_eq {N b : Nat} (hb : 0 < b) (hbW : b < 2 ^ N) :
    maxQuot N b = some (if b = 1 then none else some (2 ^ N / b)) := by
  unfold maxQuot udiv
  rw [if_neg (by omega)]
  simp only
  have hmax : umax N = 2 ^ N - 1 := rfl
  have hd := Nat.div_add_mod (umax N) b
  have hr := Nat.mod_lt (umax N) hb
  have hm : umul N (umax N / b) b = umax N - umax N % b := by
    unfold umul
    rw [Nat.mod_eq_of_lt (by rw [mul_comm]; omega), mul_comm]; omega
  have u1 : usub N (umax N) (umax N - umax N % b) = umax N % b := by
    have := Nat.mod_le (umax N) b
    rw [usub_eq (by omega) (by omega), if_pos (by omega)]; omega
  have u2 : usub N b 1 = b - 1 := by
    rw [usub_eq hbW (by omega), if_pos (by omega)]
  rw [hm, u1, u2]
  by_cases h : umax N % b ≥ b - 1
  · rw [if_pos h]
    have hW : 2 ^ N = b * (umax N / b + 1) := by rw [mul_add, mul_one]; omega
    have hq : 2 ^ N / b = umax N / b + 1 := by
      conv_lhs => rw [hW]
      exact Nat.mul_div_cancel_left _ hb
    by_cases h1 : b = 1
    · subst h1
      rw [if_pos (by simp), if_pos rfl]
    · have h2 : b * (umax N / b) ≥ 2 * (umax N / b) := Nat.mul_le_mul_right _ (by omega)
      have h3 : umax N / b ≠ umax N := by
        intro he
        omega
      rw [if_neg h3, if_neg h1, hq]
      have h4 : umax N / b ≤ umax N := Nat.div_le_self _ _
      unfold uadd
      rw [Nat.mod_eq_of_lt (by omega)]
  · rw [if_neg h]
    have h1 : b ≠ 1 := by rintro rfl; exact h (by omega)
    rw [if_neg h1]
    have : 2 ^ N / b = umax N / b := by
      have hW : 2 ^ N = (umax N % b + 1) + b * (umax N / b) := by omega
      conv_lhs => rw [hW]
      rw [Nat.add_mul_div_left _ _ hb, Nat.div_eq_of_lt (by omega), zero_add]
    rw [this]

/-- The outcome of division by something other than zero. -/
theorem divOverflow_spec {N : Nat} (hN : 0 < N) {a b : SuperInt} (ha : Valid N a) (hb : Valid N b)
    (h0 : b.num N ≠ 0) :
    (∃ q, divOverflow N a b = some (false, q) ∧ Valid N q ∧ q.num N = (a.num N).tdiv (b.num N)) ∨
    (divOverflow N a b = some (true, a) ∧ a = min ∧ b.num N = -1) := by
  have hW : 1 < 2 ^ N := Nat.one_lt_two_pow (by omega)
  have ha' := ha
  have hb' := hb
  unfold Valid at ha' hb'
  unfold divOverflow
  cases hsa : a.sign <;> cases hsb : b.sign <;> simp only [Bool.not_false, Bool.not_true, if_true,
    Bool.false_eq_true, if_false]
  · left
    rw [num_false hsb] at h0 ⊢
    rw [num_false hsa]
    unfold udiv
    rw [if_neg (by omega)]
    refine ⟨_, rfl, ?_, ?_⟩
    · exact lt_of_le_of_lt (Nat.div_le_self _ _) ha'
    · rw [num_false rfl]; simp
  · left
    rw [num_true hsb, num_false hsa]
    by_cases hp : b.value > 0
    · rw [if_pos hp, negate_eq hp hb']
      unfold udiv
      rw [if_neg (by omega)]
      have hlt : a.value / (2 ^ N - b.value) < 2 ^ N := lt_of_le_of_lt (Nat.div_le_self _ _) ha'
      refine ⟨_, rfl, (negated_num hlt).1, ?_⟩
      rw [(negated_num hlt).2, show (b.value : Int) - (2 ^ N : Nat) = -((2 ^ N - b.value : Nat) : Int) by omega,
        Int.tdiv_neg, ← Int.ofNat_tdiv]
    · rw [if_neg hp]
      refine ⟨_, rfl, by unfold Valid; simp only; omega, ?_⟩
      rw [num_false rfl, show (b.value : Int) - (2 ^ N : Nat) = -((2 ^ N : Nat) : Int) by omega,
        Int.tdiv_neg, ← Int.ofNat_tdiv, Nat.div_eq_of_lt ha']
      rfl
  · left
    rw [num_false hsb] at h0 ⊢
    rw [num_true hsa]
    by_cases hp : a.value > 0
    · rw [if_pos hp, negate_eq hp ha']
      unfold udiv
      rw [if_neg (by omega)]
      have hlt : (2 ^ N - a.value) / b.value < 2 ^ N := lt_of_le_of_lt (Nat.div_le_self _ _) (by omega)
      refine ⟨_, rfl, (negated_num hlt).1, ?_⟩
      rw [(negated_num hlt).2, show (a.value : Int) - (2 ^ N : Nat) = -((2 ^ N - a.value : Nat) : Int) by omega,
        Int.neg_tdiv, ← Int.ofNat_tdiv]
    · rw [if_neg hp, maxQuot_eq (by omega) hb']
      have he : (a.value : Int) - (2 ^ N : Nat) = -((2 ^ N : Nat) : Int) := by omega
      rw [he, Int.neg_tdiv, ← Int.ofNat_tdiv]
      by_cases h1 : b.value = 1
      · rw [if_pos h1, h1]
        simp only
        refine ⟨_, rfl, ha, ?_⟩
        rw [num_true rfl, Nat.div_one]
        simp only; omega
      · rw [if_neg h1]
        have hlt : 2 ^ N / b.value < 2 ^ N := Nat.div_lt_self (by omega) (by omega)
        exact ⟨_, rfl, (negated_num hlt).1, (negated_num hlt).2⟩
  · rw [num_true hsb] at h0 ⊢
    rw [num_true hsa]
    by_cases hp : a.value > 0
    · left
      rw [if_pos hp]
      by_cases hq : b.value > 0
      · rw [if_pos hq, negate_eq hp ha', negate_eq hq hb']
        unfold udiv
        rw [if_neg (by omega)]
        refine ⟨_, rfl, lt_of_le_of_lt (Nat.div_le_self _ _) (by omega), ?_⟩
        rw [num_false rfl, show (a.value : Int) - (2 ^ N : Nat) = -((2 ^ N - a.value : Nat) : Int) by omega,
          show (b.value : Int) - (2 ^ N : Nat) = -((2 ^ N - b.value : Nat) : Int) by omega, Int.neg_tdiv,
          Int.tdiv_neg, neg_neg, ← Int.ofNat_tdiv]
      · rw [if_neg hq]
        refine ⟨_, rfl, by unfold Valid; simp only; omega, ?_⟩
        rw [num_false rfl, show (a.value : Int) - (2 ^ N : Nat) = -((2 ^ N - a.value : Nat) : Int) by omega,
          show (b.value : Int) - (2 ^ N : Nat) = -((2 ^ N : Nat) : Int) by omega, Int.neg_tdiv,
          Int.tdiv_neg, neg_neg, ← Int.ofNat_tdiv, Nat.div_eq_of_lt (by omega)]
    · rw [if_neg hp]
      have he : (a.value : Int) - (2 ^ N : Nat) = -((2 ^ N : Nat) : Int) := by omega
      by_cases hq : b.value > 0
      · rw [if_pos hq, negate_eq hq hb', maxQuot_eq (by omega) (by omega)]
        by_cases h1 : 2 ^ N - b.value = 1
        · right
          rw [if_pos h1]
          refine ⟨rfl, ?_, by omega⟩
          obtain ⟨v, s⟩ := a
          simp only at hsa hp
          rw [hsa, show v = 0 by omega]; rfl
        · left
          rw [if_neg h1]
          have hlt : 2 ^ N / (2 ^ N - b.value) < 2 ^ N := Nat.div_lt_self (by omega) (by omega)
          refine ⟨_, rfl, hlt, ?_⟩
          rw [num_false rfl, he, show (b.value : Int) - (2 ^ N : Nat) = -((2 ^ N - b.value : Nat) : Int) by omega,
            Int.neg_tdiv, Int.tdiv_neg, neg_neg, ← Int.ofNat_tdiv]
      · left
        rw [if_neg hq]
        refine ⟨_, rfl, hW, ?_⟩
        rw [num_false rfl, he, show (b.value : Int) - (2 ^ N : Nat) = -((2 ^ N : Nat) : Int) by omega,
          Int.neg_tdiv, Int.tdiv_neg, neg_neg, ← Int.ofNat_tdiv, Nat.div_self (by omega)]

theorem divOverflow_zero {N : Nat} {a b : SuperInt} (hb : Valid N b) (h0 : b.num N = 0) :
    divOverflow N a b = none := by
  unfold Valid at hb
  have hs : b.sign = false ∧ b.value = 0 := by
    cases hs : b.sign
    · rw [num_false hs] at h0; exact ⟨rfl, by omega⟩
    · rw [num_true hs] at h0; omega
  unfold divOverflow maxQuot udiv
  rw [hs.1, hs.2]
  cases a.sign <;> simp

theorem quotRem_tdiv {x y : Int} (hy : y ≠ 0) : IsQuotRem x y (x.tdiv y) (x.tmod y) := by
  refine ⟨?_, ?_, ?_⟩
  · have := Int.mul_tdiv_add_tmod x y; rw [mul_comm]; omega
  · rw [Int.natAbs_tmod]; exact Nat.mod_lt _ (by omega)
  · rcases le_or_gt 0 x with h | h
    · exact mul_nonneg h (Int.tmod_nonneg _ h)
    · have h1 : 0 ≤ (-x).tmod y := Int.tmod_nonneg _ (by omega)
      rw [Int.neg_tmod] at h1
      have := mul_nonneg (show (0 : Int) ≤ -x by omega) h1
      rw [neg_mul_neg] at this; exact this

/-! ### Conversion -/

theorem ofInt_spec {N : Nat} {T : Integer.Ty} (hT : T.bits ≤ N) {v : Int} (hv : T.In v) :
    Valid N (ofInt N T v) ∧ (ofInt N T v).num N = v := by
  have hle : (2 : Int) ^ T.bits ≤ 2 ^ N := pow_le_pow_right₀ (by norm_num) hT
  have hpos : (0 : Int) < 2 ^ N := by positivity
  have h1 : 0 ≤ v % 2 ^ N := Int.emod_nonneg _ (by omega)
  have h2 : v % 2 ^ N < 2 ^ N := Int.emod_lt_of_pos _ hpos
  have hvalid : Valid N (ofInt N T v) := by
    unfold Valid ofInt
    simp only
    have : ((2 ^ N : Nat) : Int) = 2 ^ N := by push_cast; rfl
    omega
  refine ⟨hvalid, ?_⟩
  unfold Integer.Ty.In Integer.Ty.min Integer.Ty.max at hv
  unfold SuperInt.num number ofInt
  simp only
  rw [Int.toNat_of_nonneg h1]
  by_cases hs : T.signed = true
  · rw [if_pos hs] at hv ⊢
    by_cases hn : v < 0
    · rw [decide_eq_true hn, if_pos rfl, ← Int.add_emod_right, Int.emod_eq_of_lt (by omega) (by omega)]; omega
    · rw [decide_eq_false hn, if_neg (by simp), Int.emod_eq_of_lt (by omega) (by omega)]; omega
  · rw [if_neg hs] at hv ⊢
    rw [if_neg (by simp), Int.emod_eq_of_lt (by omega) (by omega)]; omega

theorem castHasOverflow_spec {N : Nat} {T : Integer.Ty} (hT : T.bits ≤ N) {a : SuperInt} (ha : Valid N a) :
    castHasOverflow N T a = true ↔ ¬ T.In (a.num N) := by
  obtain ⟨h1, h2⟩ := ofInt_spec hT (Integer.In_min T)
  obtain ⟨g1, g2⟩ := ofInt_spec hT (Integer.In_max T)
  have e1 := lt_iff ha h1
  have e2 := lt_iff g1 ha
  rw [h2] at e1
  rw [g2] at e2
  unfold castHasOverflow gt Integer.Ty.In
  split
  · rename_i h; have := e1.mp h; simp; omega
  · rename_i h
    rw [e1] at h
    split
    · rename_i h'; have := e2.mp h'; simp; omega
    · rename_i h'; rw [e2] at h'; simp; omega

theorem getAs_spec {N I : Nat} {T : Integer.Ty} (hT : T.bits ≤ N) {a : SuperInt} (ha : Valid N a) :
    getAs N I T a = some (if T.In (a.num N) then some (a.num N) else none) := by
  unfold getAs
  by_cases hc : castHasOverflow N T a = true
  · rw [if_pos hc, if_neg ((castHasOverflow_spec hT ha).mp hc)]
  · have hin : T.In (a.num N) := by
      by_contra h; exact hc ((castHasOverflow_spec hT ha).mpr h)
    rw [if_neg hc, if_pos hin]
    cases hs : a.sign
    · rw [if_neg (by simp)]
      rw [num_false hs] at hin ⊢
      rw [Integer.cast_id hin]
    · rw [if_pos rfl]
      obtain ⟨h1, h2⟩ := unot_num ha hs
      have hu : (unot N a.value : Int) = -1 - a.num N := by omega
      have hsign : T.signed = true := by
        by_contra h
        unfold Integer.Ty.In Integer.Ty.min at hin
        rw [if_neg h] at hin; omega
      obtain ⟨s, b⟩ := T
      simp only at hsign hT
      subst hsign
      rw [Integer.In_s] at hin
      have hp : ∃ p, Integer.promote I ⟨true, b⟩ = ⟨true, p⟩ ∧ b ≤ p ∧ (p ≤ I → p = I) := by
        unfold Integer.promote
        split
        · rename_i h; exact ⟨I, rfl, h, fun _ => rfl⟩
        · rename_i h; exact ⟨b, rfl, le_refl _, fun h' => absurd h' h⟩
      obtain ⟨p, hp1, hp2, hp3⟩ := hp
      have hle : (2 : Int) ^ b ≤ 2 ^ p := pow_le_pow_right₀ (by norm_num) hp2
      simp only [hp1]
      rw [hu, Integer.cast_id (by rw [Integer.In_s]; omega), show -1 - (-1 - a.num N) = a.num N by ring]
      have : Integer.arith I ⟨true, p⟩ (a.num N) = some (a.num N) := Integer.arith_s (by omega) (by omega)
      rw [this]
      simp only
      rw [Integer.cast_id (by rw [Integer.In_s]; exact hin)]

/-! ### Bits -/

theorem testBit_num {N : Nat} {a : SuperInt} (ha : Valid N a) (i : Nat) :
    (a.num N).testBit i = if i < N then a.value.testBit i else a.sign := by
  unfold Valid at ha
  cases hs : a.sign
  · rw [num_false hs]
    show a.value.testBit i = _
    split
    · rfl
    · rename_i h
      exact Nat.testBit_lt_two_pow (lt_of_lt_of_le ha (Nat.pow_le_pow_right (by decide) (by omega)))
  · obtain ⟨h1, h2⟩ := unot_num ha hs
    rw [h1, ← Int.negSucc_eq]
    show (!(unot N a.value).testBit i) = _
    unfold unot
    rw [show 2 ^ N - 1 - a.value = 2 ^ N - (a.value + 1) by omega, Nat.testBit_two_pow_sub_succ ha]
    by_cases h : i < N
    · simp [h]
    · simp [h]

theorem not_valid (N : Nat) (a : SuperInt) : Valid N (not N a) := by
  have := pow_pos' N
  unfold Valid not unot; simp only; omega

theorem and_valid {N : Nat} {a b : SuperInt} (ha : Valid N a) : Valid N (and a b) :=
  lt_of_le_of_lt Nat.and_le_left ha

theorem or_valid {N : Nat} {a b : SuperInt} (ha : Valid N a) (hb : Valid N b) : Valid N (or a b) :=
  Nat.or_lt_two_pow ha hb

theorem xor_valid {N : Nat} {a b : SuperInt} (ha : Valid N a) (hb : Valid N b) : Valid N (xor a b) :=
  Nat.xor_lt_two_pow ha hb

theorem shl_spec {N n : Nat} (h0 : 0 < n) (hn : n < N) {a : SuperInt} (ha : Valid N a) :
    ∃ r, shl N a n = some r ∧ Valid N r ∧ IsWrap N (a.num N * 2 ^ n) (r.num N) := by
  unfold shl ushl ushr
  rw [if_pos (by omega), if_pos (by omega), if_pos (by omega)]
  simp only
  have e1 : ((N : Int) - n).toNat = N - n := by omega
  rw [e1, Int.toNat_natCast]
  have hvalid : Valid N ⟨a.value * 2 ^ n % 2 ^ N, decide (a.value / 2 ^ (N - n) % 2 ≠ 0)⟩ :=
    Nat.mod_lt _ (pow_pos' N)
  refine ⟨_, rfl, hvalid, wrap_of_rep hvalid ?_⟩
  have hNn : 2 ^ N = 2 ^ (N - n) * 2 ^ n := by rw [← pow_add]; congr 1; omega
  have hrep : SuperInt.rep N ⟨a.value * 2 ^ n % 2 ^ N, decide (a.value / 2 ^ (N - n) % 2 ≠ 0)⟩ =
      (a.value * 2 ^ n) % 2 ^ (N + 1) := by
    unfold SuperInt.rep
    simp only
    have : a.value * 2 ^ n / 2 ^ N = a.value / 2 ^ (N - n) := by
      rw [hNn, Nat.mul_div_mul_right _ _ (pow_pos' n)]
    rw [pow_succ, Nat.mod_mul, this]
    rcases Nat.mod_two_eq_zero_or_one (a.value / 2 ^ (N - n)) with h | h <;> rw [h] <;> simp
  rw [hrep]
  have h3 := Nat.div_add_mod (a.value * 2 ^ n) (2 ^ (N + 1))
  have h3' : ((2 ^ (N + 1) * (a.value * 2 ^ n / 2 ^ (N + 1)) + a.value * 2 ^ n % 2 ^ (N + 1) : Nat) : Int) =
    (a.value * 2 ^ n : Nat) := congrArg _ h3
  push_cast at h3'
  obtain ⟨m, rfl⟩ : ∃ m, n = m + 1 := ⟨n - 1, by omega⟩
  cases hs : a.sign
  · refine ⟨-(a.value * 2 ^ (m + 1) / 2 ^ (N + 1)), ?_⟩
    rw [num_false hs]
    push_cast
    linear_combination h3'
  · refine ⟨-(a.value * 2 ^ (m + 1) / 2 ^ (N + 1)) + 2 ^ m, ?_⟩
    rw [num_true hs]
    push_cast
    linear_combination h3'

theorem shr_spec {N n : Nat} (h0 : 0 < n) (hn : n < N) {a : SuperInt} (ha : Valid N a) :
    ∃ r, shr N a n = some r ∧ Valid N r ∧ r.sign = false ∧ r.value = a.rep N / 2 ^ n := by
  unfold Valid at ha
  unfold shr ushl ushr
  rw [if_pos (by omega), if_pos (by omega), if_pos (by omega)]
  simp only
  have e1 : ((N : Int) - n).toNat = N - n := by omega
  rw [e1, Int.toNat_natCast]
  have hNn : 2 ^ N = 2 ^ (N - n) * 2 ^ n := by rw [← pow_add]; congr 1; omega
  have hlt : a.value / 2 ^ n < 2 ^ (N - n) := by
    rw [Nat.div_lt_iff_lt_mul (pow_pos' n), ← hNn]; exact ha
  have hle : 2 ^ (N - n) * 2 ≤ 2 ^ N := by
    rw [← pow_succ]; exact Nat.pow_le_pow_right (by decide) (by omega)
  have hp := pow_pos' (N - n)
  have hval : a.value / 2 ^ n ||| a.sign.toNat * 2 ^ (N - n) % 2 ^ N = a.rep N / 2 ^ n := by
    unfold SuperInt.rep
    cases a.sign
    · simp
    · simp only [Bool.toNat_true, one_mul]
      rw [Nat.mod_eq_of_lt (by omega), Nat.or_comm]
      have := Nat.two_pow_add_eq_or_of_lt hlt 1
      rw [mul_one] at this
      rw [← this]
      conv_rhs => rw [hNn]
      rw [Nat.add_mul_div_right _ _ (pow_pos' n)]; omega
  refine ⟨_, rfl, ?_, rfl, hval⟩
  unfold Valid
  simp only
  rw [hval]
  unfold SuperInt.rep
  rw [Nat.div_lt_iff_lt_mul (pow_pos' n)]
  have h2 : 2 * 2 ^ N ≤ 2 ^ N * 2 ^ n := by
    rw [mul_comm]
    apply Nat.mul_le_mul_left
    calc 2 = 2 ^ 1 := rfl
      _ ≤ 2 ^ n := Nat.pow_le_pow_right (by decide) h0
  cases a.sign <;> simp <;> omega

/-! ### Output -/

theorem splitNegative_spec {N v : Nat} (hv : v < 2 ^ N) :
    ∃ l : Nat, (splitNegative N v).2 = l ∧ l < 10 ∧ 10 * (splitNegative N v).1 + l = 2 ^ N - v ∧
      (splitNegative N v).1 < 2 ^ N := by
  have hmax : umax N = 2 ^ N - 1 := rfl
  unfold splitNegative
  simp only
  rw [hmax]
  have hW := pow_pos' N
  have key : ∀ (p : Int × Nat), p = (if ((((2 ^ N - 1) % 10 : Nat) : Int) + 1 = 10)
      then (0, uadd N ((2 ^ N - 1) / 10) 1) else ((((2 ^ N - 1) % 10 : Nat) : Int) + 1, (2 ^ N - 1) / 10)) →
      p = (((2 ^ N % 10 : Nat) : Int), 2 ^ N / 10) := by
    rintro p rfl
    split
    · rename_i h
      unfold uadd
      rw [Nat.mod_eq_of_lt (by omega)]
      ext <;> simp only <;> omega
    · rename_i h
      ext <;> simp only <;> omega
  rw [key _ rfl]
  simp only
  have hu : usub N (2 ^ N / 10) (v / 10) = 2 ^ N / 10 - v / 10 := by
    rw [usub_eq (by omega) (by omega), if_pos (by omega)]
  rw [hu]
  split
  · rename_i h
    have hu2 : usub N (2 ^ N / 10 - v / 10) 1 = 2 ^ N / 10 - v / 10 - 1 := by
      by_cases h1 : 1 < 2 ^ N
      · rw [usub_eq (by omega) h1, if_pos (by omega)]
      · omega
    simp only [hu2]
    exact ⟨2 ^ N % 10 + 10 - v % 10, by omega, by omega, by omega, by omega⟩
  · rename_i h
    exact ⟨2 ^ N % 10 - v % 10, by omega, by omega, by omega, by omega⟩

theorem numeral_nat (n : Nat) (h : 0 < n) :
    IntText.Spec.numeral false 10 1 (n : Int) = (Nat.digits 10 n).reverse.map (IntText.Spec.digitChar false) := by
  unfold IntText.Spec.numeral IntText.Spec.digits
  rw [if_neg (by omega), Int.natAbs_natCast]
  have : 1 - (Nat.digits 10 n).length = 0 := by
    rw [IntText.digits_len (by decide) (by omega)]; omega
  rw [this]; rfl

theorem numeral_digit (l : Nat) (h : l < 10) :
    IntText.Spec.numeral false 10 1 (l : Int) = [IntText.Spec.digitChar false l] := by
  rcases Nat.eq_zero_or_pos l with h0 | h0
  · subst h0; decide +kernel
  · rw [numeral_nat l h0, Nat.digits_of_lt 10 l (by omega) h]; rfl

theorem numeral_split {o l : Nat} (hl : l < 10) (h : 0 < 10 * o + l) :
    IntText.Spec.numeral false 10 1 (-((10 * o + l : Nat) : Int)) =
      [45] ++ (if o > 0 then IntText.Spec.numeral false 10 1 (o : Int) else []) ++
        IntText.Spec.numeral false 10 1 (l : Int) := by
  have h1 : IntText.Spec.numeral false 10 1 (-((10 * o + l : Nat) : Int)) =
      [45] ++ IntText.Spec.numeral false 10 1 ((10 * o + l : Nat) : Int) := by
    unfold IntText.Spec.numeral
    rw [if_pos (by omega), if_neg (by omega), Int.natAbs_neg]; rfl
  rw [h1, numeral_nat _ h, numeral_digit l hl]
  by_cases ho : o > 0
  · rw [if_pos ho, numeral_nat o ho, Nat.add_comm, Nat.digits_add 10 (by decide) l o hl (Or.inr (by omega))]
    simp
  · have : o = 0 := by omega
    subst this
    rw [if_neg ho, Nat.mul_zero, Nat.zero_add, Nat.digits_of_lt 10 l (by omega) hl]
    simp

end Verif.SuperInt
