import Verif.MulPrec.Div
/-!
Long division.
-/
namespace Verif.MulPrec
open Verif.Integer

/-! ### Estimation of a digit -/

theorem testEstimate_eq {I w q r v2 u2 : Nat} (hp : I ≠ w) (hr : r < 2 ^ subw w) (hv : v2 < 2 ^ subw w)
    (hu : u2 < 2 ^ subw w) :
    testEstimate I w (2 ^ subw w) q r v2 u2 = some (decide (q < 2 ^ subw w ∧ q * v2 ≤ 2 ^ subw w * r + u2)) := by
  have hsq := sq_le (w := w)
  unfold testEstimate
  by_cases hq : q < 2 ^ subw w
  · have h1 : q * v2 < 2 ^ w := by
      have : q * v2 ≤ 2 ^ subw w * v2 := Nat.mul_le_mul_right _ (by omega)
      have : 2 ^ subw w * v2 < 2 ^ subw w * 2 ^ subw w := Nat.mul_lt_mul_of_pos_left hv (two_pos _)
      omega
    have h2 : 2 ^ subw w * (r + 1) ≤ 2 ^ subw w * 2 ^ subw w := Nat.mul_le_mul_left _ hr
    rw [Nat.mul_add, Nat.mul_one] at h2
    rw [if_pos hq, ← Int.natCast_mul, ← Int.natCast_mul, arith_nat hp h1, arith_nat hp (by omega)]
    simp only [Option.bind_eq_bind, Option.bind_some]
    rw [arith_P, ← Int.natCast_add, arith_nat hp (by omega)]
    simp only [Option.bind_some, Option.some.injEq, decide_eq_decide, Int.ofNat_le, hq, true_and]
  · rw [if_neg hq]; simp [hq]

/-- Whether an estimate is small enough for the leading digits. -/
theorem ok_iff {B e q r v1 v2 u2 : Nat} (h : e = q * v1 + r) :
    q * v2 ≤ B * r + u2 ↔ q * (v1 * B + v2) ≤ e * B + u2 := by
  subst h
  have e1 : q * (v1 * B + v2) = q * v1 * B + q * v2 := by ring
  have e2 : (q * v1 + r) * B + u2 = q * v1 * B + (B * r + u2) := by ring
  rw [e1, e2]; omega

/-- An estimate is small enough if the corresponding remainder is large. -/
theorem ok_of_large {B q r v2 u2 : Nat} (hq : q < B) (hv : v2 < B) (hr : B ≤ r) : q * v2 ≤ B * r + u2 := by
  have h1 : q * v2 ≤ B * B := Nat.mul_le_mul (by omega) (by omega)
  have h2 : B * B ≤ B * r := Nat.mul_le_mul_left _ hr
  omega

theorem estimate_spec {I w u0 u1 u2 v1 v2 : Nat} (hp : I ≠ w) (hI : 1 ≤ I) (hw : 2 ≤ w) (h0 : u0 < 2 ^ subw w)
    (h1 : u1 < 2 ^ subw w) (h2 : u2 < 2 ^ subw w) (hv1 : v1 < 2 ^ subw w) (hv2 : v2 < 2 ^ subw w)
    (hn : 2 ^ subw w ≤ 2 * v1) (hle : u0 ≤ v1) :
    ∃ qh, estimate I w u0 u1 u2 v1 v2 = some qh ∧ qh < 2 ^ subw w ∧
      qh * (v1 * 2 ^ subw w + v2) ≤ (u0 * 2 ^ subw w + u1) * 2 ^ subw w + u2 ∧
      ∀ q < 2 ^ subw w, q * (v1 * 2 ^ subw w + v2) ≤ (u0 * 2 ^ subw w + u1) * 2 ^ subw w + u2 → q ≤ qh := by
  have hsq := sq_le (w := w)
  have hB2 : 2 ≤ 2 ^ subw w := Nat.pow_le_pow_right (n := 2) (by omega) (subw_pos hw)
  have hBB : 2 * 2 ^ subw w ≤ 2 ^ subw w * 2 ^ subw w := Nat.mul_le_mul_right _ hB2
  obtain ⟨z, z1, z2, z3⟩ := join_eq hp hw h0 h1
  have hv0 : 0 < v1 := by omega
  have hbase : toT w ((2 ^ subw w - 1 : Nat) + 1 : Int) = 2 ^ subw w := by
    rw [show (((2 ^ subw w - 1 : Nat) : Int) + 1) = ((2 ^ subw w : Nat) : Int) by omega, toT_nat (by omega)]
  have harb : arith I (T w) ((2 ^ subw w - 1 : Nat) + 1 : Int) = some ((2 ^ subw w - 1 : Nat) + 1 : Int) := by
    rw [show (((2 ^ subw w - 1 : Nat) : Int) + 1) = ((2 ^ subw w : Nat) : Int) by omega, arith_nat hp (by omega)]
  have hdm := Nat.div_add_mod (u0 * 2 ^ subw w + u1) v1
  have hr0 := Nat.mod_lt (u0 * 2 ^ subw w + u1) hv0
  have hqw : (u0 * 2 ^ subw w + u1) / v1 < 2 ^ w := Nat.lt_of_le_of_lt (Nat.div_le_self _ _) z3
  have hq0 : (u0 * 2 ^ subw w + u1) / v1 < 2 ^ subw w + 2 := by
    apply Nat.div_lt_of_lt_mul
    have : u0 * 2 ^ subw w ≤ v1 * 2 ^ subw w := Nat.mul_le_mul_right _ hle
    rw [Nat.mul_add]; omega
  have hupper : ∀ q, q * (v1 * 2 ^ subw w + v2) ≤ (u0 * 2 ^ subw w + u1) * 2 ^ subw w + u2 →
      q ≤ (u0 * 2 ^ subw w + u1) / v1 := by
    intro q hq
    rw [Nat.le_div_iff_mul_le hv0]
    apply Nat.le_of_lt_succ
    apply Nat.lt_of_mul_lt_mul_right (a := 2 ^ subw w)
    have e1 : q * (v1 * 2 ^ subw w + v2) = q * v1 * 2 ^ subw w + q * v2 := by ring
    rw [Nat.succ_mul]; omega
  simp only [estimate, z1, z2, divOp_nat hp z3 hv0, modOp_nat hp z3 hv0, toT_nat hqw,
    toT_nat (show (u0 * 2 ^ subw w + u1) % v1 < 2 ^ w by omega), mask_eq hI hw, harb, hbase, Option.bind_eq_bind,
    Option.bind_some, testEstimate_eq hp (show (u0 * 2 ^ subw w + u1) % v1 < 2 ^ subw w by omega) hv2 h2]
  generalize hq' : (u0 * 2 ^ subw w + u1) / v1 = q0 at *
  generalize hr' : (u0 * 2 ^ subw w + u1) % v1 = r0 at *
  have he0 : u0 * 2 ^ subw w + u1 = q0 * v1 + r0 := by rw [Nat.mul_comm q0]; omega
  have hmx : u0 * 2 ^ subw w + u1 ≤ v1 * 2 ^ subw w + (2 ^ subw w - 1) := by
    have : u0 * 2 ^ subw w ≤ v1 * 2 ^ subw w := Nat.mul_le_mul_right _ hle
    omega
  by_cases ht : q0 < 2 ^ subw w ∧ q0 * v2 ≤ 2 ^ subw w * r0 + u2
  · rw [decide_eq_true ht, if_pos rfl]
    exact ⟨q0, rfl, ht.1, (ok_iff he0).1 ht.2, fun q _ hq => hupper q hq⟩
  · rw [decide_eq_false ht, if_neg (by simp)]
    have hpos : 1 ≤ q0 := by
      by_contra h
      have : q0 = 0 := by omega
      subst this
      exact ht ⟨by omega, by omega⟩
    have hupper1 : ∀ q < 2 ^ subw w, q * (v1 * 2 ^ subw w + v2) ≤ (u0 * 2 ^ subw w + u1) * 2 ^ subw w + u2 → q ≤ q0 - 1 := by
      intro q hq hok
      have := hupper q hok
      by_contra h
      have : q = q0 := by omega
      subst this
      exact ht ⟨hq, (ok_iff he0).2 hok⟩
    have e1 : ((q0 : Int) - 1) = ((q0 - 1 : Nat) : Int) := by omega
    rw [e1, arith_nat hp (by omega), ← Int.natCast_add, arith_nat hp (by omega)]
    simp only [Option.bind_some, toT_nat (show q0 - 1 < 2 ^ w by omega), toT_nat (show r0 + v1 < 2 ^ w by omega)]
    have he1 : u0 * 2 ^ subw w + u1 = (q0 - 1) * v1 + (r0 + v1) := by
      rw [he0, Nat.sub_mul, Nat.one_mul]
      have : 1 * v1 ≤ q0 * v1 := Nat.mul_le_mul_right _ hpos
      omega
    by_cases hrb : r0 + v1 ≥ 2 ^ subw w
    · rw [if_pos hrb]
      have hq1 : q0 - 1 < 2 ^ subw w := by
        by_contra h
        have : (2 ^ subw w) * v1 ≤ (q0 - 1) * v1 := Nat.mul_le_mul_right _ (by omega)
        rw [Nat.mul_comm] at this
        omega
      exact ⟨q0 - 1, rfl, hq1, (ok_iff he1).1 (ok_of_large hq1 hv2 hrb), hupper1⟩
    · rw [if_neg hrb, testEstimate_eq hp (by omega) hv2 h2]
      simp only [Option.bind_some]
      by_cases ht1 : q0 - 1 < 2 ^ subw w ∧ (q0 - 1) * v2 ≤ 2 ^ subw w * (r0 + v1) + u2
      · rw [decide_eq_true ht1, if_pos rfl]
        exact ⟨q0 - 1, rfl, ht1.1, (ok_iff he1).1 ht1.2, hupper1⟩
      · rw [decide_eq_false ht1, if_neg (by simp)]
        have hpos1 : 1 ≤ q0 - 1 := by
          by_contra h
          have : q0 - 1 = 0 := by omega
          rw [this] at ht1
          exact ht1 ⟨by omega, by omega⟩
        have e2 : (((q0 - 1 : Nat) : Int) - 1) = ((q0 - 2 : Nat) : Int) := by omega
        rw [e2, arith_nat hp (by omega)]
        simp only [Option.bind_some, toT_nat (show q0 - 2 < 2 ^ w by omega)]
        have he2 : u0 * 2 ^ subw w + u1 = (q0 - 2) * v1 + (r0 + v1 + v1) := by
          rw [he0, Nat.sub_mul]
          have : 2 * v1 ≤ q0 * v1 := Nat.mul_le_mul_right _ (by omega)
          omega
        refine ⟨q0 - 2, rfl, by omega, (ok_iff he2).1 (ok_of_large (by omega) hv2 (by omega)), fun q hq hok => ?_⟩
        have := hupper1 q hq hok
        by_contra h
        have : q = q0 - 1 := by omega
        subst this
        exact ht1 ⟨hq, (ok_iff he1).2 hok⟩

/-- The estimate is the digit or one more. -/
theorem estimate_close {B m L Lv W3 vv q qh : Nat} (hL : L < B ^ m) (hLv : Lv < B ^ m) (hB : 0 < B)
    (hvv : B ≤ vv) (hqh : qh < B) (hok : qh * vv ≤ W3) (hmax : ∀ q < B, q * vv ≤ W3 → q ≤ qh) (hq : q < B)
    (h1 : q * (Lv + B ^ m * vv) ≤ L + B ^ m * W3) (h2 : L + B ^ m * W3 < (q + 1) * (Lv + B ^ m * vv)) :
    q ≤ qh ∧ qh ≤ q + 1 := by
  have hp : 0 < B ^ m := Nat.pow_pos hB
  constructor
  · apply hmax q hq
    apply Nat.le_of_lt_succ
    apply Nat.lt_of_mul_lt_mul_left (a := B ^ m)
    have e1 : q * (Lv + B ^ m * vv) = q * Lv + B ^ m * (q * vv) := by ring
    rw [Nat.mul_succ]
    omega
  · apply Nat.le_of_lt_succ
    by_contra h
    have h3 : (q + 2) * (Lv + B ^ m * vv) ≤ qh * (Lv + B ^ m * vv) := Nat.mul_le_mul_right _ (by omega)
    have e1 : (q + 2) * (Lv + B ^ m * vv) = (q + 1) * (Lv + B ^ m * vv) + (Lv + B ^ m * vv) := by ring
    have e2 : qh * (Lv + B ^ m * vv) = qh * Lv + B ^ m * (qh * vv) := by ring
    have h4 : qh * Lv ≤ B * B ^ m := Nat.mul_le_mul (by omega) (by omega)
    have h5 : B ^ m * (qh * vv) ≤ B ^ m * W3 := Nat.mul_le_mul_left _ hok
    have h6 : B ^ m * B ≤ B ^ m * vv := Nat.mul_le_mul_left _ hvv
    rw [Nat.mul_comm] at h6
    omega

/-! ### Multiply and subtract -/

theorem mulDigit_spec {I w N n qh : Nat} (hp : I ≠ w) (hI : 1 ≤ I) (hw : 2 ≤ w) {v : List Nat}
    (hv : D (2 ^ subw w) (nsub w N) v) (hn : n ≤ nsub w N) (hq : qh < 2 ^ subw w) :
    ∃ ws, mulDigit I w N n v qh = some ws ∧ D (2 ^ subw w) (nsub w N + 1) ws ∧
      V (2 ^ subw w) (g ws) (n + 1) = qh * V (2 ^ subw w) (g v) n := by
  have hB := two_pos (subw w)
  obtain ⟨⟨ws, c⟩, h1, h2, h3, -, h5⟩ := loop_inv
    (body := fun i (ws, carry) => do
      let (x, carry) ← mulStep I w qh (← rd v i) (← rd ws i) carry
      some (← wr ws i x, carry))
    (Inv := fun i (st : List Nat × Nat) => D (2 ^ subw w) (nsub w N + 1) st.1 ∧ st.2 < 2 ^ subw w ∧
      (∀ k, i ≤ k → g st.1 k = 0) ∧
      V (2 ^ subw w) (g st.1) i + st.2 * (2 ^ subw w) ^ i = qh * V (2 ^ subw w) (g v) i)
    n 0 (zero (nsub w N + 1), 0) ⟨D_zero hB _, hB, fun k _ => g_zero _ _, by simp [V_zero]⟩ (by
      rintro i ⟨ws, carry⟩ - hi ⟨hd, hc, hz, hv'⟩
      simp only at hd hc hz hv'
      rw [Nat.zero_add] at hi
      have hl : i < ws.length := by rw [hd.1]; omega
      have hvi := hv.2 i (by omega)
      have hlt := mul_add_lt hq hvi hB hc
      simp only [rd_eq hl, rd_eq (show i < v.length by rw [hv.1]; omega), Option.bind_eq_bind, Option.bind_some,
        hz i (Nat.le_refl _), mulStep_eq hp hI hw hq hvi hB hc, wr_eq _ hl]
      refine ⟨_, rfl, D_set hd (Nat.mod_lt _ hB), div_lt_sq hlt, fun k hik => ?_, ?_⟩
      · show g (ws.set i _) k = _
        rw [g_set_ne _ (by omega), hz k (by omega)]
      · show V _ (g (ws.set i _)) (i + 1) + _ * (2 ^ subw w) ^ (i + 1) = _
        have e := Nat.div_add_mod (qh * g v i + 0 + carry) (2 ^ subw w)
        rw [V_succ, V_set_ge (Nat.le_refl _), g_set_eq _ hl, V_succ]
        generalize (qh * g v i + 0 + carry) / 2 ^ subw w = dv at *
        generalize (qh * g v i + 0 + carry) % 2 ^ subw w = md at *
        generalize 2 ^ subw w = B at *
        calc V B (g ws) i + md * B ^ i + dv * B ^ (i + 1)
            = V B (g ws) i + (B * dv + md) * B ^ i := by rw [pow_succ]; ring
          _ = (V B (g ws) i + carry * B ^ i) + qh * g v i * B ^ i := by rw [e]; ring
          _ = _ := by rw [hv']; ring)
  simp only [Nat.zero_add] at h2 h3 h5
  have hl : n < ws.length := by rw [h2.1]; omega
  refine ⟨ws.set n c, ?_, D_set h2 h3, ?_⟩
  · simp only [mulDigit, Option.bind_eq_bind] at h1 ⊢
    rw [h1]
    exact wr_eq _ hl
  · rw [V_succ, V_set_ge (Nat.le_refl _), g_set_eq _ hl, h5]

theorem subDigits_spec {I w N n j : Nat} (hp : I ≠ w) (hI : 1 ≤ I) (hw : 2 ≤ w) {u ws : List Nat}
    (hu : u.length = nsub w N + 1) (hd : ∀ k ≤ j + n, g u k < 2 ^ subw w) (hws : D (2 ^ subw w) (nsub w N + 1) ws)
    (hn : j + n ≤ nsub w N) :
    ∃ u' c, subDigits I w n j u ws = some (u', c) ∧ u'.length = nsub w N + 1 ∧ (∀ k ≤ j + n, g u' k < 2 ^ subw w) ∧
      (∀ k < j, g u' k = g u k) ∧ c ≤ 1 ∧
      V (2 ^ subw w) (fun t => g u (j + t)) (n + 1) + c * (2 ^ subw w) ^ (n + 1) =
        V (2 ^ subw w) (g ws) (n + 1) + V (2 ^ subw w) (fun t => g u' (j + t)) (n + 1) := by
  obtain ⟨⟨u', c⟩, h1, h2, h3, h4, h5, -, h6⟩ := loop_inv
    (body := fun i (u, carry) => do
      let (x, carry) ← subStep I w (← rd u (j + i)) (← rd ws i) carry
      some (← wr u (j + i) x, carry))
    (Inv := fun i (st : List Nat × Nat) => st.1.length = nsub w N + 1 ∧ (∀ k ≤ j + n, g st.1 k < 2 ^ subw w) ∧
      (∀ k < j, g st.1 k = g u k) ∧ st.2 ≤ 1 ∧ (∀ k, j + i ≤ k → g st.1 k = g u k) ∧
      V (2 ^ subw w) (fun t => g u (j + t)) i + st.2 * (2 ^ subw w) ^ i =
        V (2 ^ subw w) (g ws) i + V (2 ^ subw w) (fun t => g st.1 (j + t)) i)
    (n + 1) 0 (u, 0) ⟨hu, hd, fun _ _ => rfl, by simp, fun _ _ => rfl, by simp [V_zero]⟩ (by
      rintro i ⟨u1, carry⟩ - hi ⟨a1, a2, a3, a4, a5, a6⟩
      simp only at a1 a2 a3 a4 a5 a6
      rw [Nat.zero_add] at hi
      have hl : j + i < u1.length := by omega
      obtain ⟨d, c', s1, s2, s3, s4⟩ := subStep_eq (I := I) hp hI hw (a2 (j + i) (by omega)) (hws.2 i (by omega)) a4
      simp only [rd_eq hl, rd_eq (show i < ws.length by rw [hws.1]; omega), Option.bind_eq_bind, Option.bind_some, s1,
        wr_eq _ hl]
      refine ⟨_, rfl, by simp [a1], fun k hk => ?_, fun k hk => ?_, s3, fun k hk => ?_, ?_⟩
      · show g (u1.set (j + i) d) k < _
        by_cases hki : j + i = k
        · rw [← hki, g_set_eq _ hl]; exact s2
        · rw [g_set_ne _ hki]; exact a2 k hk
      · show g (u1.set (j + i) d) k = _
        rw [g_set_ne _ (by omega), a3 k hk]
      · show g (u1.set (j + i) d) k = _
        rw [g_set_ne _ (by omega), a5 k (by omega)]
      · show V _ (fun t => g u (j + t)) (i + 1) + c' * _ = V _ (g ws) (i + 1) + V _ (fun t => g (u1.set (j + i) d) (j + t)) (i + 1)
        rw [V_succ, V_succ, V_succ, g_set_eq _ hl, ← a5 (j + i) (Nat.le_refl _),
          V_congr (f := fun t => g (u1.set (j + i) d) (j + t)) (h := fun t => g u1 (j + t))
            (fun t ht => g_set_ne _ (by omega))]
        generalize 2 ^ subw w = B at *
        calc _ = V B (fun t => g u (j + t)) i + (g u1 (j + i) + c' * B) * B ^ i := by rw [pow_succ]; ring
          _ = (V B (fun t => g u (j + t)) i + carry * B ^ i) + (g ws i + d) * B ^ i := by rw [s4]; ring
          _ = _ := by rw [a6]; ring)
  simp only [Nat.zero_add] at h6
  exact ⟨u', c, h1, h2, h3, h4, h5, h6⟩

theorem addBack_spec {I w N n j : Nat} (hp : I ≠ w) (hI : 1 ≤ I) (hw : 2 ≤ w) {u v : List Nat}
    (hu : u.length = nsub w N + 1) (hd : ∀ k ≤ j + n, g u k < 2 ^ subw w) (hv : D (2 ^ subw w) (nsub w N) v)
    (hn : j + n ≤ nsub w N) :
    ∃ u', addBack I w n j u v = some u' ∧ u'.length = nsub w N + 1 ∧ (∀ k < j + n, g u' k < 2 ^ subw w) ∧
      (∀ k < j, g u' k = g u k) ∧ ∃ c,
      V (2 ^ subw w) (fun t => g u' (j + t)) n + c * (2 ^ subw w) ^ n =
        V (2 ^ subw w) (fun t => g u (j + t)) n + V (2 ^ subw w) (g v) n := by
  have hB2 : 2 ≤ 2 ^ subw w := Nat.pow_le_pow_right (n := 2) (by omega) (subw_pos hw)
  obtain ⟨⟨u', c⟩, h1, h2, h3, h4, h5, h5', h6⟩ := loop_inv
    (body := fun i (u, carry) => do
      let (x, carry) ← addStep I w (← rd u (j + i)) (← rd v i) carry
      some (← wr u (j + i) x, carry))
    (Inv := fun i (st : List Nat × Nat) => st.1.length = nsub w N + 1 ∧ (∀ k ≤ j + n, g st.1 k < 2 ^ subw w) ∧
      (∀ k < j, g st.1 k = g u k) ∧ st.2 ≤ 1 ∧ (∀ k, j + i ≤ k → g st.1 k = g u k) ∧
      V (2 ^ subw w) (fun t => g st.1 (j + t)) i + st.2 * (2 ^ subw w) ^ i =
        V (2 ^ subw w) (fun t => g u (j + t)) i + V (2 ^ subw w) (g v) i)
    n 0 (u, 0) ⟨hu, hd, fun _ _ => rfl, by simp, fun _ _ => rfl, by simp [V_zero]⟩ (by
      rintro i ⟨u1, carry⟩ - hi ⟨a1, a2, a3, a4, a5, a6⟩
      simp only at a1 a2 a3 a4 a5 a6
      rw [Nat.zero_add] at hi
      have hl : j + i < u1.length := by omega
      have b1 := a2 (j + i) (by omega)
      have b2 := hv.2 i (by omega)
      have hc' : (g u1 (j + i) + g v i + carry) / 2 ^ subw w ≤ 1 := by
        apply Nat.le_of_lt_succ
        apply Nat.div_lt_of_lt_mul
        omega
      simp only [rd_eq hl, rd_eq (show i < v.length by rw [hv.1]; omega), Option.bind_eq_bind, Option.bind_some,
        addStep_eq hp hI hw b1 b2 a4, wr_eq _ hl]
      refine ⟨_, rfl, by simp [a1], fun k hk => ?_, fun k hk => ?_, hc', fun k hk => ?_, ?_⟩
      · show g (u1.set (j + i) _) k < _
        by_cases hki : j + i = k
        · rw [← hki, g_set_eq _ hl]; exact Nat.mod_lt _ (two_pos _)
        · rw [g_set_ne _ hki]; exact a2 k hk
      · show g (u1.set (j + i) _) k = _
        rw [g_set_ne _ (by omega), a3 k hk]
      · show g (u1.set (j + i) _) k = _
        rw [g_set_ne _ (by omega), a5 k (by omega)]
      · have e := Nat.div_add_mod (g u1 (j + i) + g v i + carry) (2 ^ subw w)
        show V _ (fun t => g (u1.set (j + i) _) (j + t)) (i + 1) + _ * _ = V _ (fun t => g u (j + t)) (i + 1) + V _ (g v) (i + 1)
        rw [V_succ, V_succ, V_succ, g_set_eq _ hl, ← a5 (j + i) (Nat.le_refl _)]
        generalize (g u1 (j + i) + g v i + carry) / 2 ^ subw w = dv at *
        generalize (g u1 (j + i) + g v i + carry) % 2 ^ subw w = md at *
        rw [V_congr (f := fun t => g (u1.set (j + i) md) (j + t)) (h := fun t => g u1 (j + t))
            (fun t ht => g_set_ne _ (by omega))]
        generalize 2 ^ subw w = B at *
        calc _ = V B (fun t => g u1 (j + t)) i + (B * dv + md) * B ^ i := by rw [pow_succ]; ring
          _ = (V B (fun t => g u1 (j + t)) i + carry * B ^ i) + (g u1 (j + i) + g v i) * B ^ i := by rw [e]; ring
          _ = _ := by rw [a6]; ring)
  simp only [Nat.zero_add] at h2 h3 h4 h5 h6
  have hl : j + n < u'.length := by omega
  have hsq := sq_le (w := w)
  have hBB : 2 * 2 ^ subw w ≤ 2 ^ subw w * 2 ^ subw w := Nat.mul_le_mul_right _ hB2
  have hb := h3 (j + n) (Nat.le_refl _)
  refine ⟨u'.set (j + n) (g u' (j + n) + c), ?_, by simp [h2], fun k hk => ?_, fun k hk => ?_, c, ?_⟩
  · simp only [addBack, Option.bind_eq_bind] at h1 ⊢
    rw [h1]
    simp only [Option.bind_some, rd_eq hl]
    rw [← Int.natCast_add, arith_nat hp (by omega)]
    simp only [Option.bind_some, toT_nat (show g u' (j + n) + c < 2 ^ w by omega), wr_eq _ hl]
  · rw [g_set_ne _ (by omega)]; exact h3 k (by omega)
  · rw [g_set_ne _ (by omega), h4 k hk]
  · rw [V_congr (f := fun t => g (u'.set (j + n) (g u' (j + n) + c)) (j + t)) (h := fun t => g u' (j + t))
      (fun t ht => g_set_ne _ (by omega))]
    exact h6

/-! ### One digit of the quotient -/

theorem divStep_spec {I w N n j : Nat} (hp : I ≠ w) (hI : 1 ≤ I) (hw : 2 ≤ w) {u v q : List Nat}
    (hu : u.length = nsub w N + 1) (hd : ∀ k ≤ j + n, g u k < 2 ^ subw w) (hv : D (2 ^ subw w) (nsub w N) v)
    (hq : q.length = nsub w N) (hn : j + n ≤ nsub w N) (hn2 : 2 ≤ n) (htop : 2 ^ subw w ≤ 2 * g v (n - 1))
    (hwin : V (2 ^ subw w) (fun t => g u (j + 1 + t)) n < V (2 ^ subw w) (g v) n) :
    ∃ u' d, divStep I w N n v j u q = some (u', q.set j d) ∧ d < 2 ^ subw w ∧ u'.length = nsub w N + 1 ∧
      (∀ k < j + n, g u' k < 2 ^ subw w) ∧ (∀ k < j, g u' k = g u k) ∧
      V (2 ^ subw w) (fun t => g u (j + t)) (n + 1) =
        d * V (2 ^ subw w) (g v) n + V (2 ^ subw w) (fun t => g u' (j + t)) n ∧
      V (2 ^ subw w) (fun t => g u' (j + t)) n < V (2 ^ subw w) (g v) n := by
  have hB := two_pos (subw w)
  have hsq := sq_le (w := w)
  have hB2 : 2 ≤ 2 ^ subw w := Nat.pow_le_pow_right (n := 2) (by omega) (subw_pos hw)
  have hBB : 2 * 2 ^ subw w ≤ 2 ^ subw w * 2 ^ subw w := Nat.mul_le_mul_right _ hB2
  obtain ⟨m, rfl⟩ : ∃ m, n = m + 2 := ⟨n - 2, by omega⟩
  have a0 := hd (j + (m + 2)) (Nat.le_refl _)
  have a1 := hd (j + (m + 2) - 1) (by omega)
  have a2 := hd (j + (m + 2) - 2) (by omega)
  have b1 := hv.2 (m + 2 - 1) (by omega)
  have b2 := hv.2 (m + 2 - 2) (by omega)
  -- the decompositions
  have hVv : V (2 ^ subw w) (g v) (m + 2) =
      V (2 ^ subw w) (g v) m + (2 ^ subw w) ^ m * (g v (m + 2 - 1) * 2 ^ subw w + g v (m + 2 - 2)) := by
    rw [V_succ, V_succ, pow_succ]
    simp only [Nat.add_sub_cancel, show m + 2 - 1 = m + 1 by omega]
    ring
  have hW : V (2 ^ subw w) (fun t => g u (j + t)) (m + 2 + 1) =
      V (2 ^ subw w) (fun t => g u (j + t)) m + (2 ^ subw w) ^ m *
        ((g u (j + (m + 2)) * 2 ^ subw w + g u (j + (m + 2) - 1)) * 2 ^ subw w + g u (j + (m + 2) - 2)) := by
    rw [V_succ, V_succ, V_succ, pow_succ, pow_succ]
    simp only [show j + (m + 2) - 1 = j + (m + 1) by omega, show j + (m + 2) - 2 = j + m by omega]
    ring
  have hLv : V (2 ^ subw w) (g v) m < (2 ^ subw w) ^ m := V_lt fun i hi => hv.2 i (by omega)
  have hL : V (2 ^ subw w) (fun t => g u (j + t)) m < (2 ^ subw w) ^ m := V_lt fun i hi => hd (j + i) (by omega)
  -- the window is less than the radix times the divisor
  have hWlt : V (2 ^ subw w) (fun t => g u (j + t)) (m + 2 + 1) < 2 ^ subw w * V (2 ^ subw w) (g v) (m + 2) := by
    rw [V_cons]
    have e : V (2 ^ subw w) (fun t => g u (j + (t + 1))) (m + 2) = V (2 ^ subw w) (fun t => g u (j + 1 + t)) (m + 2) :=
      V_congr fun t _ => by congr 1; omega
    rw [e]
    have h1 : 2 ^ subw w * (V (2 ^ subw w) (fun t => g u (j + 1 + t)) (m + 2) + 1) ≤
      2 ^ subw w * V (2 ^ subw w) (g v) (m + 2) := Nat.mul_le_mul_left _ hwin
    have h2 := hd (j + 0) (by omega)
    rw [Nat.mul_add] at h1
    omega
  have hVpos : 0 < V (2 ^ subw w) (g v) (m + 2) := by omega
  -- the leading digits
  have hle : g u (j + (m + 2)) ≤ g v (m + 2 - 1) := by
    apply Nat.le_of_lt_succ
    apply Nat.lt_of_mul_lt_mul_right (a := (2 ^ subw w) ^ (m + 1))
    have h1 : g u (j + (m + 2)) * (2 ^ subw w) ^ (m + 1) ≤ V (2 ^ subw w) (fun t => g u (j + 1 + t)) (m + 2) := by
      rw [V_succ, show j + 1 + (m + 1) = j + (m + 2) by omega]; omega
    have h2 : V (2 ^ subw w) (g v) (m + 2) < (g v (m + 2 - 1)).succ * (2 ^ subw w) ^ (m + 1) := by
      have := V_lt (B := 2 ^ subw w) (n := m + 1) (f := g v) fun i hi => hv.2 i (by omega)
      rw [V_succ, show m + 2 - 1 = m + 1 by omega, Nat.succ_mul]; omega
    omega
  obtain ⟨qh, q1, q2, q3, q4⟩ := estimate_spec hp hI hw a0 a1 a2 b1 b2 htop hle
  have hqlt : V (2 ^ subw w) (fun t => g u (j + t)) (m + 2 + 1) / V (2 ^ subw w) (g v) (m + 2) < 2 ^ subw w :=
    Nat.div_lt_of_lt_mul (by rw [Nat.mul_comm]; exact hWlt)
  have hvv : 2 ^ subw w ≤ g v (m + 2 - 1) * 2 ^ subw w + g v (m + 2 - 2) := by
    have : 1 * 2 ^ subw w ≤ g v (m + 2 - 1) * 2 ^ subw w := Nat.mul_le_mul_right _ (by omega)
    omega
  have hqd := Nat.div_mul_le_self (V (2 ^ subw w) (fun t => g u (j + t)) (m + 2 + 1)) (V (2 ^ subw w) (g v) (m + 2))
  have hqd' : V (2 ^ subw w) (fun t => g u (j + t)) (m + 2 + 1) <
      (V (2 ^ subw w) (fun t => g u (j + t)) (m + 2 + 1) / V (2 ^ subw w) (g v) (m + 2) + 1) * V (2 ^ subw w) (g v) (m + 2) :=
    (Nat.div_lt_iff_lt_mul hVpos).1 (Nat.lt_succ_self _)
  generalize hqq : V (2 ^ subw w) (fun t => g u (j + t)) (m + 2 + 1) / V (2 ^ subw w) (g v) (m + 2) = qd at *
  obtain ⟨c1, c2⟩ := estimate_close hL hLv hB hvv q2 q3 q4 hqlt (by rw [← hVv, ← hW]; exact hqd)
    (by rw [← hVv, ← hW]; exact hqd')
  obtain ⟨ws, w1, w2, w3⟩ := mulDigit_spec (I := I) (n := m + 2) hp hI hw hv (by omega) q2
  obtain ⟨u', c, s1, s2, s3, s4, s5, s6⟩ := subDigits_spec (I := I) hp hI hw hu hd w2 hn
  rw [w3] at s6
  have hW' : V (2 ^ subw w) (fun t => g u' (j + t)) (m + 2 + 1) < (2 ^ subw w) ^ (m + 2 + 1) :=
    V_lt fun i hi => s3 (j + i) (by omega)
  have hrd : ∀ k ≤ j + (m + 2), rd u k = some (g u k) := fun k hk => rd_eq (by omega)
  have hrv : ∀ k < m + 2, rd v k = some (g v k) := fun k hk => rd_eq (by rw [hv.1]; omega)
  have hstep : divStep I w N (m + 2) v j u q =
      (if c = 0 then some (u', q.set j qh)
       else do
        let qHat := toT w (← arith I (T w) (qh - 1))
        let u ← addBack I w (m + 2) j u' v
        some (u, ← wr q j qHat)) := by
    simp only [divStep, hrd _ (Nat.le_refl _), hrd _ (show j + (m + 2) - 1 ≤ j + (m + 2) by omega),
      hrd _ (show j + (m + 2) - 2 ≤ j + (m + 2) by omega), hrv _ (show m + 2 - 1 < m + 2 by omega),
      hrv _ (show m + 2 - 2 < m + 2 by omega), q1, w1, s1, Option.bind_eq_bind, Option.bind_some]
    split
    · rw [wr_eq _ (by omega)]; rfl
    · rfl
  by_cases hc : c = 0
  · subst hc
    rw [if_pos rfl] at hstep
    rw [Nat.zero_mul, Nat.add_zero] at s6
    have hqe : qh = qd := by
      by_contra h
      have : (qd + 1) * V (2 ^ subw w) (g v) (m + 2) ≤ qh * V (2 ^ subw w) (g v) (m + 2) := Nat.mul_le_mul_right _ (by omega)
      omega
    have hlt : V (2 ^ subw w) (fun t => g u' (j + t)) (m + 2 + 1) < V (2 ^ subw w) (g v) (m + 2) := by
      rw [Nat.succ_mul] at hqd'
      rw [hqe] at s6
      omega
    have h0 : g u' (j + (m + 2)) = 0 := by
      by_contra h
      have h1 : V (2 ^ subw w) (g v) (m + 2) < (2 ^ subw w) ^ (m + 2) := V_lt fun i hi => hv.2 i (by omega)
      rw [V_succ] at hlt
      have : 1 * (2 ^ subw w) ^ (m + 2) ≤ g u' (j + (m + 2)) * (2 ^ subw w) ^ (m + 2) := Nat.mul_le_mul_right _ (by omega)
      omega
    have hd' : V (2 ^ subw w) (fun t => g u' (j + t)) (m + 2 + 1) = V (2 ^ subw w) (fun t => g u' (j + t)) (m + 2) := by
      rw [V_succ, h0]; simp
    rw [hd'] at s6 hlt
    exact ⟨u', qh, hstep, q2, s2, fun k hk => s3 k (by omega), s4, s6, hlt⟩
  · have hc1 : c = 1 := by omega
    subst hc1
    rw [if_neg hc] at hstep
    rw [Nat.one_mul] at s6
    have hqe : qh = qd + 1 := by
      by_contra h
      have : qh = qd := by omega
      rw [this] at s6
      omega
    obtain ⟨u2, t1, t2, t3, t4, k, t5⟩ := addBack_spec (I := I) hp hI hw s2 s3 hv hn
    have e1 : ((qh : Int) - 1) = (qd : Int) := by omega
    rw [e1, arith_nat hp (by omega), t1] at hstep
    simp only [Option.bind_eq_bind, Option.bind_some, toT_nat (show qd < 2 ^ w by omega), wr_eq _ (show j < q.length by omega)] at hstep
    -- the value of the window
    have hb1 : V (2 ^ subw w) (g v) (m + 2) < (2 ^ subw w) ^ (m + 2) := V_lt fun i hi => hv.2 i (by omega)
    have hb2 : V (2 ^ subw w) (fun t => g u2 (j + t)) (m + 2) < (2 ^ subw w) ^ (m + 2) := V_lt fun i hi => t3 (j + i) (by omega)
    have hval : V (2 ^ subw w) (fun t => g u2 (j + t)) (m + 2) =
        V (2 ^ subw w) (fun t => g u (j + t)) (m + 2 + 1) - qd * V (2 ^ subw w) (g v) (m + 2) := by
      rw [hqe, Nat.succ_mul] at s6
      rw [Nat.succ_mul] at hqd'
      rw [V_succ _ (fun t => g u' (j + t)), pow_succ] at s6
      generalize V (2 ^ subw w) (fun t => g u2 (j + t)) (m + 2) = X at *
      generalize V (2 ^ subw w) (fun t => g u' (j + t)) (m + 2) = Y at *
      generalize V (2 ^ subw w) (fun t => g u (j + t)) (m + 2 + 1) = Z at *
      generalize V (2 ^ subw w) (g v) (m + 2) = Vv at *
      generalize (2 ^ subw w) ^ (m + 2) = Bn at *
      have e : X + (k + g u' (j + (m + 2))) * Bn = (Z - qd * Vv) + 2 ^ subw w * Bn := by
        have : X + (k + g u' (j + (m + 2))) * Bn = X + k * Bn + g u' (j + (m + 2)) * Bn := by ring
        rw [this, Nat.mul_comm (2 ^ subw w)]
        omega
      have h1 : (X + (k + g u' (j + (m + 2))) * Bn) % Bn = X := by
        rw [Nat.add_mul_mod_self_right, Nat.mod_eq_of_lt hb2]
      have h2 : (Z - qd * Vv + 2 ^ subw w * Bn) % Bn = Z - qd * Vv := by
        rw [Nat.add_mul_mod_self_right, Nat.mod_eq_of_lt (by omega)]
      rw [← h1, e, h2]
    rw [Nat.succ_mul] at hqd'
    exact ⟨u2, qd, hstep, hqlt, t2, t3, fun k hk => by rw [t4 k hk, s4 k hk], by omega, by omega⟩

theorem divLoop_spec {I w N n : Nat} (hp : I ≠ w) (hI : 1 ≤ I) (hw : 2 ≤ w) {v : List Nat}
    (hv : D (2 ^ subw w) (nsub w N) v) (hn2 : 2 ≤ n) (htop : 2 ^ subw w ≤ 2 * g v (n - 1)) :
    ∀ (c : Nat) (u q : List Nat), c + n ≤ nsub w N + 1 → u.length = nsub w N + 1 → (∀ k < c + n, g u k < 2 ^ subw w) →
      D (2 ^ subw w) (nsub w N) q → V (2 ^ subw w) (fun t => g u (c + t)) n < V (2 ^ subw w) (g v) n →
      ∃ u' q', divLoop I w N n v c u q = some (u', q') ∧ u'.length = nsub w N + 1 ∧ (∀ k < n, g u' k < 2 ^ subw w) ∧
        D (2 ^ subw w) (nsub w N) q' ∧ (∀ k, c ≤ k → g q' k = g q k) ∧
        V (2 ^ subw w) (g u) (c + n) = V (2 ^ subw w) (g v) n * V (2 ^ subw w) (g q') c + V (2 ^ subw w) (g u') n ∧
        V (2 ^ subw w) (g u') n < V (2 ^ subw w) (g v) n := by
  intro c
  induction c with
  | zero =>
    intro u q h1 h2 h3 h4 h5
    simp only [Nat.zero_add] at h3 h5
    exact ⟨u, q, rfl, h2, h3, h4, fun _ _ => rfl, by simp [V_zero], h5⟩
  | succ c ih =>
    intro u q h1 h2 h3 h4 h5
    obtain ⟨u1, d, d1, d2, d3, d4, d5, d6, d7⟩ := divStep_spec (I := I) (q := q) (j := c) hp hI hw h2 (fun k hk => h3 k (by omega)) hv
      h4.1 (by omega) hn2 htop h5
    obtain ⟨u2, q2, e1, e2, e3, e4, e5, e6, e7⟩ := ih u1 (q.set c d) (by omega) d3 d4 (D_set h4 d2) d7
    refine ⟨u2, q2, ?_, e2, e3, e4, fun k hk => ?_, ?_, e7⟩
    · simp only [divLoop, d1, Option.bind_eq_bind, Option.bind_some, e1]
    · rw [e5 k (by omega), g_set_ne _ (by omega)]
    · have hq2 : g q2 c = d := by rw [e5 c (Nat.le_refl _), g_set_eq _ (by rw [h4.1]; omega)]
      have hlow : V (2 ^ subw w) (g u1) c = V (2 ^ subw w) (g u) c := V_congr fun k hk => d5 k hk
      rw [V_split, hlow] at e6
      rw [show c + 1 + n = c + (n + 1) by omega, V_split, d6, V_succ, hq2]
      generalize 2 ^ subw w = B at *
      calc _ = (V B (g u) c + B ^ c * V B (fun i => g u1 (c + i)) n) + B ^ c * (d * V B (g v) n) := by ring
        _ = _ := by rw [e6]; ring

/-! ### The remainder -/

theorem unnorm_eq {I w sh x y : Nat} (hp : I ≠ w) (hI : 1 ≤ I) (hw : 2 ≤ w) (hsh : sh < subw w) (hx : x < 2 ^ subw w) :
    unnorm I w sh x y = some (x / 2 ^ sh + y % 2 ^ sh * 2 ^ (subw w - sh)) := by
  have hs := subw_le w
  have hsw : 2 ^ subw w ≤ 2 ^ w := Nat.pow_le_pow_right (by omega) (by omega)
  have hpw := P_width hp
  have hxs : x / 2 ^ sh < 2 ^ (subw w - sh) := by
    apply Nat.div_lt_of_lt_mul
    rw [← pow_add, show sh + (subw w - sh) = subw w by omega]; exact hx
  have hxw : x / 2 ^ sh < 2 ^ w := Nat.lt_of_le_of_lt (Nat.div_le_self _ _) (by omega)
  obtain ⟨z, z1, z2⟩ : ∃ z, shl (P I w) (y : Int) (subw w - sh) = some z ∧
      toT w (bitAnd (P I w) z ((2 ^ subw w - 1 : Nat) : Int)) = y * 2 ^ (subw w - sh) % 2 ^ subw w := by
    refine ⟨_, by rw [shl, if_pos (by omega)], ?_⟩
    rw [toT_bitAnd_mask hp (by omega)]
    have := dvd_trans (p_dvd (show subw w ≤ (P I w).width by omega)) (cast_dvd (P I w) ((y : Int) * 2 ^ (subw w - sh)))
    rw [Int.emod_eq_emod_iff_emod_sub_eq_zero.2 (Int.emod_eq_zero_of_dvd this), ← cast_pow, ← cast_pow, ← Int.natCast_mul,
      ← Int.natCast_mod, Int.toNat_natCast]
  have e : y * 2 ^ (subw w - sh) % 2 ^ subw w = y % 2 ^ sh * 2 ^ (subw w - sh) := by
    rw [← Nat.mul_mod_mul_right, ← pow_add, show sh + (subw w - sh) = subw w by omega]
  simp only [unnorm, z1, mask_eq hI hw, shr_nat hp (show sh < w by omega), Option.bind_eq_bind, Option.bind_some]
  rw [toT_bitOr hp hxw, z2, e, Nat.lor_comm, Nat.mul_comm, ← Nat.two_pow_add_eq_or_of_lt hxs, Nat.add_comm]

theorem remainder_spec {I w N n sh : Nat} (hp : I ≠ w) (hI : 1 ≤ I) (hw : 2 ≤ w) (hsh : sh < subw w) {u : List Nat}
    (hu : u.length = nsub w N + 1) (hd : ∀ k < n, g u k < 2 ^ subw w) (hn2 : 2 ≤ n) (hn : n ≤ nsub w N)
    (hdv : 2 ^ sh ∣ V (2 ^ subw w) (g u) n) :
    ∃ r1 r, loop (fun i r => do wr r i (← unnorm I w sh (← rd u i) (← rd u (i + 1)))) (n - 1) 0 (zero (nsub w N)) = some r1 ∧
      (do wr r1 (n - 1) (toT w (← shr (P I w) (← rd u (n - 1) : Nat) sh))) = some r ∧
      D (2 ^ subw w) (nsub w N) r ∧ V (2 ^ subw w) (g r) (nsub w N) * 2 ^ sh = V (2 ^ subw w) (g u) n := by
  have hs := subw_le w
  have hsw : 2 ^ subw w ≤ 2 ^ w := Nat.pow_le_pow_right (by omega) (by omega)
  have hBs : 2 ^ subw w = 2 ^ (subw w - sh) * 2 ^ sh := by rw [← pow_add]; congr 1; omega
  obtain ⟨r1, h1, h2, h3, h4⟩ := loop_inv
    (body := fun i r => do wr r i (← unnorm I w sh (← rd u i) (← rd u (i + 1))))
    (Inv := fun i (r : List Nat) => D (2 ^ subw w) (nsub w N) r ∧ (∀ k, i ≤ k → g r k = 0) ∧
      V (2 ^ subw w) (g r) i * 2 ^ sh + g u 0 % 2 ^ sh = V (2 ^ subw w) (g u) i + g u i % 2 ^ sh * (2 ^ subw w) ^ i)
    (n - 1) 0 (zero (nsub w N)) ⟨D_zero (two_pos _) _, fun k _ => g_zero _ _, by simp [V_zero]⟩ (by
      rintro i r - hi ⟨a1, a2, a3⟩
      rw [Nat.zero_add] at hi
      have hl : i < r.length := by rw [a1.1]; omega
      have hx := hd i (by omega)
      have hlt : g u i / 2 ^ sh + g u (i + 1) % 2 ^ sh * 2 ^ (subw w - sh) < 2 ^ subw w := by
        have b1 : g u i / 2 ^ sh < 2 ^ (subw w - sh) := by
          apply Nat.div_lt_of_lt_mul
          rw [Nat.mul_comm, ← hBs]; exact hx
        have b2 : (g u (i + 1) % 2 ^ sh + 1) * 2 ^ (subw w - sh) ≤ 2 ^ sh * 2 ^ (subw w - sh) :=
          Nat.mul_le_mul_right _ (Nat.mod_lt _ (two_pos _))
        rw [Nat.mul_comm (2 ^ sh), ← hBs, Nat.add_mul] at b2
        omega
      simp only [rd_eq (show i < u.length by omega), rd_eq (show i + 1 < u.length by omega), unnorm_eq hp hI hw hsh hx,
        Option.bind_eq_bind, Option.bind_some, wr_eq _ hl]
      refine ⟨_, rfl, D_set a1 hlt, fun k hk => ?_, ?_⟩
      · rw [g_set_ne _ (by omega), a2 k (by omega)]
      · rw [V_succ, V_set_ge (Nat.le_refl _), g_set_eq _ hl, V_succ]
        have e := Nat.div_add_mod (g u i) (2 ^ sh)
        have eB : ∀ x, x * 2 ^ (subw w - sh) * 2 ^ sh = x * 2 ^ subw w := fun x => by rw [mul_assoc, ← hBs]
        calc _ = (V (2 ^ subw w) (g r) i * 2 ^ sh + g u 0 % 2 ^ sh) + 2 ^ sh * (g u i / 2 ^ sh) * (2 ^ subw w) ^ i +
              (g u (i + 1) % 2 ^ sh * 2 ^ (subw w - sh) * 2 ^ sh) * (2 ^ subw w) ^ i := by ring
          _ = V (2 ^ subw w) (g u) i + (2 ^ sh * (g u i / 2 ^ sh) + g u i % 2 ^ sh) * (2 ^ subw w) ^ i +
              (g u (i + 1) % 2 ^ sh * 2 ^ subw w) * (2 ^ subw w) ^ i := by rw [a3, eB]; ring
          _ = _ := by rw [e, pow_succ]; ring)
  simp only [Nat.zero_add] at h3 h4
  have hl : n - 1 < r1.length := by rw [h2.1]; omega
  have hx := hd (n - 1) (by omega)
  have hxl : g u (n - 1) / 2 ^ sh < 2 ^ subw w := Nat.lt_of_le_of_lt (Nat.div_le_self _ _) hx
  refine ⟨r1, r1.set (n - 1) (g u (n - 1) / 2 ^ sh), h1, ?_, D_set h2 hxl, ?_⟩
  · simp only [rd_eq (show n - 1 < u.length by omega), Option.bind_eq_bind, Option.bind_some,
      shr_nat hp (show sh < w by omega), toT_nat (show g u (n - 1) / 2 ^ sh < 2 ^ w by omega), wr_eq _ hl]
  · have hV : V (2 ^ subw w) (g (r1.set (n - 1) (g u (n - 1) / 2 ^ sh))) (nsub w N) =
        V (2 ^ subw w) (g r1) (n - 1) + g u (n - 1) / 2 ^ sh * (2 ^ subw w) ^ (n - 1) := by
      rw [show nsub w N = (n - 1 + 1) + (nsub w N - n) by omega, V_split, V_succ, V_set_ge (Nat.le_refl _), g_set_eq _ hl]
      rw [V_congr (f := fun i => g (r1.set (n - 1) (g u (n - 1) / 2 ^ sh)) (n - 1 + 1 + i)) (h := fun _ => 0)
        (fun i _ => by rw [g_set_ne _ (by omega), h3 _ (by omega)]), V_const_zero]
      rfl
    have hU : V (2 ^ subw w) (g u) n = V (2 ^ subw w) (g u) (n - 1) + g u (n - 1) * (2 ^ subw w) ^ (n - 1) := by
      conv_lhs => rw [show n = n - 1 + 1 by omega]
      rfl
    have e := Nat.div_add_mod (g u (n - 1)) (2 ^ sh)
    have key : V (2 ^ subw w) (g (r1.set (n - 1) (g u (n - 1) / 2 ^ sh))) (nsub w N) * 2 ^ sh + g u 0 % 2 ^ sh =
        V (2 ^ subw w) (g u) n := by
      rw [hV, hU]
      calc _ = (V (2 ^ subw w) (g r1) (n - 1) * 2 ^ sh + g u 0 % 2 ^ sh) +
            2 ^ sh * (g u (n - 1) / 2 ^ sh) * (2 ^ subw w) ^ (n - 1) := by ring
        _ = V (2 ^ subw w) (g u) (n - 1) +
            (2 ^ sh * (g u (n - 1) / 2 ^ sh) + g u (n - 1) % 2 ^ sh) * (2 ^ subw w) ^ (n - 1) := by rw [h4]; ring
        _ = _ := by rw [e]
    have h0 : g u 0 % 2 ^ sh = 0 := by
      have h1 := Nat.mod_eq_zero_of_dvd hdv
      rw [← key, Nat.add_comm, Nat.add_mul_mod_self_right, Nat.mod_mod] at h1
      exact h1
    rw [h0, Nat.add_zero] at key
    exact key

/-! ### The division of unsigned values -/

theorem longDiv_spec {I w N n : Nat} (hp : I ≠ w) (hI : 1 ≤ I) (hw : 2 ≤ w) {a b : List Nat}
    (ha : D (2 ^ subw w) (nsub w N) a) (hb : D (2 ^ subw w) (nsub w N) b) (hn2 : 2 ≤ n) (hn : n ≤ nsub w N)
    (htop : g b (n - 1) ≠ 0) (hzero : ∀ k, n ≤ k → g b k = 0) :
    ∃ q r, longDiv I w N a b n = some (q, r) ∧ D (2 ^ subw w) (nsub w N) q ∧ D (2 ^ subw w) (nsub w N) r ∧
      V (2 ^ subw w) (g a) (nsub w N) =
        V (2 ^ subw w) (g b) (nsub w N) * V (2 ^ subw w) (g q) (nsub w N) + V (2 ^ subw w) (g r) (nsub w N) ∧
      V (2 ^ subw w) (g r) (nsub w N) < V (2 ^ subw w) (g b) (nsub w N) := by
  obtain ⟨sh, s1, s2, s3, s4⟩ := normShift_spec hw (Nat.pos_of_ne_zero htop) (hb.2 (n - 1) (by omega))
  obtain ⟨u, u1, u2, u3⟩ := normDividend_spec (I := I) hp hI hw s2 ha
  obtain ⟨v, v1, v2, v3⟩ := normDivisor_spec (I := I) hp hI hw s2 hb (by omega) hn s3
  have hbn : V (2 ^ subw w) (g b) (nsub w N) = V (2 ^ subw w) (g b) n := by
    rw [show nsub w N = n + (nsub w N - n) by omega, V_split,
      V_congr (f := fun i => g b (n + i)) (h := fun _ => 0) (fun i _ => hzero _ (by omega)), V_const_zero]
    rfl
  have hB := two_pos (subw w)
  have hsplitB : V (2 ^ subw w) (g b) n = V (2 ^ subw w) (g b) (n - 1) + g b (n - 1) * (2 ^ subw w) ^ (n - 1) := by
    conv_lhs => rw [show n = n - 1 + 1 by omega]
    rfl
  have hsplitV : V (2 ^ subw w) (g v) n = V (2 ^ subw w) (g v) (n - 1) + g v (n - 1) * (2 ^ subw w) ^ (n - 1) := by
    conv_lhs => rw [show n = n - 1 + 1 by omega]
    rfl
  have hvl : V (2 ^ subw w) (g v) (n - 1) < (2 ^ subw w) ^ (n - 1) := V_lt fun i hi => v2.2 i (by omega)
  -- the top digit of the normalized divisor
  have hvtop : g b (n - 1) * 2 ^ sh ≤ g v (n - 1) := by
    apply Nat.le_of_lt_succ
    apply Nat.lt_of_mul_lt_mul_right (a := (2 ^ subw w) ^ (n - 1))
    rw [Nat.succ_mul]
    have : g b (n - 1) * 2 ^ sh * (2 ^ subw w) ^ (n - 1) ≤ V (2 ^ subw w) (g v) n := by
      rw [v3, hsplitB, Nat.mul_add]
      have : 2 ^ sh * (g b (n - 1) * (2 ^ subw w) ^ (n - 1)) = g b (n - 1) * 2 ^ sh * (2 ^ subw w) ^ (n - 1) := by ring
      omega
    omega
  -- the top digits of the normalized dividend
  have hutop : V (2 ^ subw w) (fun t => g u (nsub w N - n + 1 + t)) n < V (2 ^ subw w) (g v) n := by
    apply Nat.lt_of_mul_lt_mul_left (a := (2 ^ subw w) ^ (nsub w N - n + 1))
    have e1 := V_split (2 ^ subw w) (g u) (nsub w N - n + 1) n
    rw [show nsub w N - n + 1 + n = nsub w N + 1 by omega, u3] at e1
    have hA : V (2 ^ subw w) (g a) (nsub w N) < (2 ^ subw w) ^ (nsub w N) := D_lt ha
    have hsub : 2 ^ sh * (2 ^ subw w) ^ (nsub w N) ≤ (2 ^ subw w) ^ (nsub w N - n + 1) * V (2 ^ subw w) (g v) n := by
      have : 2 ^ sh * (2 ^ subw w) ^ (n - 1) ≤ V (2 ^ subw w) (g v) n := by
        rw [hsplitV]
        have : 2 ^ sh * (2 ^ subw w) ^ (n - 1) ≤ g v (n - 1) * (2 ^ subw w) ^ (n - 1) :=
          Nat.mul_le_mul_right _ (Nat.le_trans (Nat.le_mul_of_pos_left _ (Nat.pos_of_ne_zero htop)) hvtop)
        omega
      calc 2 ^ sh * (2 ^ subw w) ^ (nsub w N) =
            (2 ^ subw w) ^ (nsub w N - n + 1) * (2 ^ sh * (2 ^ subw w) ^ (n - 1)) := by
            rw [show nsub w N = (nsub w N - n + 1) + (n - 1) by omega, pow_add]
            rw [show nsub w N - n + 1 + (n - 1) - n + 1 = nsub w N - n + 1 by omega]; ring
        _ ≤ _ := Nat.mul_le_mul_left _ this
    have : 2 ^ sh * V (2 ^ subw w) (g a) (nsub w N) < 2 ^ sh * (2 ^ subw w) ^ (nsub w N) :=
      Nat.mul_lt_mul_of_pos_left hA (two_pos _)
    omega
  obtain ⟨u', q, d1, d2, d3, d4, d5, d6, d7⟩ := divLoop_spec (I := I) hp hI hw v2 hn2 (by omega) (nsub w N - n + 1) u
    (zero (nsub w N)) (by omega) u2.1 (fun k hk => u2.2 k (by omega)) (D_zero hB _) hutop
  rw [show nsub w N - n + 1 + n = nsub w N + 1 by omega, u3, v3] at d6
  rw [v3] at d7
  have hq : V (2 ^ subw w) (g q) (nsub w N) = V (2 ^ subw w) (g q) (nsub w N - n + 1) := by
    conv_lhs => rw [show nsub w N = nsub w N - n + 1 + (n - 1) by omega]
    rw [V_split, V_congr (f := fun i => g q (nsub w N - n + 1 + i)) (h := fun _ => 0)
      (fun i _ => by rw [d5 _ (by omega), g_zero]), V_const_zero]
    rfl
  have hdv : 2 ^ sh ∣ V (2 ^ subw w) (g u') n := by
    have h1 : 2 ^ sh ∣ 2 ^ sh * V (2 ^ subw w) (g a) (nsub w N) := Dvd.intro _ rfl
    rw [d6, mul_assoc] at h1
    exact (Nat.dvd_add_right (Dvd.intro _ rfl)).1 h1
  obtain ⟨r1, r, r2, r3, r4, r5⟩ := remainder_spec (I := I) hp hI hw s2 d2 d3 hn2 hn hdv
  refine ⟨q, r, ?_, d4, r4, ?_, ?_⟩
  · simp only [longDiv, if_pos (show n > 1 ∧ n ≤ nsub w N by omega), rd_eq (show n - 1 < b.length by rw [hb.1]; omega),
      Option.bind_eq_bind, Option.bind_some, s1, u1, v1, d1] at r2 r3 ⊢
    rw [r2]
    simp only [Option.bind_some]
    rw [← Option.bind_assoc, ← Option.bind_assoc] at *
    rw [r3]; rfl
  · rw [hq, hbn]
    apply Nat.eq_of_mul_eq_mul_left (two_pos sh)
    rw [d6, ← r5]; ring
  · rw [hbn]
    apply Nat.lt_of_mul_lt_mul_left (a := 2 ^ sh)
    rw [Nat.mul_comm, r5]; exact d7

theorem numDigits_spec {b : List Nat} : ∀ M ≤ b.length, ∃ n, numDigits b M = some n ∧ n ≤ M ∧
    (∀ k, n ≤ k → k < M → g b k = 0) ∧ (0 < n → g b (n - 1) ≠ 0) := by
  intro M
  induction M with
  | zero => intro _; exact ⟨0, rfl, Nat.le_refl _, fun k _ h => by omega, fun h => by omega⟩
  | succ M ih =>
    intro hM
    obtain ⟨n, h1, h2, h3, h4⟩ := ih (by omega)
    simp only [numDigits, rd_eq (show M < b.length by omega), Option.bind_eq_bind, Option.bind_some]
    by_cases h0 : g b M = 0
    · rw [if_pos h0]
      refine ⟨n, h1, by omega, fun k hk1 hk2 => ?_, h4⟩
      by_cases hkM : k = M
      · rw [hkM]; exact h0
      · exact h3 k hk1 (by omega)
    · rw [if_neg h0]
      exact ⟨M + 1, rfl, Nat.le_refl _, fun k hk1 hk2 => by omega, fun _ => h0⟩

theorem unsignedDiv_spec {I w N : Nat} (hp : I ≠ w) (hI : 1 ≤ I) (hw : 2 ≤ w) (hN : 0 < N) {a b : List Nat}
    (ha : D (2 ^ w) N a) (hb : D (2 ^ w) N b) (hb0 : V (2 ^ w) (g b) N ≠ 0) :
    ∃ q r, unsignedDiv I w N a b = some (q, r) ∧ D (2 ^ w) N q ∧ D (2 ^ w) N r ∧
      V (2 ^ w) (g q) N = V (2 ^ w) (g a) N / V (2 ^ w) (g b) N ∧
      V (2 ^ w) (g r) N = V (2 ^ w) (g a) N % V (2 ^ w) (g b) N := by
  obtain ⟨as, ha1, ha2, ha3⟩ := scatter_spec hp hI hw hN ha
  obtain ⟨bs, hb1, hb2, hb3⟩ := scatter_spec hp hI hw hN hb
  obtain ⟨n, n1, n2, n3, n4⟩ := numDigits_spec (b := bs) (nsub w N) (by rw [hb2.1])
  have hz : ∀ k, n ≤ k → g bs k = 0 := by
    intro k hk
    by_cases hkN : k < nsub w N
    · exact n3 k hk hkN
    · simp [g, List.getD_eq_getElem?_getD, List.getElem?_eq_none (show bs.length ≤ k by rw [hb2.1]; omega)]
  have hA : V (2 ^ w) (g a) N < 2 ^ (w * N) := by rw [pow_mul]; exact D_lt ha
  have hB := two_pos (subw w)
  have hbs : V (2 ^ subw w) (g bs) (nsub w N) = V (2 ^ subw w) (g bs) n := by
    rw [show nsub w N = n + (nsub w N - n) by omega, V_split,
      V_congr (f := fun i => g bs (n + i)) (h := fun _ => 0) (fun i _ => hz _ (by omega)), V_const_zero]
    rfl
  have hn0 : 0 < n := by
    by_contra h
    have : n = 0 := by omega
    rw [this, V_zero] at hbs
    omega
  -- both divisions
  have hdiv : ∃ qs rs, (if n > 1 then longDiv I w N as bs n else do
      let (quot, r) ← shortDiv I w N as (← rd bs 0)
      let rem ← wr (zero (nsub w N)) 0 r
      some (quot, rem)) = some (qs, rs) ∧ D (2 ^ subw w) (nsub w N) qs ∧ D (2 ^ subw w) (nsub w N) rs ∧
      V (2 ^ subw w) (g as) (nsub w N) =
        V (2 ^ subw w) (g bs) (nsub w N) * V (2 ^ subw w) (g qs) (nsub w N) + V (2 ^ subw w) (g rs) (nsub w N) ∧
      V (2 ^ subw w) (g rs) (nsub w N) < V (2 ^ subw w) (g bs) (nsub w N) := by
    by_cases hn : n > 1
    · rw [if_pos hn]
      exact longDiv_spec hp hI hw ha2 hb2 hn n2 (n4 hn0) hz
    · rw [if_neg hn]
      have hn1 : n = 1 := by omega
      subst hn1
      have hbv : V (2 ^ subw w) (g bs) (nsub w N) = g bs 0 := by rw [hbs]; simp [V]
      obtain ⟨qs, r, q1, q2, q3, q4⟩ := shortDiv_spec (I := I) hp hw ha2 (Nat.pos_of_ne_zero (n4 hn0)) (hb2.2 0 (by omega))
      have hl : 0 < (zero (nsub w N)).length := by rw [zero_length]; omega
      have hrB : r < 2 ^ subw w := Nat.lt_trans q3 (hb2.2 0 (by omega))
      have hrv : V (2 ^ subw w) (g ((zero (nsub w N)).set 0 r)) (nsub w N) = r := by
        have := V_set (B := 2 ^ subw w) (v := r) hl (show 0 < nsub w N by omega)
        rw [V_zeroArr, g_zero] at this
        simpa using this
      refine ⟨qs, (zero (nsub w N)).set 0 r, ?_, q2, D_set (D_zero hB _) hrB, ?_, ?_⟩
      · simp only [rd_eq (show 0 < bs.length by rw [hb2.1]; omega), q1, Option.bind_eq_bind, Option.bind_some, wr_eq _ hl]
      · rw [hrv, hbv, q4]
      · rw [hrv, hbv]; exact q3
  obtain ⟨qs, rs, d1, d2, d3, d4, d5⟩ := hdiv
  obtain ⟨q, g1, g2, g3⟩ := gather_spec (I := I) hp hw d2
  obtain ⟨r, r1, r2, r3⟩ := gather_spec (I := I) hp hw d3
  rw [ha3, hb3] at d4
  rw [hb3] at d5
  have hqe : V (2 ^ subw w) (g qs) (nsub w N) = V (2 ^ w) (g a) N / V (2 ^ w) (g b) N := by
    rw [d4, Nat.add_comm, Nat.add_mul_div_left _ _ (by omega), Nat.div_eq_of_lt d5, Nat.zero_add]
  have hre : V (2 ^ subw w) (g rs) (nsub w N) = V (2 ^ w) (g a) N % V (2 ^ w) (g b) N := by
    rw [d4, Nat.add_comm, Nat.add_mul_mod_self_left, Nat.mod_eq_of_lt d5]
  refine ⟨q, r, ?_, g2, r2, ?_, ?_⟩
  · simp only [unsignedDiv, ha1, hb1, n1, Option.bind_eq_bind, Option.bind_some]
    by_cases hn : n > 1
    · rw [if_pos hn] at d1 ⊢
      simp only [d1, Option.bind_some, g1, r1]
    · rw [if_neg hn] at d1 ⊢
      have hl : 0 < (zero (nsub w N)).length := by rw [zero_length]; omega
      simp only [rd_eq (show 0 < bs.length by rw [hb2.1]; omega), Option.bind_eq_bind, Option.bind_some] at d1 ⊢
      cases hsd : shortDiv I w N as (g bs 0) with
      | none => rw [hsd] at d1; cases d1
      | some p =>
        rw [hsd] at d1
        simp only [Option.bind_some, wr_eq _ hl, Option.some.injEq, Prod.mk.injEq] at d1 ⊢
        rw [d1.1, d1.2, g1, r1]; rfl
  · rw [g3, hqe, Nat.mod_eq_of_lt (Nat.lt_of_le_of_lt (Nat.div_le_self _ _) hA)]
  · rw [r3, hre, Nat.mod_eq_of_lt (Nat.lt_of_le_of_lt (Nat.mod_le _ _) hA)]

end Verif.MulPrec
