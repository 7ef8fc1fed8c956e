import Verif.MulPrec.Signed
/-!
Bit operations, shifts, extreme values and the position of the most significant bit.
-/
namespace Verif.MulPrec
open Verif.Integer Verif.MulPrec.Spec

theorem toT_lt' (w x : Nat) : x % 2 ^ w < 2 ^ w := Nat.mod_lt _ (two_pos w)

/-! ### Bit operations -/

theorem band_spec {I w N : Nat} (hp : I ≠ w) {a b : List Nat} (ha : D (2 ^ w) N a) (hb : D (2 ^ w) N b) :
    ∃ r, band I w N a b = some r ∧ D (2 ^ w) N r ∧ uval w r = uval w a &&& uval w b := by
  obtain ⟨r, h1, h2, h3⟩ := map2_spec ha hb (fun x y => toT w (bitAnd (P I w) x y)) (fun i _ => toT_lt _ _)
  refine ⟨r, h1, h2, bits_spec ha hb h2 (p := (· && ·)) (fun x y i => Nat.testBit_and x y i)
    (fun n x y hx _ => Nat.lt_of_le_of_lt Nat.and_le_left hx) fun i hi => ?_⟩
  rw [h3 i hi, bitAnd_nat hp (ha.2 i hi) (hb.2 i hi), toT_nat (Nat.lt_of_le_of_lt Nat.and_le_left (ha.2 i hi))]

theorem bor_spec {I w N : Nat} (hp : I ≠ w) {a b : List Nat} (ha : D (2 ^ w) N a) (hb : D (2 ^ w) N b) :
    ∃ r, bor I w N a b = some r ∧ D (2 ^ w) N r ∧ uval w r = uval w a ||| uval w b := by
  obtain ⟨r, h1, h2, h3⟩ := map2_spec ha hb (fun x y => toT w (bitOr (P I w) x y)) (fun i _ => toT_lt _ _)
  refine ⟨r, h1, h2, bits_spec ha hb h2 (p := (· || ·)) (fun x y i => Nat.testBit_or x y i)
    (fun n x y hx hy => or_lt hx hy) fun i hi => ?_⟩
  rw [h3 i hi, bitOr_nat hp (ha.2 i hi) (hb.2 i hi), toT_nat (or_lt (ha.2 i hi) (hb.2 i hi))]

theorem bxor_spec {I w N : Nat} (hp : I ≠ w) {a b : List Nat} (ha : D (2 ^ w) N a) (hb : D (2 ^ w) N b) :
    ∃ r, bxor I w N a b = some r ∧ D (2 ^ w) N r ∧ uval w r = uval w a ^^^ uval w b := by
  obtain ⟨r, h1, h2, h3⟩ := map2_spec ha hb (fun x y => toT w (bitXor (P I w) x y)) (fun i _ => toT_lt _ _)
  refine ⟨r, h1, h2, bits_spec ha hb h2 (p := fun x y => x ^^ y) (fun x y i => Nat.testBit_xor x y i)
    (fun n x y hx hy => Nat.xor_lt_two_pow hx hy) fun i hi => ?_⟩
  have hx := Nat.xor_lt_two_pow (ha.2 i hi) (hb.2 i hi)
  rw [h3 i hi, bitXor, bitsOf_nat hp (ha.2 i hi), bitsOf_nat hp (hb.2 i hi), cast_id (P_In hp hx), toT_nat hx]

theorem V_compl {B N : Nat} {f h : Nat → Nat} (hB : 0 < B) (hh : ∀ i < N, f i + h i = B - 1) : V B f N + V B h N + 1 = B ^ N := by
  induction N with
  | zero => rfl
  | succ N ih =>
    rw [V_succ, V_succ, pow_succ]
    have h1 := ih fun i hi => hh i (by omega)
    have h2 := hh N (by omega)
    have h3 : f N * B ^ N + h N * B ^ N = B ^ N * B - B ^ N := by
      rw [← Nat.add_mul, h2, Nat.sub_mul, Nat.mul_comm]; omega
    have : B ^ N * 1 ≤ B ^ N * B := Nat.mul_le_mul_left _ hB
    omega

theorem bnot_spec {I w N : Nat} (hp : I ≠ w) {a : List Nat} (ha : D (2 ^ w) N a) :
    ∃ r, bnot I w N a = some r ∧ D (2 ^ w) N r ∧ uval w r + uval w a + 1 = 2 ^ (w * N) := by
  obtain ⟨r, h1, h2, h3⟩ := loop_inv
    (body := fun i res => do wr res i (toT w (bitNot (P I w) (← rd a i : Nat))))
    (Inv := fun i (st : List Nat) => D (2 ^ w) N st ∧ ∀ k < i, g st k + g a k = 2 ^ w - 1)
    N 0 (zero N) ⟨D_zero (two_pos w) N, fun k hk => by omega⟩ (by
      rintro i st - hi ⟨h1, h2⟩
      rw [Nat.zero_add] at hi
      have hl : i < st.length := by rw [h1.1]; exact hi
      simp only [rd_eq (show i < a.length by rw [ha.1]; exact hi), Option.bind_eq_bind, Option.bind_some, wr_eq _ hl]
      refine ⟨_, rfl, D_set h1 (toT_lt _ _), fun k hk => ?_⟩
      by_cases hki : i = k
      · subst hki
        rw [g_set_eq _ hl]
        have hx := ha.2 i hi
        have : toT w (bitNot (P I w) (g a i : Int)) = 2 ^ w - 1 - g a i := by
          rw [bitNot, toT_cast hp, toT_congr (y := ((2 ^ w - 1 - g a i : Nat) : Int)) ⟨-1, by
            have := cast_pow w; omega⟩, toT_nat (by omega)]
        omega
      · rw [g_set_ne _ hki]; exact h2 k (by omega))
  rw [Nat.zero_add] at h3
  refine ⟨r, h1, h2, ?_⟩
  rw [uval_D h2, uval_D ha, pow_mul]
  exact V_compl (two_pos w) h3

/-! ### Shifts -/

theorem left_digit {I w b x y : Nat} (hp : I ≠ w) (hb0 : 0 < b) (hb : b < w) (hy : y < 2 ^ w) :
    ∃ z1 z2, shl (P I w) (x : Int) b = some z1 ∧ shr (P I w) (y : Int) (w - b) = some z2 ∧
      ∀ j < w, (toT w (bitOr (P I w) z1 z2)).testBit j = if b ≤ j then x.testBit (j - b) else y.testBit (j + (w - b)) := by
  obtain ⟨z1, e1, e2⟩ := shl_toT (I := I) (x := x) hp hb
  have hz : y / 2 ^ (w - b) < 2 ^ w := Nat.lt_of_le_of_lt (Nat.div_le_self _ _) hy
  refine ⟨z1, _, e1, shr_nat hp (by omega), fun j hj => ?_⟩
  rw [bitOr_comm, toT_bitOr hp hz, e2, Nat.testBit_or, Nat.testBit_mod_two_pow, decide_eq_true hj, Bool.true_and,
    Nat.testBit_mul_two_pow, Nat.testBit_div_two_pow]
  by_cases h : b ≤ j
  · rw [if_pos h, testBit_lt hy (by omega), Bool.false_or, decide_eq_true h, Bool.true_and]
  · rw [if_neg h, decide_eq_false h, Bool.false_and, Bool.or_false]

theorem shiftLeft_spec {I w N n : Nat} (hp : I ≠ w) (hw : 2 ≤ w) (hN : 0 < N) {x : List Nat} (hx : D (2 ^ w) N x) :
    ∃ r, shiftLeft I w N x n = some r ∧ D (2 ^ w) N r ∧ uval w r = uval w x * 2 ^ (n % (w * N)) % 2 ^ (w * N) := by
  have hW := W_pos hw hN
  have hm := Nat.mod_lt n hW
  have hNw : N * w = w * N := Nat.mul_comm _ _
  unfold shiftLeft
  rw [hNw]
  generalize n % (w * N) = m at *
  have hdm := Nat.div_add_mod m w
  have hbw := Nat.mod_lt m (show 0 < w by omega)
  have haN : m / w < N := Nat.div_lt_of_lt_mul hm
  simp only
  generalize m / w = a at *
  generalize m % w = b at *
  have hlx : ∀ i < N, rd x i = some (g x i) := fun i hi => rd_eq (by rw [hx.1]; exact hi)
  -- it is sufficient to know the bits
  have fin : ∀ r, D (2 ^ w) N r → (∀ k < N, ∀ j < w, (g r k).testBit j =
      (decide (m ≤ w * k + j) && (uval w x).testBit (w * k + j - m))) → uval w r = uval w x * 2 ^ m % 2 ^ (w * N) := by
    intro r hr h
    rw [uval_D hr, V_of_testBit hr]
    intro k hk j hj
    rw [h k hk j hj, Nat.testBit_mul_two_pow]
  have hlow : ∀ k j, k < a → j < w → ¬ m ≤ w * k + j := by
    intro k j hk hj
    have : w * (k + 1) ≤ w * a := Nat.mul_le_mul_left _ hk
    rw [Nat.mul_succ] at this
    omega
  have hbit : ∀ i < N, ∀ j < w, (g x i).testBit j = (uval w x).testBit (w * i + j) := fun i hi j hj => by
    rw [uval_D hx]; exact testBit_V hx hi hj
  by_cases hb : b ≠ 0
  · rw [if_pos hb]
    have hl0 : a < (zero N).length := by rw [zero_length]; exact haN
    obtain ⟨z, z1, z2⟩ := shl_toT (I := I) (x := g x 0) hp hbw
    simp only [hlx 0 hN, Option.bind_eq_bind, Option.bind_some, z1, z2, wr_eq _ hl0]
    obtain ⟨r, h1, h2, h3, h4⟩ := loop_inv
      (body := fun i res => do
        let hi ← shl (P I w) (← rd x i : Nat) b
        let lo ← shr (P I w) (← rd x (i - 1) : Nat) (w - b)
        wr res (a + i) (toT w (bitOr (P I w) hi lo)))
      (Inv := fun i (res : List Nat) => D (2 ^ w) N res ∧ (∀ k < a, g res k = 0) ∧
        ∀ k, a ≤ k → k < a + i → ∀ j < w, (g res k).testBit j =
          (decide (m ≤ w * k + j) && (uval w x).testBit (w * k + j - m)))
      (N - a - 1) 1 ((zero N).set a (g x 0 * 2 ^ b % 2 ^ w))
      ⟨D_set (D_zero (two_pos w) N) (Nat.mod_lt _ (two_pos w)), fun k hk => by rw [g_set_ne _ (by omega), g_zero],
        fun k hk1 hk2 j hj => by
          have : k = a := by omega
          subst this
          rw [g_set_eq _ hl0, Nat.testBit_mod_two_pow, decide_eq_true hj, Bool.true_and, Nat.testBit_mul_two_pow]
          by_cases hbj : b ≤ j
          · rw [decide_eq_true hbj, decide_eq_true (show m ≤ w * k + j by omega), Bool.true_and, Bool.true_and,
              hbit 0 hN _ (by omega)]
            congr 1; omega
          · rw [decide_eq_false hbj, decide_eq_false (show ¬ m ≤ w * k + j by omega), Bool.false_and, Bool.false_and]⟩ (by
        rintro i res h1i hi ⟨a1, a2, a3⟩
        have hl : a + i < res.length := by rw [a1.1]; omega
        obtain ⟨y1, y2, y3, y4, y5⟩ := left_digit (I := I) (x := g x i) hp (Nat.pos_of_ne_zero hb) hbw (hx.2 (i - 1) (by omega))
        simp only [hlx i (by omega), hlx (i - 1) (by omega), Option.bind_eq_bind, Option.bind_some, y3, y4, wr_eq _ hl]
        refine ⟨_, rfl, D_set a1 (toT_lt _ _), fun k hk => by rw [g_set_ne _ (by omega), a2 k hk], fun k hk1 hk2 j hj => ?_⟩
        by_cases hk : k = a + i
        · subst hk
          rw [g_set_eq _ hl, y5 j hj]
          have e1 : w * (a + i) = w * a + w * i := by ring
          have e2 : w * i = w * (i - 1) + w := by
            obtain ⟨t, rfl⟩ : ∃ t, i = t + 1 := ⟨i - 1, by omega⟩
            rw [Nat.mul_succ, Nat.add_sub_cancel]
          rw [decide_eq_true (show m ≤ w * (a + i) + j by omega), Bool.true_and]
          split
          · rw [hbit i (by omega) _ (by omega)]
            congr 1; omega
          · rw [hbit (i - 1) (by omega) _ (by omega)]
            congr 1; omega
        · rw [g_set_ne _ (by omega)]
          exact a3 k hk1 (by omega) j hj)
    refine ⟨r, h1, h2, fin r h2 fun k hk j hj => ?_⟩
    by_cases hka : k < a
    · rw [h3 k hka, Nat.zero_testBit, decide_eq_false (hlow k j hka hj), Bool.false_and]
    · exact h4 k (by omega) (by omega) j hj
  · rw [if_neg hb]
    obtain ⟨r, h1, h2, h3, h4⟩ := loop_inv
      (body := fun i res => do wr res (a + i) (← rd x i))
      (Inv := fun i (res : List Nat) => D (2 ^ w) N res ∧ (∀ k < a, g res k = 0) ∧ ∀ k < i, g res (a + k) = g x k)
      (N - a) 0 (zero N) ⟨D_zero (two_pos w) N, fun k _ => g_zero _ _, fun k hk => by omega⟩ (by
        rintro i res - hi ⟨a1, a2, a3⟩
        rw [Nat.zero_add] at hi
        have hl : a + i < res.length := by rw [a1.1]; omega
        simp only [hlx i (by omega), Option.bind_eq_bind, Option.bind_some, wr_eq _ hl]
        refine ⟨_, rfl, D_set a1 (hx.2 i (by omega)), fun k hk => by rw [g_set_ne _ (by omega), a2 k hk], fun k hk => ?_⟩
        by_cases hki : k = i
        · subst hki; rw [g_set_eq _ hl]
        · rw [g_set_ne _ (by omega), a3 k (by omega)])
    refine ⟨r, h1, h2, fin r h2 fun k hk j hj => ?_⟩
    by_cases hka : k < a
    · rw [h3 k hka, Nat.zero_testBit, decide_eq_false (hlow k j hka hj), Bool.false_and]
    · have h5 := h4 (k - a) (by omega)
      rw [show a + (k - a) = k by omega] at h5
      have e1 : w * k = w * a + w * (k - a) := by rw [← Nat.mul_add]; congr 1; omega
      rw [h5, hbit (k - a) (by omega) j hj, decide_eq_true (show m ≤ w * k + j by omega), Bool.true_and]
      congr 1; omega

theorem right_digit {I w b x y : Nat} (hp : I ≠ w) (hb0 : 0 < b) (hb : b < w) (hx : x < 2 ^ w) :
    ∃ z1 z2, shr (P I w) (x : Int) b = some z1 ∧ shl (P I w) (y : Int) (w - b) = some z2 ∧
      ∀ j < w, (toT w (bitOr (P I w) z1 z2)).testBit j = if j + b < w then x.testBit (j + b) else y.testBit (j + b - w) := by
  obtain ⟨z2, e1, e2⟩ := shl_toT (I := I) (x := y) hp (show w - b < w by omega)
  have hz : x / 2 ^ b < 2 ^ w := Nat.lt_of_le_of_lt (Nat.div_le_self _ _) hx
  refine ⟨_, z2, shr_nat hp (by omega), e1, fun j hj => ?_⟩
  rw [toT_bitOr hp hz, e2, Nat.testBit_or, Nat.testBit_mod_two_pow, decide_eq_true hj, Bool.true_and,
    Nat.testBit_mul_two_pow, Nat.testBit_div_two_pow]
  by_cases h : j + b < w
  · rw [if_pos h, decide_eq_false (show ¬ w - b ≤ j by omega), Bool.false_and, Bool.or_false]
  · rw [if_neg h, testBit_lt hx (by omega), Bool.false_or, decide_eq_true (show w - b ≤ j by omega), Bool.true_and]
    congr 1; omega

theorem shiftRight_spec {I w N n : Nat} (hp : I ≠ w) (hw : 2 ≤ w) (hN : 0 < N) {x : List Nat} (hx : D (2 ^ w) N x) :
    ∃ r, shiftRight I w N x n = some r ∧ D (2 ^ w) N r ∧ uval w r = uval w x / 2 ^ (n % (w * N)) := by
  have hW := W_pos hw hN
  have hm := Nat.mod_lt n hW
  have hNw : N * w = w * N := Nat.mul_comm _ _
  unfold shiftRight
  rw [hNw]
  generalize n % (w * N) = m at *
  have hdm := Nat.div_add_mod m w
  have hbw := Nat.mod_lt m (show 0 < w by omega)
  have haN : m / w < N := Nat.div_lt_of_lt_mul hm
  simp only
  generalize m / w = a at *
  generalize m % w = b at *
  have hlx : ∀ i < N, rd x i = some (g x i) := fun i hi => rd_eq (by rw [hx.1]; exact hi)
  have hX := uval_lt hx
  have fin : ∀ r, D (2 ^ w) N r → (∀ k < N, ∀ j < w, (g r k).testBit j = (uval w x).testBit (w * k + j + m)) →
      uval w r = uval w x / 2 ^ m := by
    intro r hr h
    rw [uval_D hr, V_of_testBit (X := uval w x / 2 ^ m) hr, Nat.mod_eq_of_lt (Nat.lt_of_le_of_lt (Nat.div_le_self _ _) hX)]
    intro k hk j hj
    rw [h k hk j hj, Nat.testBit_div_two_pow]
  have hbit : ∀ i < N, ∀ j < w, (g x i).testBit j = (uval w x).testBit (w * i + j) := fun i hi j hj => by
    rw [uval_D hx]; exact testBit_V hx hi hj
  have hhigh : ∀ k j, N ≤ k + a → (uval w x).testBit (w * k + j + m) = false := by
    intro k j hk
    apply testBit_lt hX
    have : w * N ≤ w * (k + a) := Nat.mul_le_mul_left _ hk
    rw [Nat.mul_add] at this
    omega
  by_cases hb : b ≠ 0
  · rw [if_pos hb]
    obtain ⟨r, h1, h2, h3, h4⟩ := loop_inv
      (body := fun i res => do
        let lo ← shr (P I w) (← rd x (a + i) : Nat) b
        let hi ← shl (P I w) (← rd x (a + i + 1) : Nat) (w - b)
        wr res i (toT w (bitOr (P I w) lo hi)))
      (Inv := fun i (res : List Nat) => D (2 ^ w) N res ∧ (∀ k, i ≤ k → g res k = 0) ∧
        ∀ k < i, ∀ j < w, (g res k).testBit j = (uval w x).testBit (w * k + j + m))
      (N - 1 - a) 0 (zero N) ⟨D_zero (two_pos w) N, fun k _ => g_zero _ _, fun k hk => by omega⟩ (by
        rintro i res - hi ⟨a1, a2, a3⟩
        rw [Nat.zero_add] at hi
        have hl : i < res.length := by rw [a1.1]; omega
        obtain ⟨y1, y2, y3, y4, y5⟩ := right_digit (I := I) (y := g x (a + i + 1)) hp (Nat.pos_of_ne_zero hb) hbw
          (hx.2 (a + i) (by omega))
        simp only [hlx (a + i) (by omega), hlx (a + i + 1) (by omega), Option.bind_eq_bind, Option.bind_some, y3, y4, wr_eq _ hl]
        refine ⟨_, rfl, D_set a1 (toT_lt _ _), fun k hk => by rw [g_set_ne _ (by omega), a2 k (by omega)], fun k hk j hj => ?_⟩
        by_cases hki : k = i
        · subst hki
          rw [g_set_eq _ hl, y5 j hj]
          have e1 : w * (a + k) = w * a + w * k := by ring
          have e2 : w * (a + k + 1) = w * a + w * k + w := by ring
          split
          · rw [hbit (a + k) (by omega) _ (by omega)]
            congr 1; omega
          · rw [hbit (a + k + 1) (by omega) _ (by omega)]
            congr 1; omega
        · rw [g_set_ne _ (by omega)]
          exact a3 k (by omega) j hj)
    simp only [Nat.zero_add] at h3 h4
    have hl : N - 1 - a < r.length := by rw [h2.1]; omega
    have hlast := hx.2 (N - 1) (by omega)
    have hq : g x (N - 1) / 2 ^ b < 2 ^ w := Nat.lt_of_le_of_lt (Nat.div_le_self _ _) hlast
    have hdd : D (2 ^ w) N (r.set (N - 1 - a) (g x (N - 1) / 2 ^ b)) := D_set h2 hq
    refine ⟨r.set (N - 1 - a) (g x (N - 1) / 2 ^ b), ?_, hdd, fin _ hdd fun k hk j hj => ?_⟩
    · simp only [Option.bind_eq_bind] at h1 ⊢
      rw [h1]
      simp only [Option.bind_some, hlx (N - 1) (by omega), shr_nat hp hbw, toT_nat hq, wr_eq _ hl]
    · by_cases hk1 : k = N - 1 - a
      · rw [hk1, g_set_eq _ hl, Nat.testBit_div_two_pow]
        have e1 : w * (N - 1 - a) + w * a = w * (N - 1) := by rw [← Nat.mul_add]; congr 1; omega
        have e2 : w * N = w * (N - 1) + w := by
          obtain ⟨t, rfl⟩ : ∃ t, N = t + 1 := ⟨N - 1, by omega⟩
          rw [Nat.mul_succ, Nat.add_sub_cancel]
        by_cases hjb : j + b < w
        · rw [hbit (N - 1) (by omega) _ hjb]
          congr 1; omega
        · rw [testBit_lt hlast (by omega), testBit_lt hX (by omega)]
      · rw [g_set_ne _ (by omega)]
        by_cases hk2 : k < N - 1 - a
        · exact h4 k hk2 j hj
        · rw [h3 k (by omega), Nat.zero_testBit, hhigh k j (by omega)]
  · rw [if_neg hb]
    obtain ⟨r, h1, h2, h3, h4⟩ := loop_inv
      (body := fun i res => do wr res i (← rd x (i + a)))
      (Inv := fun i (res : List Nat) => D (2 ^ w) N res ∧ (∀ k, i ≤ k → g res k = 0) ∧ ∀ k < i, g res k = g x (k + a))
      (N - a) 0 (zero N) ⟨D_zero (two_pos w) N, fun k _ => g_zero _ _, fun k hk => by omega⟩ (by
        rintro i res - hi ⟨a1, a2, a3⟩
        rw [Nat.zero_add] at hi
        have hl : i < res.length := by rw [a1.1]; omega
        simp only [hlx (i + a) (by omega), Option.bind_eq_bind, Option.bind_some, wr_eq _ hl]
        refine ⟨_, rfl, D_set a1 (hx.2 (i + a) (by omega)), fun k hk => by rw [g_set_ne _ (by omega), a2 k (by omega)],
          fun k hk => ?_⟩
        by_cases hki : k = i
        · subst hki; rw [g_set_eq _ hl]
        · rw [g_set_ne _ (by omega), a3 k (by omega)])
    simp only [Nat.zero_add] at h3 h4
    refine ⟨r, h1, h2, fin r h2 fun k hk j hj => ?_⟩
    by_cases hka : k < N - a
    · have e1 : w * (k + a) = w * a + w * k := by ring
      rw [h4 k hka, hbit (k + a) (by omega) j hj]
      congr 1; omega
    · rw [h3 k (by omega), Nat.zero_testBit, hhigh k j (by omega)]

/-! ### Extreme values -/

theorem minVal_spec {I w N : Nat} {S : Bool} (hp : I ≠ w) (hw : 2 ≤ w) (hN : 0 < N) :
    ∃ r, minVal I w N S = some r ∧ D (2 ^ w) N r ∧ uval w r = if S then 2 ^ (w * N - 1) else 0 := by
  have hz := D_zero (two_pos w) N
  cases S
  · refine ⟨zero N, rfl, hz, ?_⟩
    rw [uval_D hz, V_zeroArr]; rfl
  · have hl : N - 1 < (zero N).length := by rw [zero_length]; omega
    have hlt : 2 ^ (w - 1) < 2 ^ w := Nat.pow_lt_pow_right (by omega) (by omega)
    have h1w : 1 < 2 ^ w := Nat.one_lt_two_pow (by omega)
    have e1 : toT w 1 = 1 := toT_nat (x := 1) h1w
    have hd : D (2 ^ w) N ((zero N).set (N - 1) (2 ^ (w - 1))) := D_set hz hlt
    refine ⟨(zero N).set (N - 1) (2 ^ (w - 1)), ?_, hd, ?_⟩
    · simp only [minVal, if_true, e1]
      rw [shl_nat hp (by omega) (by omega)]
      simp only [Option.bind_eq_bind, Option.bind_some]
      rw [toT_nat (by omega), Nat.one_mul, wr_eq _ hl]
    · have := V_set (B := 2 ^ w) (v := 2 ^ (w - 1)) hl (show N - 1 < N by omega)
      rw [V_zeroArr, g_zero] at this
      rw [uval_D hd]
      simp only [Nat.zero_mul, Nat.add_zero, Nat.zero_add] at this
      rw [this, if_pos rfl, ← pow_mul, ← pow_add]
      congr 1
      obtain ⟨t, rfl⟩ : ∃ t, N = t + 1 := ⟨N - 1, by omega⟩
      rw [Nat.add_sub_cancel, Nat.mul_succ]; omega

theorem V_max {B N : Nat} {f : Nat → Nat} (hB : 0 < B) (hf : ∀ i < N, f i = B - 1) : V B f N + 1 = B ^ N := by
  have := V_compl (B := B) (N := N) (f := f) (h := fun _ => 0) hB (fun i hi => by rw [hf i hi]; rfl)
  rwa [V_const_zero] at this

theorem maxVal_spec {I w N : Nat} {S : Bool} (hp : I ≠ w) (hw : 2 ≤ w) (hN : 0 < N) :
    ∃ r, maxVal I w N S = some r ∧ D (2 ^ w) N r ∧ uval w r + 1 = if S then 2 ^ (w * N - 1) else 2 ^ (w * N) := by
  have hpos := two_pos w
  have hmx : (T w).max.toNat = 2 ^ w - 1 := by
    have : (T w).max = 2 ^ w - 1 := rfl
    have := cast_pow w
    omega
  obtain ⟨r, h1, h2, h3⟩ := loop_inv (body := fun i parts => wr parts i (2 ^ w - 1))
    (Inv := fun i (st : List Nat) => D (2 ^ w) N st ∧ ∀ k < i, g st k = 2 ^ w - 1)
    N 0 (zero N) ⟨D_zero hpos N, fun k hk => by omega⟩ (by
      rintro i st - hi ⟨h1, h2⟩
      rw [Nat.zero_add] at hi
      have hl : i < st.length := by rw [h1.1]; exact hi
      refine ⟨_, wr_eq _ hl, D_set h1 (by omega), fun k hk => ?_⟩
      by_cases hki : i = k
      · subst hki; rw [g_set_eq _ hl]
      · rw [g_set_ne _ hki]; exact h2 k (by omega))
  rw [Nat.zero_add] at h3
  simp only [maxVal, hmx, h1, Option.bind_eq_bind, Option.bind_some]
  cases S
  · refine ⟨r, rfl, h2, ?_⟩
    rw [uval_D h2, V_max hpos h3, ← pow_mul]; rfl
  · have hl : N - 1 < r.length := by rw [h2.1]; omega
    have hh := half_nat (show 0 < w by omega)
    have hdv : (2 ^ w - 1) / 2 = 2 ^ (w - 1) - 1 := by have := two_pos (w - 1); omega
    have hd : D (2 ^ w) N (r.set (N - 1) (2 ^ (w - 1) - 1)) := D_set h2 (by omega)
    refine ⟨r.set (N - 1) (2 ^ (w - 1) - 1), ?_, hd, ?_⟩
    · have := divOp_nat (I := I) (w := w) (x := 2 ^ w - 1) (y := 2) hp (by omega) (by omega)
      rw [if_pos rfl]
      rw [show ((2 : Nat) : Int) = 2 from rfl] at this
      rw [this]
      simp only [Option.bind_some]
      rw [hdv, toT_nat (by omega), wr_eq _ hl]
    · rw [if_pos rfl, uval_D hd]
      obtain ⟨t, rfl⟩ : ∃ t, N = t + 1 := ⟨N - 1, by omega⟩
      rw [Nat.add_sub_cancel] at hl ⊢
      rw [V_succ, V_set_ge (Nat.le_refl _), g_set_eq _ hl]
      have h5 := V_max (B := 2 ^ w) (N := t) (f := g r) hpos (fun i hi => h3 i (by omega))
      have e : 2 ^ (w * (t + 1) - 1) = 2 ^ (w - 1) * (2 ^ w) ^ t := by
        rw [← pow_mul, ← pow_add]; congr 1
        rw [Nat.mul_succ]; omega
      have : (2 ^ (w - 1) - 1) * (2 ^ w) ^ t + (2 ^ w) ^ t = 2 ^ (w - 1) * (2 ^ w) ^ t := by
        rw [Nat.sub_mul, Nat.one_mul]
        have : 1 * (2 ^ w) ^ t ≤ 2 ^ (w - 1) * (2 ^ w) ^ t := Nat.mul_le_mul_right _ (two_pos _)
        omega
      rw [e]; omega

/-! ### The most significant bit -/

theorem msbLoop_spec {w N : Nat} {a : List Nat} (ha : D (2 ^ w) N a) :
    ∀ k ≤ N, ∃ p, msbLoop w a k = some p ∧
      ((V (2 ^ w) (g a) k = 0 ∧ p = -1) ∨ ∃ m : Nat, p = m ∧ 2 ^ m ≤ V (2 ^ w) (g a) k ∧ V (2 ^ w) (g a) k < 2 ^ (m + 1)) := by
  intro k
  induction k with
  | zero => intro _; exact ⟨-1, rfl, .inl ⟨rfl, rfl⟩⟩
  | succ k ih =>
    intro hk
    obtain ⟨p, h1, h2⟩ := ih (by omega)
    simp only [msbLoop, rd_eq (show k < a.length by rw [ha.1]; omega), Option.bind_eq_bind, Option.bind_some]
    by_cases h0 : g a k = 0
    · rw [if_neg (by simpa using h0), V_succ, h0, Nat.zero_mul, Nat.add_zero]
      exact ⟨p, h1, h2⟩
    · rw [if_pos h0]
      have hx := ha.2 k (by omega)
      have hlow : V (2 ^ w) (g a) k < (2 ^ w) ^ k := V_lt fun i hi => ha.2 i (by omega)
      have hb : bitsOf (T w) (g a k : Int) = g a k := by
        rw [bitsOf_mod, show (T w).width = w from rfl, Nat.mod_eq_of_lt hx]
      have hm : findMsbPos (T w) (g a k : Int) = (Nat.log2 (g a k) : Int) := by
        have := (Nat.log2_lt h0).2 hx
        simp only [findMsbPos, hb, show (T w).width = w from rfl]
        rw [if_neg h0]
        omega
      refine ⟨_, rfl, .inr ⟨k * w + Nat.log2 (g a k), by rw [hm]; push_cast; rfl, ?_, ?_⟩⟩
      · rw [V_succ]
        have : 2 ^ (k * w + Nat.log2 (g a k)) ≤ g a k * (2 ^ w) ^ k := by
          rw [Nat.add_comm, pow_add, Nat.mul_comm k w, pow_mul]
          exact Nat.mul_le_mul_right _ (Nat.log2_self_le h0)
        omega
      · rw [V_succ, show k * w + Nat.log2 (g a k) + 1 = (Nat.log2 (g a k) + 1) + w * k by rw [Nat.mul_comm]; omega, pow_add,
          pow_mul]
        have : (g a k + 1) * (2 ^ w) ^ k ≤ 2 ^ (Nat.log2 (g a k) + 1) * (2 ^ w) ^ k :=
          Nat.mul_le_mul_right _ Nat.lt_log2_self
        rw [Nat.add_mul] at this
        omega

end Verif.MulPrec
