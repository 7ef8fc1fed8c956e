import Verif.MulPrec.CopyModel
import Verif.MulPrec.Shift
/-!
Copying of bits.
-/
namespace Verif.MulPrec
open Verif.Integer Verif.MulPrec.Spec

/-- A bit of the sign extended representation. -/
def ebit (W : Nat) (S : Bool) (X p : Nat) : Bool := if p < W then X.testBit p else S && X.testBit (W - 1)

theorem copyExt_spec {I w1 N t : Nat} {S : Bool} {a : List Nat} (hp : I ≠ w1) (hI : 1 ≤ I) (hw : 1 ≤ w1) (hN : 0 < N)
    (ha : D (2 ^ w1) N a) :
    ∃ e, copyExt I w1 N t S a = some e ∧ ∀ j < t, e.testBit j = (S && (uval w1 a).testBit (w1 * N - 1)) := by
  have hpI := p_pos I
  have h2I : (2 : Int) ≤ 2 ^ I := by
    calc (2 : Int) = 2 ^ 1 := rfl
      _ ≤ 2 ^ I := p_le hI
  have hpr : promote I (intTy I) = intTy I := by simp [promote, intTy]
  have har : ∀ x : Int, -1 ≤ x → x ≤ 0 → arith I (intTy I) x = some x := by
    intro x h1 h2
    have hIn : (intTy I).In x := by rw [show intTy I = ⟨true, I⟩ from rfl, In_s]; omega
    simp only [arith, hpr]
    rw [show intTy I = ⟨true, I⟩ from rfl] at *
    simp [hIn]
  cases S
  · refine ⟨0, ?_, fun j _ => by simp⟩
    simp only [copyExt, Bool.false_eq_true, if_false]
    rw [har _ (by omega) (by omega)]
    simp [toT_emod]
  · have hlast := ha.2 (N - 1) (by omega)
    have htop : (g a (N - 1)).testBit (w1 - 1) = (uval w1 a).testBit (w1 * N - 1) := by
      rw [uval_D ha, testBit_V ha (by omega) (by omega)]
      congr 1
      obtain ⟨k, rfl⟩ : ∃ k, N = k + 1 := ⟨N - 1, by omega⟩
      rw [Nat.add_sub_cancel, Nat.mul_succ]; omega
    have hh := half_nat (show 0 < w1 by omega)
    have hq : g a (N - 1) / 2 ^ (w1 - 1) = ((g a (N - 1)).testBit (w1 - 1)).toNat := by
      rw [Nat.testBit_eq_decide_div_mod_eq]
      have h1 : g a (N - 1) / 2 ^ (w1 - 1) < 2 := Nat.div_lt_of_lt_mul (by rw [Nat.mul_comm]; omega)
      generalize g a (N - 1) / 2 ^ (w1 - 1) = q at *
      rcases (show q = 0 ∨ q = 1 by omega) with h | h <;> subst h <;> rfl
    simp only [copyExt, if_true, rd_eq (show N - 1 < a.length by rw [ha.1]; omega), Option.bind_eq_bind, Option.bind_some,
      shr_nat hp (show w1 - 1 < w1 by omega), hq, htop]
    cases hb : (uval w1 a).testBit (w1 * N - 1)
    · have hc : cast (intTy I) ((false.toNat : Nat) : Int) = 0 := by
        rw [cast_id]
        · rfl
        · rw [show intTy I = ⟨true, I⟩ from rfl, In_s]; simp only [Bool.toNat_false]; omega
      rw [hc, har _ (by omega) (by omega)]
      refine ⟨_, rfl, fun j _ => by simp [toT_emod]⟩
    · have hc : cast (intTy I) ((true.toNat : Nat) : Int) = 1 := by
        rw [cast_id]
        · rfl
        · rw [show intTy I = ⟨true, I⟩ from rfl, In_s]; simp only [Bool.toNat_true]; omega
      rw [hc, har _ (by omega) (by omega)]
      refine ⟨_, rfl, fun j hj => ?_⟩
      have hpt := two_pos t
      rw [toT_congr (y := ((2 ^ t - 1 : Nat) : Int)) ⟨-1, by have := cast_pow t; omega⟩, toT_nat (by omega),
        Nat.testBit_two_pow_sub_one, decide_eq_true hj]
      rfl

theorem testBit_modp (x : Nat) {w j : Nat} (hj : j < w) : (x % 2 ^ w).testBit j = x.testBit j := by
  rw [Nat.testBit_mod_two_pow, decide_eq_true hj, Bool.true_and]

theorem copyFill_spec {w2 M e i : Nat} {c : Bool} {parts2 : List Nat} {f : Nat → Bool} (hd : D (2 ^ w2) M parts2) (hi : i ≤ M)
    (he : ∀ j < w2, e.testBit j = c) (hdone : ∀ k < i, ∀ j < w2, (g parts2 k).testBit j = f (w2 * k + j))
    (hc : ∀ p, w2 * i ≤ p → f p = c) :
    ∃ r, copyFill w2 M e i parts2 = some r ∧ D (2 ^ w2) M r ∧ ∀ k < M, ∀ j < w2, (g r k).testBit j = f (w2 * k + j) := by
  obtain ⟨r, h1, h2, h3⟩ := loop_inv (body := fun k p => wr p k (e % 2 ^ w2))
    (Inv := fun n (r : List Nat) => D (2 ^ w2) M r ∧ ∀ k < n, ∀ j < w2, (g r k).testBit j = f (w2 * k + j))
    (M - i) i parts2 ⟨hd, hdone⟩ (by
      rintro n r hin hn ⟨a1, a2⟩
      have hl : n < r.length := by rw [a1.1]; omega
      refine ⟨_, wr_eq _ hl, D_set a1 (Nat.mod_lt _ (two_pos _)), fun k hk j hj => ?_⟩
      by_cases hkn : k = n
      · subst hkn
        rw [g_set_eq _ hl, testBit_modp _ hj, he j hj, hc]
        have : w2 * i ≤ w2 * k := Nat.mul_le_mul_left _ hin
        omega
      · rw [g_set_ne _ (by omega)]; exact a2 k (by omega) j hj)
  rw [show i + (M - i) = M by omega] at h3
  exact ⟨r, h1, h2, h3⟩

theorem set_bits {w2 M i v : Nat} {parts2 : List Nat} {f : Nat → Bool} (hd : D (2 ^ w2) M parts2) (hi : i < M)
    (hdone : ∀ k < i, ∀ j < w2, (g parts2 k).testBit j = f (w2 * k + j)) (hv : ∀ j < w2, v.testBit j = f (w2 * i + j)) :
    wr parts2 i (v % 2 ^ w2) = some (parts2.set i (v % 2 ^ w2)) ∧ D (2 ^ w2) M (parts2.set i (v % 2 ^ w2)) ∧
      ∀ k < i + 1, ∀ j < w2, (g (parts2.set i (v % 2 ^ w2)) k).testBit j = f (w2 * k + j) := by
  have hl : i < parts2.length := by rw [hd.1]; exact hi
  refine ⟨wr_eq _ hl, D_set hd (Nat.mod_lt _ (two_pos _)), fun k hk j hj => ?_⟩
  by_cases hki : k = i
  · subst hki
    rw [g_set_eq _ hl, testBit_modp _ hj, hv j hj]
  · rw [g_set_ne _ (by omega)]; exact hdone k (by omega) j hj

theorem shl_twice {t x n : Nat} (h1 : 1 < t) (hn : n < t) :
    ∃ y z, shlU t x 1 = some y ∧ shlU t y n = some z ∧ ∀ j < t, z.testBit j = (decide (n + 1 ≤ j) && x.testBit (j - (n + 1))) := by
  refine ⟨_, _, by rw [shlU, if_pos h1], by rw [shlU, if_pos hn], fun j hj => ?_⟩
  rw [testBit_modp _ hj, Nat.testBit_mul_two_pow]
  by_cases h : n ≤ j
  · rw [decide_eq_true h, Bool.true_and, testBit_modp _ (by omega), Nat.testBit_mul_two_pow]
    rw [show decide (1 ≤ j - n) = decide (n + 1 ≤ j) by rw [decide_eq_decide]; omega, show j - n - 1 = j - (n + 1) by omega]
  · rw [decide_eq_false h, decide_eq_false (by omega), Bool.false_and, Bool.false_and]

theorem copyScatter_spec {I w1 w2 N M t : Nat} {S : Bool} {a : List Nat} (hp : I ≠ w1) (hI : 1 ≤ I) (hw2 : 1 ≤ w2) (hw : w2 ≤ w1)
    (hN : 0 < N) (ht1 : I < t) (ht2 : w1 ≤ t) (ha : D (2 ^ w1) N a) :
    ∀ (k i idx1 offset : Nat) (parts2 : List Nat), k + i = M → idx1 < N → offset < w1 → w1 * idx1 + offset = w2 * i →
      D (2 ^ w2) M parts2 →
      (∀ k < i, ∀ j < w2, (g parts2 k).testBit j = ebit (w1 * N) S (uval w1 a) (w2 * k + j)) →
      ∃ r, copyScatter I w1 w2 N M t S a k i idx1 (g a idx1) offset parts2 = some r ∧ D (2 ^ w2) M r ∧
        ∀ k < M, ∀ j < w2, (g r k).testBit j = ebit (w1 * N) S (uval w1 a) (w2 * k + j) := by
  have hbit : ∀ i < N, ∀ j < w1, (g a i).testBit j = ebit (w1 * N) S (uval w1 a) (w1 * i + j) := by
    intro i hi j hj
    have h1 : w1 * (i + 1) ≤ w1 * N := Nat.mul_le_mul_left _ hi
    rw [Nat.mul_succ] at h1
    rw [ebit, if_pos (by omega), uval_D ha]; exact testBit_V ha hi hj
  intro k
  induction k with
  | zero =>
    intro i idx1 offset parts2 h1 h2 h3 h4 h5 h6
    have : i = M := by omega
    subst this
    exact ⟨parts2, rfl, h5, h6⟩
  | succ k ih =>
    intro i idx1 offset parts2 h1 h2 h3 h4 h5 h6
    have hs : shrU t (g a idx1) offset = some (g a idx1 / 2 ^ offset) := by rw [shrU, if_pos (by omega)]
    have hpart := ha.2 idx1 h2
    simp only [copyScatter, hs, Option.bind_eq_bind, Option.bind_some]
    by_cases hc : offset < w1 - w2
    · rw [if_pos hc]
      obtain ⟨s1, s2, s3⟩ := set_bits (v := g a idx1 / 2 ^ offset) h5 (show i < M by omega) h6 (fun j hj => by
        rw [Nat.testBit_div_two_pow, hbit idx1 h2 _ (by omega)]
        congr 1; omega)
      rw [s1]
      exact ih (i + 1) idx1 (offset + w2) _ (by omega) h2 (by omega) (by rw [Nat.mul_succ]; omega) s2 s3
    · rw [if_neg hc]
      have hoff : offset - (w1 - w2) + 1 ≤ w2 := by omega
      have ham : amount w2 (offset - (w1 - w2) + 1) = some (w2 - (offset - (w1 - w2) + 1)) := by rw [amount, if_pos hoff]
      have hfirst : ∀ j < w2, j < w2 - (offset - (w1 - w2)) →
          (g a idx1 / 2 ^ offset).testBit j = ebit (w1 * N) S (uval w1 a) (w2 * i + j) := by
        intro j _ hj
        rw [Nat.testBit_div_two_pow, hbit idx1 h2 _ (by omega)]
        congr 1; omega
      have hzero : ∀ j < w2, w2 - (offset - (w1 - w2)) ≤ j → (g a idx1 / 2 ^ offset).testBit j = false := by
        intro j _ hj
        rw [Nat.testBit_div_two_pow, testBit_lt hpart (by omega)]
      by_cases hn : idx1 + 1 < N
      · rw [if_pos hn]
        obtain ⟨y, z, y1, y2, y3⟩ := shl_twice (x := g a (idx1 + 1)) (show 1 < t by omega)
          (show w2 - (offset - (w1 - w2) + 1) < t by omega)
        simp only [rd_eq (show idx1 + 1 < a.length by rw [ha.1]; exact hn), Option.bind_some, ham, y1, y2]
        obtain ⟨s1, s2, s3⟩ := set_bits (v := g a idx1 / 2 ^ offset ||| z) h5 (show i < M by omega) h6 (fun j hj => by
          rw [Nat.testBit_or, y3 j (by omega)]
          by_cases hj' : j < w2 - (offset - (w1 - w2))
          · rw [hfirst j hj hj', decide_eq_false (by omega), Bool.false_and, Bool.or_false]
          · rw [hzero j hj (by omega), Bool.false_or, decide_eq_true (by omega), Bool.true_and, hbit (idx1 + 1) hn _ (by omega)]
            congr 1
            rw [Nat.mul_succ]; omega)
        rw [s1]
        exact ih (i + 1) (idx1 + 1) (offset - (w1 - w2)) _ (by omega) hn (by omega)
          (by rw [Nat.mul_succ, Nat.mul_succ]; omega) s2 s3
      · rw [if_neg hn]
        have hidx : idx1 = N - 1 := by omega
        obtain ⟨e, e1, e2⟩ := copyExt_spec (t := t) (S := S) hp hI (by omega) hN ha
        obtain ⟨y, z, y1, y2, y3⟩ := shl_twice (x := e) (show 1 < t by omega)
          (show w2 - (offset - (w1 - w2) + 1) < t by omega)
        simp only [e1, Option.bind_some, ham, y1, y2]
        have hW : w1 * N = w1 * idx1 + w1 := by
          rw [hidx, ← Nat.mul_succ]; congr 1; omega
        have hsign : ∀ p, w1 * N ≤ p → ebit (w1 * N) S (uval w1 a) p = (S && (uval w1 a).testBit (w1 * N - 1)) := by
          intro p hp'
          rw [ebit, if_neg (by omega)]
        obtain ⟨s1, s2, s3⟩ := set_bits (v := g a idx1 / 2 ^ offset ||| z) h5 (show i < M by omega) h6 (fun j hj => by
          rw [Nat.testBit_or, y3 j (by omega)]
          by_cases hj' : j < w2 - (offset - (w1 - w2))
          · rw [hfirst j hj hj', decide_eq_false (by omega), Bool.false_and, Bool.or_false]
          · rw [hzero j hj (by omega), Bool.false_or, decide_eq_true (by omega), Bool.true_and, e2 _ (by omega), hsign]
            omega)
        rw [s1]
        exact copyFill_spec s2 (by omega) (fun j hj => e2 j (by omega)) s3 (fun p hp' => hsign p (by
          rw [Nat.mul_succ] at hp'; omega))

theorem shr_twice {t x n : Nat} (h1 : 1 < t) (hn : n < t) :
    ∃ y, shrU t x 1 = some y ∧ shrU t y n = some (x / 2 ^ (n + 1)) := by
  refine ⟨_, by rw [shrU, if_pos h1], ?_⟩
  rw [shrU, if_pos hn, Nat.div_div_eq_div_mul, ← pow_add, Nat.add_comm 1 n]

theorem copyGather_spec {I w1 w2 N M t : Nat} {S : Bool} {a : List Nat} (hp : I ≠ w1) (hI : 1 ≤ I) (hw1 : 1 ≤ w1) (hw : w1 < w2)
    (hN : 0 < N) (ht1 : I < t) (ht2 : w2 ≤ t) (ha : D (2 ^ w1) N a) :
    ∀ (k i idx1 offset part2 : Nat) (parts2 : List Nat), k + idx1 = N → i < M → offset < w2 → w1 * idx1 = w2 * i + offset →
      D (2 ^ w2) M parts2 → part2 < 2 ^ offset → (∀ j < offset, part2.testBit j = ebit (w1 * N) S (uval w1 a) (w2 * i + j)) →
      (∀ k < i, ∀ j < w2, (g parts2 k).testBit j = ebit (w1 * N) S (uval w1 a) (w2 * k + j)) →
      ∃ r, copyGather I w1 w2 N M t S a k idx1 i part2 offset parts2 = some r ∧ D (2 ^ w2) M r ∧
        ∀ k < M, ∀ j < w2, (g r k).testBit j = ebit (w1 * N) S (uval w1 a) (w2 * k + j) := by
  have hbit : ∀ i < N, ∀ j < w1, (g a i).testBit j = ebit (w1 * N) S (uval w1 a) (w1 * i + j) := by
    intro i hi j hj
    have h1 : w1 * (i + 1) ≤ w1 * N := Nat.mul_le_mul_left _ hi
    rw [Nat.mul_succ] at h1
    rw [ebit, if_pos (by omega), uval_D ha]; exact testBit_V ha hi hj
  intro k
  induction k with
  | zero =>
    intro i idx1 offset part2 parts2 h1 h2 h3 h4 h5 h6 h7 h8
    have hidx : idx1 = N := by omega
    subst hidx
    obtain ⟨e, e1, e2⟩ := copyExt_spec (t := t) (S := S) hp hI hw1 hN ha
    have hs : shlU t e offset = some (e * 2 ^ offset % 2 ^ t) := by rw [shlU, if_pos (by omega)]
    have hsign : ∀ p, w1 * idx1 ≤ p → ebit (w1 * idx1) S (uval w1 a) p = (S && (uval w1 a).testBit (w1 * idx1 - 1)) := by
      intro p hp'
      rw [ebit, if_neg (by omega)]
    simp only [copyGather, e1, hs, Option.bind_eq_bind, Option.bind_some]
    obtain ⟨s1, s2, s3⟩ := set_bits (v := part2 ||| e * 2 ^ offset % 2 ^ t) h5 h2 h8 (fun j hj => by
      rw [Nat.testBit_or, testBit_modp _ (by omega), Nat.testBit_mul_two_pow]
      by_cases hj' : j < offset
      · rw [h7 j hj', decide_eq_false (by omega), Bool.false_and, Bool.or_false]
      · rw [testBit_lt h6 (by omega), Bool.false_or, decide_eq_true (by omega), Bool.true_and, e2 _ (by omega), hsign]
        omega)
    rw [s1]
    exact copyFill_spec s2 (by omega) (fun j hj => e2 j (by omega)) s3 (fun p hp' => hsign p (by
      rw [Nat.mul_succ] at hp'; omega))
  | succ k ih =>
    intro i idx1 offset part2 parts2 h1 h2 h3 h4 h5 h6 h7 h8
    have hidx : idx1 < N := by omega
    have hpart := ha.2 idx1 hidx
    have hs : shlU t (g a idx1) offset = some (g a idx1 * 2 ^ offset % 2 ^ t) := by rw [shlU, if_pos (by omega)]
    simp only [copyGather, rd_eq (show idx1 < a.length by rw [ha.1]; exact hidx), hs, Option.bind_eq_bind, Option.bind_some]
    have hnew : ∀ j < w2, j < offset + w1 →
        (part2 ||| g a idx1 * 2 ^ offset % 2 ^ t).testBit j = ebit (w1 * N) S (uval w1 a) (w2 * i + j) := by
      intro j hj hjw
      rw [Nat.testBit_or, testBit_modp _ (by omega), Nat.testBit_mul_two_pow]
      by_cases hj' : j < offset
      · rw [h7 j hj', decide_eq_false (by omega), Bool.false_and, Bool.or_false]
      · rw [testBit_lt h6 (by omega), Bool.false_or, decide_eq_true (by omega), Bool.true_and, hbit idx1 hidx _ (by omega)]
        congr 1; omega
    by_cases hc : offset < w2 - w1
    · rw [if_pos hc]
      refine ih i (idx1 + 1) (offset + w1) _ parts2 (by omega) h2 (by omega) (by rw [Nat.mul_succ]; omega) h5 ?_
        (fun j hj => hnew j (by omega) hj) h8
      refine or_lt (Nat.lt_of_lt_of_le h6 (Nat.pow_le_pow_right (by omega) (by omega)))
        (Nat.lt_of_le_of_lt (Nat.mod_le _ _) ?_)
      rw [pow_add, Nat.mul_comm]
      exact Nat.mul_lt_mul_of_pos_left hpart (two_pos _)
    · rw [if_neg hc]
      obtain ⟨s1, s2, s3⟩ := set_bits (v := part2 ||| g a idx1 * 2 ^ offset % 2 ^ t) h5 h2 h8 (fun j hj => hnew j hj (by omega))
      simp only [s1, Option.bind_some]
      by_cases hi : i + 1 < M
      · rw [if_pos hi]
        have ham : amount w1 (offset - (w2 - w1) + 1) = some (w1 - (offset - (w2 - w1) + 1)) := by rw [amount, if_pos (by omega)]
        obtain ⟨y, y1, y2⟩ := shr_twice (x := g a idx1) (show 1 < t by omega) (show w1 - (offset - (w2 - w1) + 1) < t by omega)
        rw [show w1 - (offset - (w2 - w1) + 1) + 1 = w1 - (offset - (w2 - w1)) by omega] at y2
        simp only [ham, Option.bind_some, y1, y2]
        refine ih (i + 1) (idx1 + 1) (offset - (w2 - w1)) _ _ (by omega) hi (by omega) (by rw [Nat.mul_succ, Nat.mul_succ]; omega)
          s2 ?_ (fun j hj => ?_) s3
        · apply Nat.div_lt_of_lt_mul
          rw [← pow_add, show w1 - (offset - (w2 - w1)) + (offset - (w2 - w1)) = w1 by omega]
          exact hpart
        · rw [Nat.testBit_div_two_pow, hbit idx1 hidx _ (by omega)]
          congr 1
          rw [Nat.mul_succ]; omega
      · rw [if_neg hi]
        have : i + 1 = M := by omega
        rw [this] at s3
        exact ⟨_, rfl, s2, s3⟩

/-- The digits of the result are those of the sign extended representation. -/
theorem value_of_ebit {w1 w2 N M : Nat} {S : Bool} {a r : List Nat} (hW : 0 < w1 * N) (ha : D (2 ^ w1) N a) (hr : D (2 ^ w2) M r)
    (h : ∀ k < M, ∀ j < w2, (g r k).testBit j = ebit (w1 * N) S (uval w1 a) (w2 * k + j)) :
    (2 : Int) ^ (w2 * M) ∣ (uval w2 r : Int) - value w1 N S a := by
  have hU := uval_lt ha
  have hh := half_nat hW
  have htop : (uval w1 a).testBit (w1 * N - 1) = decide (2 ^ (w1 * N - 1) ≤ uval w1 a) := by
    rw [Nat.testBit_eq_decide_div_mod_eq]
    have h1 : uval w1 a / 2 ^ (w1 * N - 1) < 2 := Nat.div_lt_of_lt_mul (by rw [Nat.mul_comm]; omega)
    rw [Nat.mod_eq_of_lt h1, decide_eq_decide]
    constructor
    · intro h2
      have := Nat.div_mul_le_self (uval w1 a) (2 ^ (w1 * N - 1))
      rw [h2] at this; omega
    · intro h2
      have := (Nat.le_div_iff_mul_le (two_pos (w1 * N - 1)) (x := 1) (y := uval w1 a)).2 (by omega)
      omega
  have key : ∃ Y : Nat, (∀ k < M, ∀ j < w2, (g r k).testBit j = Y.testBit (w2 * k + j)) ∧
      (2 : Int) ^ (w2 * M) ∣ (Y : Int) - value w1 N S a := by
    by_cases hneg : S = true ∧ 2 ^ (w1 * N - 1) ≤ uval w1 a
    · refine ⟨2 ^ (w1 * N) * (2 ^ (w2 * M) - 1) + uval w1 a, fun k hk j hj => ?_, ?_⟩
      · have hlt : w2 * k + j < w2 * M := by
          have : w2 * (k + 1) ≤ w2 * M := Nat.mul_le_mul_left _ hk
          rw [Nat.mul_succ] at this; omega
        rw [h k hk j hj, ebit, Nat.testBit_two_pow_mul_add _ hU, htop, decide_eq_true hneg.2, hneg.1]
        split
        · rfl
        · rw [Nat.testBit_two_pow_sub_one, decide_eq_true (by omega)]; rfl
      · have hpos := two_pos (w2 * M)
        rw [value, if_pos hneg]
        push_cast [Nat.cast_sub (show 1 ≤ 2 ^ (w2 * M) by omega)]
        exact ⟨2 ^ (w1 * N), by ring⟩
    · refine ⟨uval w1 a, fun k hk j hj => ?_, by rw [value, if_neg hneg]; simp⟩
      rw [h k hk j hj, ebit]
      split
      · rfl
      · rw [htop, testBit_lt hU (show w1 * N ≤ w2 * k + j by omega)]
        cases S
        · rfl
        · rw [decide_eq_false (fun h' => hneg ⟨rfl, h'⟩)]; rfl
  obtain ⟨Y, hY, hd⟩ := key
  have hV : uval w2 r = Y % 2 ^ (w2 * M) := by rw [uval_D hr, V_of_testBit hr hY]
  have : (uval w2 r : Int) - value w1 N S a = ((Y : Int) - value w1 N S a) + 2 ^ (w2 * M) * (-((Y : Int) / 2 ^ (w2 * M))) := by
    rw [hV]
    push_cast
    rw [Int.emod_def]; ring
  rw [this]
  exact Int.dvd_add hd (Int.dvd_mul_right _ _)

theorem bitCopy_spec {I w1 w2 N M : Nat} {S : Bool} {a b : List Nat} (hp : I ≠ w1) (hI : 1 ≤ I) (hw1 : 1 ≤ w1) (hw2 : 1 ≤ w2)
    (hN : 0 < N) (hM : 0 < M) (ha : D (2 ^ w1) N a) (hb : D (2 ^ w2) M b) :
    ∃ r, bitCopy I w1 w2 N M S a b = some r ∧ D (2 ^ w2) M r ∧ (2 : Int) ^ (w2 * M) ∣ (uval w2 r : Int) - value w1 N S a := by
  have hW : 0 < w1 * N := Nat.mul_pos (by omega) hN
  have ht : I < copyWidth I w1 w2 ∧ w1 ≤ copyWidth I w1 w2 ∧ w2 ≤ copyWidth I w1 w2 := by unfold copyWidth; omega
  unfold bitCopy
  simp only
  rw [if_neg (by omega)]
  by_cases h : w1 ≥ w2
  · rw [if_pos h, rd_eq (show 0 < a.length by rw [ha.1]; exact hN)]
    simp only [Option.bind_eq_bind, Option.bind_some]
    obtain ⟨r, h1, h2, h3⟩ := copyScatter_spec (S := S) hp hI hw2 h hN ht.1 ht.2.1 ha M 0 0 0 b rfl hN (by omega) rfl hb
      (fun k hk => by omega)
    exact ⟨r, h1, h2, value_of_ebit hW ha h2 h3⟩
  · rw [if_neg h]
    obtain ⟨r, h1, h2, h3⟩ := copyGather_spec (S := S) hp hI hw1 (by omega) hN ht.1 ht.2.2 ha N 0 0 0 0 b rfl hM (by omega) rfl hb
      (by decide) (fun j hj => by omega) (fun k hk => by omega)
    exact ⟨r, h1, h2, value_of_ebit hW ha h2 h3⟩

end Verif.MulPrec
