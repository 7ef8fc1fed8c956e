import Verif.MulPrec.Add
/-!
Conversion between parts and subparts.
-/
namespace Verif.MulPrec
open Verif.Integer

theorem V_of_digits (B X n : Nat) : V B (fun k => X / B ^ k % B) n = X % B ^ n := by
  induction n with
  | zero => simp [V_zero, Nat.mod_one]
  | succ n ih => rw [V_succ, ih, pow_succ, Nat.mod_mul, Nat.mul_comm (B ^ n)]

/-- The bits of the value are those of the digits. -/
theorem testBit_V {s n : Nat} {xs : List Nat} (h : D (2 ^ s) n xs) {k j : Nat} (hk : k < n) (hj : j < s) :
    (g xs k).testBit j = (V (2 ^ s) (g xs) n).testBit (s * k + j) := by
  rw [← V_digit h.2 k hk, Nat.testBit_mod_two_pow, decide_eq_true hj, Bool.true_and, ← pow_mul, Nat.testBit_div_two_pow]
  congr 1; omega

theorem testBit_lt {x n : Nat} (h : x < 2 ^ n) {i : Nat} (hi : n ≤ i) : x.testBit i = false :=
  Nat.testBit_lt_two_pow (Nat.lt_of_lt_of_le h (Nat.pow_le_pow_right (by omega) hi))

/-- A sequence of digits with the given bits has the given value. -/
theorem V_of_testBit {s n X : Nat} {xs : List Nat} (h : D (2 ^ s) n xs)
    (hb : ∀ k < n, ∀ j < s, (g xs k).testBit j = X.testBit (s * k + j)) : V (2 ^ s) (g xs) n = X % 2 ^ (s * n) := by
  rw [V_congr (h := fun k => X / (2 ^ s) ^ k % 2 ^ s), V_of_digits, ← pow_mul]
  intro k hk
  apply Nat.eq_of_testBit_eq
  intro j
  rw [Nat.testBit_mod_two_pow, ← pow_mul, Nat.testBit_div_two_pow]
  by_cases hj : j < s
  · rw [hb k hk j hj, decide_eq_true hj, Bool.true_and]; congr 1; omega
  · rw [decide_eq_false hj, Bool.false_and, testBit_lt (h.2 k hk) (by omega)]

theorem nsub_bounds {w N : Nat} (hw : 2 ≤ w) : w * N ≤ subw w * nsub w N ∧ subw w * nsub w N < w * N + subw w := by
  have hs := subw_pos hw
  unfold nsub
  generalize subw w = s at *
  have := Nat.div_add_mod (w * N + (s - 1)) s
  have := Nat.mod_lt (w * N + (s - 1)) hs
  omega

theorem scatter_spec {I w N : Nat} (hp : I ≠ w) (hI : 1 ≤ I) (hw : 2 ≤ w) (hN : 0 < N) {parts : List Nat}
    (h : D (2 ^ w) N parts) :
    ∃ r, scatter I w N parts = some r ∧ D (2 ^ subw w) (nsub w N) r ∧
      V (2 ^ subw w) (g r) (nsub w N) = V (2 ^ w) (g parts) N := by
  obtain ⟨hn1, hn2⟩ := nsub_bounds (N := N) hw
  have hs0 := subw_pos hw
  have hsw := subw_le w
  have hmask := mask_eq (I := I) hI hw
  have hX : V (2 ^ w) (g parts) N < 2 ^ (w * N) := by rw [pow_mul]; exact D_lt h
  have hbit : ∀ p < N, ∀ j < w, (g parts p).testBit j = (V (2 ^ w) (g parts) N).testBit (w * p + j) :=
    fun p hp' j hj => testBit_V h hp' hj
  generalize V (2 ^ w) (g parts) N = X at *
  generalize hs : subw w = s at *
  obtain ⟨st, h1, h2, h3, -⟩ := loop_inv (body := scatterStep I w N parts)
    (Inv := fun i (st : ScatterState) => D (2 ^ s) (nsub w N) st.subparts ∧
      (∀ k < i, ∀ j < s, (g st.subparts k).testBit j = X.testBit (s * k + j)) ∧
      w * st.partIndex + st.offset = s * i ∧ st.offset < w ∧ (st.partIndex < N → st.part = g parts st.partIndex))
    (nsub w N) 0 ⟨zero (nsub w N), 0, g parts 0, 0⟩
    ⟨D_zero (two_pos s) _, fun k hk => by omega, by simp, by show 0 < w; omega, fun _ => rfl⟩ (by
      rintro i ⟨sub, pi, part, off⟩ - hi ⟨hd, hk, ho, hof, hpart⟩
      simp only at hd hk ho hof hpart
      rw [Nat.zero_add] at hi
      have hsi : s * i + s ≤ s * nsub w N := by rw [← Nat.mul_succ]; exact Nat.mul_le_mul_left _ hi
      have hpi : pi < N := by
        by_contra hc
        have : w * N ≤ w * pi := Nat.mul_le_mul_left _ (by omega)
        omega
      have hpe := hpart hpi
      have hl : i < sub.length := by rw [hd.1]; exact hi
      have hplt : part < 2 ^ w := by rw [hpe]; exact h.2 pi hpi
      have hblt : part / 2 ^ off < 2 ^ w := Nat.lt_of_le_of_lt (Nat.div_le_self _ _) hplt
      have key : ∀ y : Nat, (∀ j < s, y.testBit j = X.testBit (s * i + j)) →
          D (2 ^ s) (nsub w N) (sub.set i (y % 2 ^ s)) ∧
            ∀ k < i + 1, ∀ j < s, (g (sub.set i (y % 2 ^ s)) k).testBit j = X.testBit (s * k + j) := by
        intro y hy
        refine ⟨D_set hd (Nat.mod_lt _ (two_pos s)), fun k hki j hj => ?_⟩
        by_cases hik : i = k
        · subst hik
          rw [g_set_eq _ hl, Nat.testBit_mod_two_pow, decide_eq_true hj, Bool.true_and, hy j hj]
        · rw [g_set_ne _ hik, hk k (by omega) j hj]
      simp only [scatterStep, shr_nat hp hof, Option.bind_eq_bind, Option.bind_some, toT_nat hblt, hs, hmask]
      split_ifs with hge hlt hlast
      · -- The next part is involved.
        obtain ⟨y, e1, e2⟩ := shl_toT hp (show s - (off + s - w) < w by omega) (x := g parts (pi + 1))
        have hor := toT_bitOr (y := y) hp hblt
        rw [e2] at hor
        simp only [rd_eq (show pi + 1 < parts.length by rw [h.1]; exact hlt), Option.bind_some, e1, hor,
          toT_bitAnd_mask_nat hp (show s ≤ w by omega), wr_eq _ hl]
        obtain ⟨k1, k2⟩ := key (part / 2 ^ off ||| g parts (pi + 1) * 2 ^ (s - (off + s - w)) % 2 ^ w) (by
          intro j hj
          rw [Nat.testBit_or, Nat.testBit_div_two_pow, Nat.testBit_mod_two_pow, Nat.testBit_mul_two_pow, hpe]
          by_cases hoj : j + off < w
          · rw [hbit pi hpi _ hoj, decide_eq_false (show ¬ s - (off + s - w) ≤ j by omega)]
            simp only [Bool.false_and, Bool.and_false, Bool.or_false]
            congr 1; omega
          · rw [testBit_lt (h.2 pi hpi) (show w ≤ j + off by omega), decide_eq_true (show j < w by omega),
              decide_eq_true (show s - (off + s - w) ≤ j by omega),
              hbit (pi + 1) hlt _ (show j - (s - (off + s - w)) < w by omega)]
            simp only [Bool.true_and, Bool.false_or]
            congr 1
            rw [Nat.mul_succ]
            omega)
        refine ⟨_, rfl, k1, k2, ?_, by show off + s - w < w; omega, fun _ => rfl⟩
        show w * (pi + 1) + (off + s - w) = s * (i + 1)
        rw [Nat.mul_succ, Nat.mul_succ]; omega
      · -- The last subpart.
        simp only [toT_bitAnd_mask_nat hp (show s ≤ w by omega), wr_eq _ hl, Option.bind_some]
        obtain ⟨k1, k2⟩ := key (part / 2 ^ off) (by
          intro j hj
          rw [Nat.testBit_div_two_pow, hpe]
          by_cases hoj : j + off < w
          · rw [hbit pi hpi _ hoj]; congr 1; omega
          · rw [testBit_lt (h.2 pi hpi) (show w ≤ j + off by omega), testBit_lt hX]
            have : pi + 1 = N := by omega
            rw [← this, Nat.mul_succ]
            omega)
        refine ⟨_, rfl, k1, k2, ?_, by show off + s - w < w; omega, fun hc => absurd hc hlt⟩
        show w * (pi + 1) + (off + s - w) = s * (i + 1)
        rw [Nat.mul_succ, Nat.mul_succ]; omega
      · exfalso
        have hN1 : pi + 1 = N := by omega
        have : w * N ≤ s * (i + 1) := by rw [← hN1, Nat.mul_succ, Nat.mul_succ]; omega
        have h2 : s * (i + 1 + 1) ≤ s * nsub w N := Nat.mul_le_mul_left _ (by omega)
        rw [Nat.mul_succ] at h2
        omega
      · simp only [toT_bitAnd_mask_nat hp (show s ≤ w by omega), wr_eq _ hl, Option.bind_some]
        obtain ⟨k1, k2⟩ := key (part / 2 ^ off) (by
          intro j hj
          rw [Nat.testBit_div_two_pow, hpe, hbit pi hpi _ (by omega)]
          congr 1; omega)
        refine ⟨_, rfl, k1, k2, ?_, by show off + s < w; omega, fun _ => hpe⟩
        show w * pi + (off + s) = s * (i + 1)
        rw [Nat.mul_succ]; omega)
  refine ⟨st.subparts, ?_, h2, ?_⟩
  · simp only [scatter, rd_eq (show 0 < parts.length by rw [h.1]; exact hN), Option.bind_eq_bind, Option.bind_some, h1]
  · rw [V_of_testBit h2 (by simpa using h3), Nat.mod_eq_of_lt]
    exact Nat.lt_of_lt_of_le hX (Nat.pow_le_pow_right (by omega) hn1)

theorem gather_spec {I w N : Nat} (hp : I ≠ w) (hw : 2 ≤ w) {subs : List Nat}
    (h : D (2 ^ subw w) (nsub w N) subs) :
    ∃ r, gather I w N subs = some r ∧ D (2 ^ w) N r ∧
      V (2 ^ w) (g r) N = V (2 ^ subw w) (g subs) (nsub w N) % 2 ^ (w * N) := by
  obtain ⟨hn1, hn2⟩ := nsub_bounds (N := N) hw
  have hs0 := subw_pos hw
  have hsw := subw_le w
  have hbit : ∀ p < nsub w N, ∀ j < subw w, (g subs p).testBit j =
      (V (2 ^ subw w) (g subs) (nsub w N)).testBit (subw w * p + j) := fun p hp' j hj => testBit_V h hp' hj
  generalize V (2 ^ subw w) (g subs) (nsub w N) = X at *
  generalize hs : subw w = s at *
  obtain ⟨st, h1, h2, h3, h4, h5, -⟩ := loop_inv (body := gatherStep I w N subs)
    (Inv := fun i (st : GatherState) => D (2 ^ w) N st.parts ∧
      (∀ k < st.partIndex, ∀ j < w, (g st.parts k).testBit j = X.testBit (w * k + j)) ∧
      w * st.partIndex + st.offset = s * i ∧ st.offset < w ∧ st.part < 2 ^ w ∧
      ∀ j, st.part.testBit j = (decide (j < st.offset) && X.testBit (w * st.partIndex + j)))
    (nsub w N) 0 ⟨zero N, 0, 0, 0⟩
    ⟨D_zero (two_pos w) _, fun k hk => by simp at hk, by simp, by show 0 < w; omega, two_pos w, by simp⟩ (by
      rintro i ⟨parts, pi, part, off⟩ - hi ⟨hd, hk, ho, hof, hplt, hpart⟩
      simp only at hd hk ho hof hplt hpart
      rw [Nat.zero_add] at hi
      have hsi : s * i + s ≤ s * nsub w N := by rw [← Nat.mul_succ]; exact Nat.mul_le_mul_left _ hi
      have hslt := h.2 i hi
      have hslt' : g subs i < 2 ^ w := Nat.lt_of_lt_of_le hslt (Nat.pow_le_pow_right (by omega) (by omega))
      obtain ⟨y, e1, e2⟩ := shl_toT hp hof (x := g subs i)
      have hor := toT_bitOr (y := y) hp hplt
      rw [e2] at hor
      have hnew : ∀ j < w, (part ||| g subs i * 2 ^ off % 2 ^ w).testBit j =
          (decide (j < off + s) && X.testBit (w * pi + j)) := by
        intro j hj
        rw [Nat.testBit_or, hpart, Nat.testBit_mod_two_pow, Nat.testBit_mul_two_pow, decide_eq_true hj]
        by_cases hjo : j < off
        · rw [decide_eq_true hjo, decide_eq_false (show ¬ off ≤ j by omega), decide_eq_true (show j < off + s by omega)]
          simp
        · rw [decide_eq_false hjo, decide_eq_true (show off ≤ j by omega)]
          simp only [Bool.false_and, Bool.true_and, Bool.false_or]
          by_cases hjs : j < off + s
          · rw [decide_eq_true hjs, hbit i hi _ (show j - off < s by omega), Bool.true_and]
            congr 1; omega
          · rw [decide_eq_false hjs, Bool.false_and, testBit_lt hslt (by omega)]
      have hnlt : part ||| g subs i * 2 ^ off % 2 ^ w < 2 ^ w := or_lt hplt (Nat.mod_lt _ (two_pos w))
      simp only [gatherStep, rd_eq (show i < subs.length by rw [h.1]; exact hi), Option.bind_eq_bind, Option.bind_some, e1,
        hor, hs]
      generalize part ||| g subs i * 2 ^ off % 2 ^ w = part' at *
      split_ifs with hge hlt
      · have hl : pi < parts.length := by rw [hd.1]; exact hlt
        have hdlt : g subs i / 2 ^ (s - (off + s - w)) < 2 ^ w := Nat.lt_of_le_of_lt (Nat.div_le_self _ _) hslt'
        simp only [wr_eq _ hl, Option.bind_some, shr_nat hp (show s - (off + s - w) < w by omega), toT_nat hdlt]
        refine ⟨_, rfl, D_set hd hnlt, ?_, ?_, by show off + s - w < w; omega, hdlt, ?_⟩
        · intro k hki j hj
          simp only at hki ⊢
          by_cases hpk : pi = k
          · subst hpk
            rw [g_set_eq _ hl, hnew j hj, decide_eq_true (show j < off + s by omega), Bool.true_and]
          · rw [g_set_ne _ hpk, hk k (by omega) j hj]
        · show w * (pi + 1) + (off + s - w) = s * (i + 1)
          rw [Nat.mul_succ, Nat.mul_succ]; omega
        · intro j
          show (g subs i / 2 ^ (s - (off + s - w))).testBit j = (decide (j < off + s - w) && X.testBit (w * (pi + 1) + j))
          rw [Nat.testBit_div_two_pow]
          by_cases hjs : j < off + s - w
          · rw [decide_eq_true hjs, hbit i hi _ (by omega), Bool.true_and]
            congr 1
            rw [Nat.mul_succ]
            omega
          · rw [decide_eq_false hjs, Bool.false_and, testBit_lt hslt (by omega)]
      · exfalso
        have : w * N ≤ w * pi := Nat.mul_le_mul_left _ (by omega)
        omega
      · refine ⟨_, rfl, hd, hk, ?_, by show off + s < w; omega, hnlt, ?_⟩
        · show w * pi + (off + s) = s * (i + 1)
          rw [Nat.mul_succ]; omega
        · intro j
          by_cases hj : j < w
          · exact hnew j hj
          · show part'.testBit j = (decide (j < off + s) && _)
            rw [testBit_lt hnlt (by omega), decide_eq_false (by omega), Bool.false_and])
  refine ⟨st.parts, ?_, h2, ?_⟩
  · simp only [gather, Option.bind_eq_bind, h1, Option.bind_some]
  · have hpi : N ≤ st.partIndex := by
      by_contra hc
      have : w * (st.partIndex + 1) ≤ w * N := Nat.mul_le_mul_left _ (by omega)
      rw [Nat.mul_succ] at this
      simp only [Nat.zero_add] at h4
      omega
    exact V_of_testBit h2 (fun k hk => h3 k (by omega))

end Verif.MulPrec
