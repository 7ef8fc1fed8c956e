import Verif.SeedSeq.Lemmas
/-!
The loops of the generation of seeds.
-/
namespace Verif.SeedSeq
open Verif.MulPrec

theorem run_good {n : Nat} {step : Nat → List Nat → List Nat} {b : List Nat} (hs : ∀ k b, Good n b → Good n (step k b)) (hb : Good n b) :
    ∀ k, Good n (Spec.run step b k)
  | 0 => hb
  | k + 1 => hs k _ (run_good hs hb k)

theorem first_good {n k : Nat} {v b : List Nat} (h : Good n b) : Good n (Spec.first v k b) := by rw [first_eq]; exact stepA_good h

theorem integrate_spec {e : Env} (hn : 0 < e.n) (hW : 32 ≤ e.W) (hB : 32 ≤ e.B) {f : Nat → Nat → Nat → Option Nat} {v b0 : List Nat} {m : Nat}
    (hb0 : Good e.n b0) : ∀ (s i : Nat),
    (∀ j, i ≤ j → j < i + s → Prev e (m + j) (Spec.run (Spec.first v) b0 (m + j))) →
    m + i + s + e.n ≤ 2 ^ e.B + 1 →
    (∀ j, i ≤ j → j < i + s → ∀ r, ∃ r2, f r (m + j) j = some r2 ∧
      r2 % 2 ^ 32 = (r + if m + j = 0 then v.length else if m + j ≤ v.length then (m + j) % e.n + v.getD (m + j - 1) 0 else (m + j) % e.n) % 2 ^ 32) →
    integrate e f m s i (Spec.run (Spec.first v) b0 (m + i)) = some (Spec.run (Spec.first v) b0 (m + i + s))
  | 0, i, _, _, _ => rfl
  | s + 1, i, hp, hk, hf => by
    have hg := run_good (n := e.n) (fun k b => first_good (v := v) (k := k)) hb0 (m + i)
    rw [integrate, Nat.mod_eq_of_lt (by omega), integrateStep_spec hn hW hB hg (by omega) (hp i (by omega) (by omega)) (hf i (by omega) (by omega))]
    simp only [Option.bind_eq_bind, Option.bind_some]
    have e1 : stepA (m + i) (if m + i = 0 then v.length else if m + i ≤ v.length then (m + i) % e.n + v.getD (m + i - 1) 0 else (m + i) % e.n)
        (Spec.run (Spec.first v) b0 (m + i)) = Spec.run (Spec.first v) b0 (m + (i + 1)) := by
      rw [← Nat.add_assoc, Spec.run, first_eq, hg.1]
    rw [e1, integrate_spec hn hW hB hb0 s (i + 1) (fun j h1 h2 => hp j (by omega) (by omega)) (by omega) (fun j h1 h2 => hf j (by omega) (by omega))]
    congr 2; omega

theorem integrateSeeds_spec {e : Env} (hn : 0 < e.n) (hW : 32 ≤ e.W) (hB : 32 ≤ e.B) {v b0 : List Nat} (hb0 : Good e.n b0)
    (hv : v.length + 1 + e.n ≤ 2 ^ e.B) : ∀ (seqs : List (List Nat)) (pre : List Nat), v = pre ++ seqs.flatten →
    integrateSeeds e seqs (pre.length + 1) (Spec.run (Spec.first v) b0 (pre.length + 1)) = some (v.length + 1, Spec.run (Spec.first v) b0 (v.length + 1))
  | [], pre, h => by
    simp only [List.flatten_nil, List.append_nil] at h
    rw [h]; rfl
  | seq :: seqs, pre, h => by
    rw [List.flatten_cons] at h
    have hl : v.length = pre.length + (seq.length + seqs.flatten.length) := by rw [h]; simp
    rw [integrateSeeds]
    have hC : 32 ≤ e.C := le_trans hW (le_max_left _ _)
    rw [show pre.length + 1 = pre.length + 1 + 0 from rfl, integrate_spec hn hW hB hb0 seq.length 0]
    · simp only [Option.bind_eq_bind, Option.bind_some]
      rw [sizeAdd, if_pos (by omega)]
      simp only [Option.bind_some]
      have := integrateSeeds_spec hn hW hB hb0 hv seqs (pre ++ seq) (by rw [h, List.append_assoc])
      rw [List.length_append, show pre.length + seq.length + 1 = pre.length + 1 + 0 + seq.length by omega] at this
      exact this
    · intro j _ _
      exact prev_pos _ (by omega) (by omega)
    · omega
    · intro j _ hj r
      refine ⟨_, by rw [rd_some (by omega)]; rfl, ?_⟩
      rw [if_neg (by omega), if_pos (by omega), mod_mod hC, Nat.add_mod, mod_mod hC, ← Nat.add_mod, Nat.add_assoc]
      congr 3
      rw [show pre.length + 1 + j - 1 = pre.length + j by omega, h]
      simp only [List.getD_eq_getElem?_getD]
      rw [List.getElem?_append_right (by omega), Nat.add_sub_cancel_left, List.getElem?_append_left (by omega)]

theorem final_spec {e : Env} (hn : 0 < e.n) (hW : 32 ≤ e.W) (hB : 32 ≤ e.B) {b0 : List Nat} {m : Nat} (hm : 1 ≤ m) (hb0 : Good e.n b0) : ∀ (s j : Nat),
    m + j + s + e.n ≤ 2 ^ e.B + 1 →
    final e (m + j) s (Spec.run (fun j => Spec.second (m + j)) b0 j) = some (Spec.run (fun j => Spec.second (m + j)) b0 (j + s))
  | 0, j, _ => rfl
  | s + 1, j, h => by
    have hg := run_good (n := e.n) (fun k b => second_good (k := m + k)) hb0 j
    rw [final, finalStep_spec hn hW hB hg (by omega) (by omega)]
    simp only [Option.bind_eq_bind, Option.bind_some]
    have := final_spec hn hW hB hm hb0 s (j + 1) (by omega)
    rw [Spec.run] at this
    rw [show m + j + 1 = m + (j + 1) by omega, this]
    congr 2; omega

theorem size_spec {e : Env} : ∀ (seqs : List (List Nat)) (s : Nat), s + seqs.flatten.length < 2 ^ e.B → size e seqs (some s) = some (s + seqs.flatten.length)
  | [], s, _ => rfl
  | seq :: seqs, s, h => by
    rw [List.flatten_cons, List.length_append] at h
    rw [size, Option.bind_some, sizeAdd, if_pos (by omega), size_spec seqs _ (by omega), List.flatten_cons, List.length_append, Nat.add_assoc]

theorem generate_spec {e : Env} (hW : 32 ≤ e.W) (hB : 32 ≤ e.B) {seqs : List (List Nat)}
    (hs : max (seqs.flatten.length + 1) e.n + 2 * e.n ≤ 2 ^ e.B) : generate e seqs = some (Spec.generate e.n seqs.flatten) := by
  unfold generate
  by_cases hn : e.n = 0
  · rw [if_pos hn, hn]
    have : ∀ (v : List Nat) m, Spec.run (Spec.first v) [] m = [] := by
      intro v m
      induction m with
      | zero => rfl
      | succ m ih => rw [Spec.run, ih]; rfl
    simp [Spec.generate, this, Spec.run]
  · rw [if_neg hn]
    have hn' : 0 < e.n := by omega
    have hC : 32 ≤ e.C := le_trans hW (le_max_left _ _)
    generalize hv : seqs.flatten = v at *
    have hm1 : v.length + 1 ≤ max (v.length + 1) e.n := le_max_left _ _
    have hm2 : e.n ≤ max (v.length + 1) e.n := le_max_right _ _
    have hB2 : 2 ^ 32 ≤ 2 ^ e.B := Nat.pow_le_pow_right (by norm_num) hB
    have hW2 : 2 ^ 32 ≤ 2 ^ e.W := Nat.pow_le_pow_right (by norm_num) hW
    rw [Nat.mod_eq_of_lt (lt_of_lt_of_le (by norm_num) hW2)]
    have hb0 : Good e.n (List.replicate e.n 0x8B8B8B8B) := ⟨List.length_replicate, fun x hx => by rw [(List.mem_replicate.1 hx).2]; norm_num⟩
    have hsz := size_spec (e := e) seqs 0 (by rw [hv]; omega)
    rw [hv, Nat.zero_add] at hsz
    rw [hsz]
    simp only [Option.bind_eq_bind, Option.bind_some]
    have h1 := integrate_spec (f := fun r _ _ => some ((r + v.length) % 2 ^ e.C)) (v := v) (m := 0) hn' hW hB hb0 1 0
      (fun j _ hj => by
        have : j = 0 := by omega
        subst this
        exact prev_const hn') (by omega)
      (fun j _ hj r => by
        have : j = 0 := by omega
        subst this
        exact ⟨_, rfl, by rw [if_pos rfl, mod_mod hC]⟩)
    simp only [Nat.add_zero, Nat.zero_add, Spec.run.eq_1] at h1
    rw [h1]
    simp only [Option.bind_some]
    rw [sizeAdd, if_pos (by omega)]
    simp only [Option.bind_some, Nat.zero_add]
    have h2 := integrateSeeds_spec hn' hW hB hb0 (v := v) (by omega) seqs [] (by simp [hv])
    simp only [List.length_nil, Nat.zero_add] at h2
    rw [h2]
    simp only [Option.bind_some]
    have h3 : complete e (v.length + 1) (Spec.run (Spec.first v) (List.replicate e.n 0x8B8B8B8B) (v.length + 1)) =
        some (max (v.length + 1) e.n, Spec.run (Spec.first v) (List.replicate e.n 0x8B8B8B8B) (max (v.length + 1) e.n)) := by
      unfold complete
      by_cases h : e.n > v.length + 1
      · rw [if_pos h, max_eq_right (by omega)]
        have h4 := integrate_spec (f := fun r k _ => some ((r + k % e.n) % 2 ^ e.C)) (v := v) (m := v.length + 1) hn' hW hB hb0 (e.n - (v.length + 1)) 0
          (fun j _ hj => prev_pos _ (by omega) (by omega)) (by omega)
          (fun j _ hj r => ⟨_, rfl, by rw [if_neg (by omega), if_neg (by omega), mod_mod hC]⟩)
        rw [Nat.add_zero, show v.length + 1 + (e.n - (v.length + 1)) = e.n by omega] at h4
        rw [h4]
        simp only [Option.bind_eq_bind, Option.bind_some]
        rw [sizeAdd, if_pos (by omega), show v.length + 1 + (e.n - (v.length + 1)) = e.n by omega]
        rfl
      · rw [if_neg h, max_eq_left (by omega)]
    rw [h3]
    simp only [Option.bind_some]
    rw [Nat.mod_eq_of_lt (by omega), Nat.add_sub_cancel_left]
    have hg := run_good (n := e.n) (fun k b => first_good (v := v) (k := k)) hb0 (max (v.length + 1) e.n)
    have h5 := final_spec hn' hW hB (m := max (v.length + 1) e.n) (by omega) hg e.n 0 (by omega)
    simp only [Nat.add_zero, Nat.zero_add, Spec.run.eq_1] at h5
    rw [h5]
    rfl

end Verif.SeedSeq
