import Mathlib.Tactic.Linarith
import Mathlib.Tactic.Ring
import Mathlib.Tactic.FieldSimp
import Verif.LuInverse.Spec

/-!
# Loops in decomposition of matrices
-/

namespace Verif.LuInverse

open Spec

section

variable {S : Type}

theorem loopN_inv (P : ℕ → S → Prop) (f : ℕ → S → S) (n : ℕ) : ∀ (a : ℕ) (s : S), P a s →
    (∀ i s, a ≤ i → i < a + n → P i s → P (i + 1) (f i s)) → P (a + n) (loopN f a n s) := by
  induction n with
  | zero => intro a s h _; exact h
  | succ n ih =>
    intro a s h hs
    have := ih (a + 1) (f a s) (hs a s le_rfl (by omega) h) (fun i s h1 h2 hp => hs i s (by omega) (by omega) hp)
    have e : a + 1 + n = a + (n + 1) := by omega
    rw [e] at this
    exact this

theorem loop_inv (P : ℕ → S → Prop) {f : ℕ → S → S} {a b : ℕ} {s : S} (hab : a ≤ b) (h : P a s)
    (hs : ∀ i s, a ≤ i → i < b → P i s → P (i + 1) (f i s)) : P b (loop a b f s) := by
  have := loopN_inv P f (b - a) a s h (fun i s h1 h2 => hs i s h1 (by omega))
  rw [Nat.add_sub_cancel' hab] at this
  exact this

theorem loop_empty {f : ℕ → S → S} {a b : ℕ} {s : S} (hab : b ≤ a) : loop a b f s = s := by
  unfold loop
  rw [Nat.sub_eq_zero_of_le hab]
  rfl

theorem loopON_inv (P : ℕ → S → Prop) (Q : Prop) (f : ℕ → S → Option S) (n : ℕ) : ∀ (a : ℕ) (s : S), P a s →
    (∀ i s, a ≤ i → i < a + n → P i s → (∃ s', f i s = some s' ∧ P (i + 1) s') ∨ (f i s = none ∧ Q)) →
    (∃ s', loopON f a n s = some s' ∧ P (a + n) s') ∨ (loopON f a n s = none ∧ Q) := by
  induction n with
  | zero => intro a s h _; exact Or.inl ⟨s, rfl, h⟩
  | succ n ih =>
    intro a s h hs
    rcases hs a s le_rfl (by omega) h with ⟨s', e, hp⟩ | ⟨e, hq⟩
    · have := ih (a + 1) s' hp (fun i s h1 h2 hp => hs i s (by omega) (by omega) hp)
      have e' : a + 1 + n = a + (n + 1) := by omega
      rw [e'] at this
      simpa [loopON, e] using this
    · right
      simp [loopON, e, hq]

theorem loopO_inv (P : ℕ → S → Prop) (Q : Prop) {f : ℕ → S → Option S} {b : ℕ} {s : S} (h : P 0 s)
    (hs : ∀ i s, i < b → P i s → (∃ s', f i s = some s' ∧ P (i + 1) s') ∨ (f i s = none ∧ Q)) :
    (∃ s', loopO 0 b f s = some s' ∧ P b s') ∨ (loopO 0 b f s = none ∧ Q) := by
  have := loopON_inv P Q f b 0 s h (fun i s h1 h2 => hs i s (by omega))
  rw [Nat.zero_add] at this
  exact this

theorem loopDown_inv (P : ℕ → S → Prop) {f : ℕ → S → S} (n : ℕ) : ∀ (s : S), P n s →
    (∀ j s, j < n → P (j + 1) s → P j (f (j + 1) s)) → P 0 (loopDown f n s) := by
  induction n with
  | zero => intro s h _; exact h
  | succ n ih =>
    intro s h hs
    exact ih (f (n + 1) s) (hs n s (by omega) h) (fun j s h1 hp => hs j s (by omega) hp)

end

variable {K : Type} [Field K]

/-- A loop that accumulates a sum. -/
theorem loop_sum (g : ℕ → K) {a b : ℕ} (x : K) : loop a b (fun k y => y + g k) x = x + ∑ k ∈ Finset.Ico a b, g k := by
  rcases le_total a b with h | h
  · refine loop_inv (fun i y => y = x + ∑ k ∈ Finset.Ico a i, g k) h (by simp) ?_
    intro i y h1 _ e
    show y + g i = _
    rw [e, Finset.sum_Ico_succ_top h1]
    ring
  · rw [loop_empty h, Finset.Ico_eq_empty (by omega)]; simp

section

variable [LinearOrder K]

theorem findPivot_spec (M : ℕ) (m : Mat K) {j : ℕ} (hj : j < M) :
    ∃ p, findPivot M m j = (p, |m p j|) ∧ j ≤ p ∧ p < M ∧ (∀ i, j ≤ i → i < M → |m i j| ≤ |m p j|) ∧ (p = j ∨ |m j j| < |m p j|) := by
  unfold findPivot
  refine loop_inv (fun n s => ∃ p, s = (p, |m p j|) ∧ j ≤ p ∧ p < M ∧ (∀ i, j ≤ i → i < n → |m i j| ≤ |m p j|) ∧
    (p = j ∨ |m j j| < |m p j|)) (a := j + 1) (b := M) (by omega) ?_ ?_
  · refine ⟨j, rfl, le_rfl, hj, ?_, Or.inl rfl⟩
    intro i h1 h2
    have : i = j := by omega
    rw [this]
  · rintro i s h1 h2 ⟨p, rfl, hp1, hp2, hp3, hp4⟩
    simp only
    split
    · rename_i hlt
      refine ⟨i, rfl, by omega, h2, ?_, ?_⟩
      · intro k hk1 hk2
        rcases Nat.lt_succ_iff_lt_or_eq.mp hk2 with h | h
        · exact le_trans (hp3 k hk1 h) hlt.le
        · rw [h]
      · right
        exact lt_of_le_of_lt (hp3 j le_rfl (by omega)) hlt
    · rename_i hlt
      refine ⟨p, rfl, hp1, hp2, ?_, hp4⟩
      intro k hk1 hk2
      rcases Nat.lt_succ_iff_lt_or_eq.mp hk2 with h | h
      · exact hp3 k hk1 h
      · rw [h]; exact le_of_not_gt hlt

end

omit [Field K] in
theorem setRow_swap (m : Mat K) (j p a : ℕ) : ((m.setRow j (m p)).setRow p (m j)) a = m (permFun j p a) := by
  unfold Mat.setRow permFun
  by_cases h1 : a = p
  · rw [if_pos h1, if_pos h1]
  · rw [if_neg h1, if_neg h1]
    by_cases h2 : a = j
    · rw [if_pos h2, if_pos h2]
    · rw [if_neg h2, if_neg h2]

theorem scaleColumn_eq (M : ℕ) (m : Mat K) (j : ℕ) :
    scaleColumn M m j = fun a b => if (j < a ∧ a < M) ∧ b = j then m a j * (1 / m j j) else m a b := by
  unfold scaleColumn
  split
  · rename_i h
    refine loop_inv (fun i (s : Mat K) => s = fun a b => if (j < a ∧ a < i) ∧ b = j then m a j * (1 / m j j) else m a b)
      (by omega) ?_ ?_
    · funext a b
      rw [if_neg (by omega)]
    · rintro i s h1 h2 rfl
      funext a b
      simp only [Mat.set]
      by_cases ha : a = i ∧ b = j
      · obtain ⟨rfl, rfl⟩ := ha
        rw [if_pos ⟨rfl, rfl⟩, if_neg (by omega), if_pos ⟨⟨by omega, by omega⟩, rfl⟩]
      · rw [if_neg ha]
        by_cases hb : (j < a ∧ a < i) ∧ b = j
        · rw [if_pos hb, if_pos ⟨⟨hb.1.1, by omega⟩, hb.2⟩]
        · rw [if_neg hb, if_neg (by omega)]
  · rename_i h
    funext a b
    rw [if_neg (by omega)]

theorem updateRow_eq (N : ℕ) (m : Mat K) {i j : ℕ} (hij : i ≠ j) (a : K) (hN : j + 1 ≤ N) :
    loop (j + 1) N (fun k (m : Mat K) => m.set i k (m i k - a * m j k)) m =
      fun x y => if x = i ∧ j < y ∧ y < N then m x y - a * m j y else m x y := by
  refine loop_inv (fun k (s : Mat K) => s = fun x y => if x = i ∧ j < y ∧ y < k then m x y - a * m j y else m x y) hN ?_ ?_
  · funext x y
    rw [if_neg (by omega)]
  · rintro k s h1 h2 rfl
    funext x y
    simp only [Mat.set]
    by_cases hx : x = i ∧ y = k
    · obtain ⟨rfl, rfl⟩ := hx
      rw [if_pos ⟨rfl, rfl⟩, if_neg (by omega), if_neg (by omega), if_pos (by omega)]
    · rw [if_neg hx]
      by_cases hb : x = i ∧ j < y ∧ y < k
      · rw [if_pos hb, if_pos (by omega)]
      · rw [if_neg hb, if_neg (by omega)]

theorem updateTrailing_eq (M N : ℕ) (m : Mat K) {j : ℕ} (hM : j + 1 ≤ M) :
    updateTrailing M N m j = fun x y => if (j < x ∧ x < M) ∧ j < y ∧ y < N then m x y - m x j * m j y else m x y := by
  unfold updateTrailing
  split
  · rename_i h
    refine loop_inv (fun i (s : Mat K) => s = fun x y => if (j < x ∧ x < i) ∧ j < y ∧ y < N then m x y - m x j * m j y else m x y)
      hM ?_ ?_
    · funext x y
      rw [if_neg (by omega)]
    · rintro i s h1 h2 rfl
      rw [updateRow_eq N _ (by omega) _ h.le]
      funext x y
      simp only
      by_cases hx : x = i ∧ j < y ∧ y < N
      · obtain ⟨rfl, hy⟩ := hx
        rw [if_pos ⟨rfl, hy⟩, if_neg (by omega), if_neg (by omega), if_neg (by omega), if_pos (by omega)]
      · rw [if_neg hx]
        by_cases hb : (j < x ∧ x < i) ∧ j < y ∧ y < N
        · rw [if_pos hb, if_pos (by omega)]
        · rw [if_neg hb, if_neg (by omega)]
  · rename_i h
    funext x y
    rw [if_neg (by omega)]

end Verif.LuInverse
