import Mathlib.Algebra.Order.AbsoluteValue.Basic
import Verif.LuInverse.Loops

/-!
# Correctness of decomposition of matrices
-/

namespace Verif.LuInverse

open Spec

/-- The composition of `perm_k`, `perm_(k+1)`, and so on. -/
def sigma : ℕ → List ℕ → ℕ → ℕ
  | _, [], i => i
  | k, p :: ps, i => permFun k p (sigma (k + 1) ps i)

theorem sigma_append (ps : List ℕ) (p : ℕ) : ∀ (k i : ℕ), sigma k (ps ++ [p]) i = sigma k ps (permFun (k + ps.length) p i) := by
  induction ps with
  | nil => intro k i; rfl
  | cons q ps ih =>
    intro k i
    simp only [List.cons_append, sigma, List.length_cons]
    rw [ih]
    congr 2
    congr 1
    omega

theorem permFun_lt {M k p i : ℕ} (hk : k < M) (hp : p < M) (hi : i < M) : permFun k p i < M := by
  unfold permFun; split
  · exact hk
  · split
    · exact hp
    · exact hi

theorem permFun_invol (k p i : ℕ) : permFun k p (permFun k p i) = i := by
  unfold permFun
  split_ifs <;> omega

theorem permFun_of_lt {k p i : ℕ} (hkp : k ≤ p) (hi : i < k) : permFun k p i = i := by
  unfold permFun
  rw [if_neg (by omega), if_neg (by omega)]

theorem permFun_ge {k p i : ℕ} (hkp : k ≤ p) (hi : k ≤ i) : k ≤ permFun k p i := by
  unfold permFun
  split_ifs <;> omega

variable {K : Type} [Field K]

/-- Components of the lower factor. -/
def low (b : Mat K) (i k : ℕ) : K := if k < i then b i k else if i = k then 1 else 0

/-- Components of the upper factor. -/
def upp (b : Mat K) (k c : ℕ) : K := if k ≤ c then b k c else 0

variable [LinearOrder K] [IsStrictOrderedRing K]

/-- The effect of one step. -/
theorem step_eq (M N : ℕ) (b : Mat K) (ps : List ℕ) {j : ℕ} (hj : j < M) :
    ∃ (p : ℕ) (l : ℕ → K), j ≤ p ∧ p < M ∧ (∀ x, j < x → x < M → l x * b p j = b (permFun j p x) j ∧ |l x| ≤ 1) ∧
      decomposeStep M N j (b, ps) = (fun x y =>
        if (j < x ∧ x < M) ∧ j < y ∧ y < N then b (permFun j p x) y - l x * b p y
        else if (j < x ∧ x < M) ∧ y = j then l x
        else b (permFun j p x) y, ps ++ [p]) := by
  obtain ⟨p, e, hp1, hp2, hp3, hp4⟩ := findPivot_spec M b hj
  have hpj : permFun j p j = p := by
    unfold permFun; split
    · assumption
    · rw [if_pos rfl]
  by_cases hv : |b p j| = 0
  · refine ⟨p, fun _ => 0, hp1, hp2, ?_, ?_⟩
    · intro x h1 h2
      have := hp3 (permFun j p x) (permFun_ge hp1 h1.le) (permFun_lt hj hp2 h2)
      rw [hv] at this
      have : b (permFun j p x) j = 0 := abs_nonpos_iff.mp this
      rw [this]
      simp
    · have hpeq : p = j := by
        rcases hp4 with h | h
        · exact h
        · rw [hv] at h
          exact absurd h (not_lt.mpr (abs_nonneg _))
      unfold decomposeStep
      simp only [e]
      rw [if_neg (by simpa using hv), updateTrailing_eq M N b hj]
      congr 1
      funext x y
      have hid : permFun j p x = x := by
        rw [hpeq]; unfold permFun; split_ifs <;> omega
      rw [hid, hpeq]
      by_cases h1 : (j < x ∧ x < M) ∧ j < y ∧ y < N
      · rw [if_pos h1, if_pos h1]
        have : b x j = 0 := by
          have := hp3 x h1.1.1.le h1.1.2
          rw [hv] at this
          exact abs_nonpos_iff.mp this
        rw [this]
      · rw [if_neg h1, if_neg h1]
        by_cases h2 : (j < x ∧ x < M) ∧ y = j
        · rw [if_pos h2, h2.2]
          have := hp3 x h2.1.1.le h2.1.2
          rw [hv] at this
          exact abs_nonpos_iff.mp this
        · rw [if_neg h2]
  · have hne : b p j ≠ 0 := fun h => hv (by rw [h, abs_zero])
    refine ⟨p, fun x => b (permFun j p x) j * (1 / b p j), hp1, hp2, ?_, ?_⟩
    · intro x h1 h2
      constructor
      · field_simp
      · have := hp3 (permFun j p x) (permFun_ge hp1 h1.le) (permFun_lt hj hp2 h2)
        show |b (permFun j p x) j * (1 / b p j)| ≤ 1
        rw [mul_one_div, abs_div]
        have hpos : 0 < |b p j| := abs_pos.mpr hne
        rw [div_le_one hpos]
        exact this
    · unfold decomposeStep
      simp only [e]
      rw [if_pos hv, scaleColumn_eq, updateTrailing_eq M N _ hj]
      congr 1
      funext x y
      simp only [setRow_swap, hpj]
      by_cases h1 : (j < x ∧ x < M) ∧ j < y ∧ y < N
      · rw [if_pos h1, if_pos h1, if_neg (by omega), if_pos ⟨h1.1, trivial⟩, if_neg (by omega)]
      · rw [if_neg h1, if_neg h1]

/-- Invariant of the outer loop. -/
structure Inv (M N : ℕ) (A : Mat K) (j : ℕ) (s : Mat K × List ℕ) : Prop where
  len : s.2.length = j
  piv : ∀ k (h : k < s.2.length), k ≤ s.2[k] ∧ s.2[k] < M
  eq : ∀ i c, i < M → c < N →
    A (sigma 0 s.2 i) c = ∑ k ∈ Finset.range j, low s.1 i k * upp s.1 k c + if j ≤ i ∧ j ≤ c then s.1 i c else 0
  small : ∀ i k, i < M → k < i → k < j → |s.1 i k| ≤ 1

theorem inv_step {M N : ℕ} {A : Mat K} {j : ℕ} {s : Mat K × List ℕ} (hM : j < M) (h : Inv M N A j s) :
    Inv M N A (j + 1) (decomposeStep M N j s) := by
  obtain ⟨b, ps⟩ := s
  obtain ⟨p, l, hp1, hp2, hl, e⟩ := step_eq M N b ps hM
  rw [e]
  have hlen := h.len
  have hpj : permFun j p j = p := by
    unfold permFun; split
    · assumption
    · rw [if_pos rfl]
  simp only at hlen
  constructor
  · simp [hlen]
  · intro k hk
    simp only [List.length_append, List.length_cons, List.length_nil, hlen] at hk
    by_cases hkj : k < ps.length
    · simp only [List.getElem_append_left hkj]
      exact h.piv k hkj
    · have : k = ps.length := by omega
      subst this
      simp only [List.getElem_concat_length]
      omega
  · intro i c hi hc
    simp only
    rw [sigma_append, hlen, Nat.zero_add, h.eq _ c (permFun_lt hM hp2 hi) hc, Finset.sum_range_succ]
    have hsum : ∀ k ∈ Finset.range j, low b (permFun j p i) k * upp b k c =
        low (fun x y => if (j < x ∧ x < M) ∧ j < y ∧ y < N then b (permFun j p x) y - l x * b p y
          else if (j < x ∧ x < M) ∧ y = j then l x else b (permFun j p x) y) i k *
        upp (fun x y => if (j < x ∧ x < M) ∧ j < y ∧ y < N then b (permFun j p x) y - l x * b p y
          else if (j < x ∧ x < M) ∧ y = j then l x else b (permFun j p x) y) k c := by
      intro k hk
      rw [Finset.mem_range] at hk
      congr 1
      · unfold low
        simp only
        rw [if_neg (show ¬((j < i ∧ i < M) ∧ j < k ∧ k < N) by omega), if_neg (show ¬((j < i ∧ i < M) ∧ k = j) by omega)]
        rcases Nat.lt_or_ge i j with h1 | h1
        · rw [permFun_of_lt hp1 h1]
        · have := permFun_ge hp1 h1
          rw [if_pos (show k < permFun j p i by omega), if_pos (show k < i by omega)]
      · unfold upp
        simp only
        rw [if_neg (show ¬((j < k ∧ k < M) ∧ j < c ∧ c < N) by omega), if_neg (show ¬((j < k ∧ k < M) ∧ c = j) by omega),
          permFun_of_lt hp1 hk]
    rw [Finset.sum_congr rfl hsum, add_assoc]
    congr 1
    unfold low upp
    simp only
    rcases Nat.lt_trichotomy i j with h1 | h1 | h1
    · rw [permFun_of_lt hp1 h1, if_neg (show ¬(j ≤ i ∧ j ≤ c) by omega), if_neg (show ¬j < i by omega),
        if_neg (show ¬i = j by omega), if_neg (show ¬(j + 1 ≤ i ∧ j + 1 ≤ c) by omega)]
      ring
    · subst h1
      rw [hpj, if_neg (show ¬i < i by omega), if_pos (rfl : i = i), if_neg (show ¬(i + 1 ≤ i ∧ i + 1 ≤ c) by omega)]
      rw [if_neg (show ¬((i < i ∧ i < M) ∧ i < c ∧ c < N) by omega), if_neg (show ¬((i < i ∧ i < M) ∧ c = i) by omega)]
      by_cases h2 : i ≤ c
      · rw [if_pos ⟨hp1, h2⟩, if_pos h2]; ring
      · rw [if_neg (show ¬(i ≤ p ∧ i ≤ c) by omega), if_neg h2]; ring
    · have hge := permFun_ge hp1 h1.le
      rw [if_pos h1, if_neg (show ¬((j < i ∧ i < M) ∧ j < j ∧ j < N) by omega), if_pos (show (j < i ∧ i < M) ∧ True from ⟨⟨h1, hi⟩, trivial⟩)]
      rw [if_neg (show ¬((j < j ∧ j < M) ∧ j < c ∧ c < N) by omega), if_neg (show ¬((j < j ∧ j < M) ∧ c = j) by omega), hpj]
      rcases Nat.lt_trichotomy c j with h2 | h2 | h2
      · rw [if_neg (show ¬(j ≤ permFun j p i ∧ j ≤ c) by omega), if_neg (show ¬j ≤ c by omega),
          if_neg (show ¬(j + 1 ≤ i ∧ j + 1 ≤ c) by omega)]
        ring
      · subst h2
        rw [if_pos (show c ≤ permFun c p i ∧ c ≤ c by omega), if_pos (le_refl c), if_neg (show ¬(c + 1 ≤ i ∧ c + 1 ≤ c) by omega),
          (hl i h1 hi).1]
        ring
      · rw [if_pos (show j ≤ permFun j p i ∧ j ≤ c by omega), if_pos h2.le, if_pos (show j + 1 ≤ i ∧ j + 1 ≤ c by omega),
          if_pos (show (j < i ∧ i < M) ∧ j < c ∧ c < N by omega)]
        ring
  · intro i k hi hki hkj
    simp only
    rw [if_neg (show ¬((j < i ∧ i < M) ∧ j < k ∧ k < N) by omega)]
    by_cases h2 : k = j
    · rw [if_pos (show (j < i ∧ i < M) ∧ k = j by omega)]
      exact (hl i (by omega) hi).2
    · rw [if_neg (show ¬((j < i ∧ i < M) ∧ k = j) by omega)]
      apply h.small _ _ (permFun_lt hM hp2 hi) _ (by omega)
      rcases Nat.lt_or_ge i j with h1 | h1
      · rw [permFun_of_lt hp1 h1]; exact hki
      · have := permFun_ge hp1 h1
        omega

theorem decompose_inv (M N : ℕ) (A : Mat K) : Inv M N A (min M N) (decompose M N A) := by
  unfold decompose
  refine loop_inv (Inv M N A) (Nat.zero_le _) ?_ ?_
  · refine ⟨rfl, ?_, ?_, ?_⟩
    · intro k hk; simp at hk
    · intro i c _ _; simp [sigma]
    · intro i k _ _ hk; omega
  · intro j s _ h2 h
    exact inv_step (by omega) h

/-- Components of the product of the factors. -/
theorem decompose_eq (M N : ℕ) (A : Mat K) {i c : ℕ} (hi : i < M) (hc : c < N) :
    A (sigma 0 (decompose M N A).2 i) c = ∑ k ∈ Finset.range (min M N), low (decompose M N A).1 i k * upp (decompose M N A).1 k c := by
  have := (decompose_inv M N A).eq i c hi hc
  rw [this, if_neg (by omega), add_zero]

/-! ### Permutation matrices -/

omit [LinearOrder K] [IsStrictOrderedRing K] in
theorem permMat_mul {M n k p : ℕ} (hk : k < M) (hp : p < M) (X : Matrix (Fin M) (Fin n) K) (i : Fin M) (c : Fin n) :
    ((permMat M k p : Matrix (Fin M) (Fin M) K) * X) i c = X ⟨permFun k p i, permFun_lt hk hp i.2⟩ c := by
  rw [Matrix.mul_apply, Finset.sum_eq_single ⟨permFun k p i, permFun_lt hk hp i.2⟩]
  · simp [permMat, permFun_invol]
  · intro b _ hb
    have : permFun k p b ≠ i := by
      intro h
      apply hb
      apply Fin.ext
      show b.val = permFun k p i
      rw [← h, permFun_invol]
    simp [permMat, this]
  · intro h; exact absurd (Finset.mem_univ _) h

theorem sigma_lt {M : ℕ} (ps : List ℕ) : ∀ (k : ℕ), k + ps.length ≤ M → (∀ a (h : a < ps.length), ps[a] < M) → ∀ i, i < M →
    sigma k ps i < M := by
  induction ps with
  | nil => intro k _ _ i hi; exact hi
  | cons p ps ih =>
    intro k hk hp i hi
    simp only [List.length_cons] at hk
    have h0 := hp 0 (by simp)
    refine permFun_lt (by omega) h0 (ih (k + 1) (by omega) ?_ i hi)
    intro a ha
    exact hp (a + 1) (by simpa using ha)

omit [LinearOrder K] [IsStrictOrderedRing K] in
/-- The product of permutation matrices undoes the permutation. -/
theorem permProd_mul {M n : ℕ} (ps : List ℕ) : ∀ (k : ℕ), k + ps.length ≤ M → (∀ a (h : a < ps.length), ps[a] < M) →
    ∀ (X Y : Matrix (Fin M) (Fin n) K), (∀ (i : Fin M) (h : sigma k ps i < M) (c : Fin n), Y ⟨sigma k ps i, h⟩ c = X i c) →
    permProd M k ps * X = Y := by
  induction ps with
  | nil =>
    intro k _ _ X Y h
    rw [permProd, Matrix.one_mul]
    ext i c
    exact (h i i.2 c).symm
  | cons p ps ih =>
    intro k hk hp X Y h
    simp only [List.length_cons] at hk
    have h0 : p < M := hp 0 (by simp)
    have hkM : k < M := by omega
    have hps : ∀ a (h : a < ps.length), ps[a] < M := fun a ha => hp (a + 1) (by simpa using ha)
    rw [permProd, Matrix.mul_assoc]
    rw [ih (k + 1) (by omega) hps X ((permMat M k p : Matrix (Fin M) (Fin M) K) * Y) ?_]
    · ext i c
      rw [permMat_mul hkM h0, permMat_mul hkM h0]
      simp only [permFun_invol]
    · intro i hi c
      rw [permMat_mul hkM h0]
      exact h i _ c

end Verif.LuInverse
