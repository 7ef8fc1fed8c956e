import Mathlib.Tactic.LinearCombination
import Verif.LuInverse.Loops

/-!
# Correctness of inversion of triangular matrices
-/

namespace Verif.LuInverse

open Spec

variable {K : Type} [Field K] [LinearOrder K]

/-- Components, where the diagonal is considered to consist of ones if the matrix is assumed to be unitriangular. -/
def eff (u : Bool) (m : Mat K) (i j : ℕ) : K := if u = true ∧ i = j then 1 else m i j

/-- The matrix after the diagonal element was inverted. -/
def diagSet (u : Bool) (m : Mat K) (j : ℕ) : Mat K := if u then m else m.set j j (1 / m j j)

/-- The factor in the computation of the remaining elements of the column. -/
def factor (u : Bool) (m : Mat K) (j : ℕ) : K := if u then -1 else -(1 / m j j)

/-- The computation of the remaining elements of the column. -/
def upperInner (u : Bool) (x : K) (j i : ℕ) (m : Mat K) : Mat K :=
  let y := m i j
  let y := if u then y else y * m i i
  let y := loop (i + 1) j (fun k y => y + m i k * m k j) y
  m.set i j (x * y)

theorem tryUpperTriInv_eq (u : Bool) (N : ℕ) (m : Mat K) :
    tryUpperTriInv u N m = loopO 0 N (fun j m => if u = false ∧ m j j = 0 then none
      else some (loop 0 j (upperInner u (factor u m j) j) (diagSet u m j))) m := by
  unfold tryUpperTriInv
  congr 1
  funext j m
  cases u
  · by_cases h : m j j = 0
    · simp [h]
    · simp only [h, Bool.false_eq_true, and_false, if_neg, not_false_eq_true, Option.map_some]
      rfl
  · simp only [if_true, Bool.true_eq_false, false_and, if_neg, not_false_eq_true, Option.map_some]
    rfl

omit [LinearOrder K] in
theorem upperInner_eq (u : Bool) (x : K) (j i : ℕ) (m : Mat K) (hij : i < j) :
    upperInner u x j i m = m.set i j (x * ∑ k ∈ Finset.Ico i j, eff u m i k * m k j) := by
  unfold upperInner
  simp only
  congr 2
  rw [loop_sum, Finset.sum_eq_sum_Ico_succ_bot hij]
  congr 1
  · unfold eff
    cases u
    · simp [mul_comm]
    · simp
  · apply Finset.sum_congr rfl
    intro k hk
    rw [Finset.mem_Ico] at hk
    unfold eff
    rw [if_neg (by omega)]

/-- Invariant of the outer loop. -/
structure TriInv (u : Bool) (m : Mat K) (j : ℕ) (s : Mat K) : Prop where
  prod : ∀ c i, c < j → i ≤ c → ∑ k ∈ Finset.Ico i (c + 1), eff u s i k * eff u m k c = if i = c then 1 else 0
  same : ∀ x y, y < x ∨ j ≤ y ∨ (u = true ∧ x = y) → s x y = m x y
  regular : u = false → ∀ i, i < j → m i i ≠ 0

theorem upper_column (u : Bool) (m s : Mat K) {j : ℕ} (h : TriInv u m j s) (hr : ¬(u = false ∧ s j j = 0)) :
    TriInv u m (j + 1) (loop 0 j (upperInner u (factor u s j) j) (diagSet u s j)) := by
  have hjj : s j j = m j j := h.same j j (Or.inr (Or.inl le_rfl))
  have hfac : factor u s j * eff u m j j = -1 := by
    unfold factor eff
    cases u
    · rw [hjj]
      have : m j j ≠ 0 := fun h0 => hr ⟨rfl, by rw [hjj, h0]⟩
      simp only [Bool.false_eq_true, if_false, false_and]
      field_simp
    · simp
  have hds : ∀ x y, ¬(x = j ∧ y = j) → diagSet u s j x y = s x y := by
    intro x y hxy
    unfold diagSet
    cases u
    · simp only [Bool.false_eq_true, if_false, Mat.set]
      rw [if_neg hxy]
    · simp
  have hdiag : eff u (diagSet u s j) j j * eff u m j j = 1 := by
    unfold diagSet eff
    cases u
    · have : m j j ≠ 0 := fun h0 => hr ⟨rfl, by rw [hjj, h0]⟩
      simp only [Bool.false_eq_true, if_false, false_and, Mat.set, and_self, if_true, hjj]
      field_simp
    · simp
  have hdiagu : u = true → diagSet u s j = s := by
    rintro rfl; rfl
  have key : (∀ x y, ¬(y = j ∧ x < j) → (loop 0 j (upperInner u (factor u s j) j) (diagSet u s j)) x y = diagSet u s j x y) ∧
      (∀ x, x < j → ∑ k ∈ Finset.Ico x (j + 1),
        eff u (loop 0 j (upperInner u (factor u s j) j) (diagSet u s j)) x k * eff u m k j = 0) := by
    refine loop_inv (fun i t => (∀ x y, ¬(y = j ∧ x < i) → t x y = diagSet u s j x y) ∧
      (∀ x, x < i → ∑ k ∈ Finset.Ico x (j + 1), eff u t x k * eff u m k j = 0)) (Nat.zero_le _) ?_ ?_
    · refine ⟨fun _ _ _ => rfl, fun x hx => absurd hx (Nat.not_lt_zero _)⟩
    · rintro i t - hi ⟨h1, h2⟩
      rw [upperInner_eq _ _ _ _ _ hi]
      constructor
      · intro x y hxy
        simp only [Mat.set]
        rw [if_neg (by omega)]
        exact h1 x y (by omega)
      · intro x hx
        rcases Nat.lt_succ_iff_lt_or_eq.mp hx with hlt | rfl
        · rw [← h2 x hlt]
          apply Finset.sum_congr rfl
          intro k _
          congr 1
          unfold eff
          simp only [Mat.set]
          rw [if_neg (show ¬(x = i ∧ k = j) by omega)]
        · rw [Finset.sum_Ico_succ_top (by omega)]
          have hsum : ∑ k ∈ Finset.Ico x j, eff u (t.set x j (factor u s j * ∑ k ∈ Finset.Ico x j, eff u t x k * t k j)) x k * eff u m k j =
              ∑ k ∈ Finset.Ico x j, eff u t x k * t k j := by
            apply Finset.sum_congr rfl
            intro k hk
            rw [Finset.mem_Ico] at hk
            have e1 : t k j = m k j := by
              rw [h1 k j (by omega), hds k j (by omega)]
              exact h.same k j (Or.inr (Or.inl le_rfl))
            have e2 : eff u m k j = m k j := by
              unfold eff; rw [if_neg (by omega)]
            rw [e1, e2]
            congr 1
            unfold eff
            simp only [Mat.set]
            rw [if_neg (show ¬(True ∧ k = j) by omega)]
          rw [hsum]
          have e3 : eff u (t.set x j (factor u s j * ∑ k ∈ Finset.Ico x j, eff u t x k * t k j)) x j =
              factor u s j * ∑ k ∈ Finset.Ico x j, eff u t x k * t k j := by
            unfold eff
            simp only [Mat.set]
            rw [if_neg (by omega), if_pos ⟨trivial, trivial⟩]
          rw [e3]
          linear_combination (∑ k ∈ Finset.Ico x j, eff u t x k * t k j) * hfac
  obtain ⟨k1, k2⟩ := key
  constructor
  · intro c i hc hic
    rcases Nat.lt_succ_iff_lt_or_eq.mp hc with hlt | rfl
    · rw [← h.prod c i hlt hic]
      apply Finset.sum_congr rfl
      intro k hk
      rw [Finset.mem_Ico] at hk
      congr 1
      unfold eff
      rw [k1 i k (by omega), hds i k (by omega)]
    · rcases Nat.lt_or_eq_of_le hic with hlt | rfl
      · rw [if_neg (by omega)]
        exact k2 i hlt
      · rw [if_pos rfl, Nat.Ico_succ_singleton, Finset.sum_singleton]
        rw [← hdiag]
        congr 1
        unfold eff
        rw [k1 i i (by omega)]
  · intro x y hxy
    rw [k1 x y (by omega)]
    by_cases hxj : x = j ∧ y = j
    · obtain ⟨rfl, rfl⟩ := hxj
      have hu : u = true := by
        rcases hxy with h | h | h
        · omega
        · omega
        · exact h.1
      rw [hdiagu hu]
      exact h.same _ _ (Or.inr (Or.inl le_rfl))
    · rw [hds x y hxj]
      apply h.same
      rcases hxy with h | h | h
      · exact Or.inl h
      · exact Or.inr (Or.inl (by omega))
      · exact Or.inr (Or.inr h)
  · intro hu i hi
    rcases Nat.lt_succ_iff_lt_or_eq.mp hi with hlt | rfl
    · exact h.regular hu i hlt
    · intro h0
      exact hr ⟨hu, by rw [hjj, h0]⟩

theorem tryUpperTriInv_spec (u : Bool) (N : ℕ) (m : Mat K) :
    (∃ v, tryUpperTriInv u N m = some v ∧ TriInv u m N v) ∨ (tryUpperTriInv u N m = none ∧ u = false ∧ ∃ i, i < N ∧ m i i = 0) := by
  rw [tryUpperTriInv_eq]
  refine loopO_inv (TriInv u m) _ ?_ ?_
  · exact ⟨fun c i hc => absurd hc (Nat.not_lt_zero _), fun _ _ _ => rfl, fun _ i hi => absurd hi (Nat.not_lt_zero _)⟩
  · intro j s hj h
    by_cases hr : u = false ∧ s j j = 0
    · right
      refine ⟨by rw [if_pos hr], hr.1, j, hj, ?_⟩
      rw [← h.same j j (Or.inr (Or.inl le_rfl))]
      exact hr.2
    · left
      exact ⟨_, by rw [if_neg hr], upper_column u m s h hr⟩

/-! ### Lower triangular matrices -/

/-- Transposition. -/
def transpose (m : Mat K) : Mat K := fun a b => m b a

theorem loopN_sim {S T : Type} (t : S → T) (f : ℕ → T → T) (g : ℕ → S → S) (h : ∀ i s, f i (t s) = t (g i s)) (n : ℕ) :
    ∀ (a : ℕ) (s : S), loopN f a n (t s) = t (loopN g a n s) := by
  induction n with
  | zero => intro a s; rfl
  | succ n ih =>
    intro a s
    simp only [loopN]
    rw [h, ih]

theorem loop_sim {S T : Type} (t : S → T) (f : ℕ → T → T) (g : ℕ → S → S) (h : ∀ i s, f i (t s) = t (g i s)) (a b : ℕ) (s : S) :
    loop a b f (t s) = t (loop a b g s) := loopN_sim t f g h _ _ _

theorem loopON_sim {S T : Type} (t : S → T) (f : ℕ → T → Option T) (g : ℕ → S → Option S) (h : ∀ i s, f i (t s) = (g i s).map t) (n : ℕ) :
    ∀ (a : ℕ) (s : S), loopON f a n (t s) = (loopON g a n s).map t := by
  induction n with
  | zero => intro a s; rfl
  | succ n ih =>
    intro a s
    simp only [loopON]
    rw [h]
    cases g a s with
    | none => rfl
    | some s' => simp only [Option.map_some, Option.bind_some]; exact ih _ _

omit [Field K] [LinearOrder K] in
theorem transpose_set (m : Mat K) (i j : ℕ) (x : K) : (transpose m).set i j x = transpose (m.set j i x) := by
  funext a b
  simp only [transpose, Mat.set]
  by_cases h : a = i ∧ b = j
  · rw [if_pos h, if_pos h.symm]
  · rw [if_neg h, if_neg (fun h' => h h'.symm)]

theorem tryLowerTriInv_eq (u : Bool) (N : ℕ) (m : Mat K) :
    tryLowerTriInv u N (transpose m) = (tryUpperTriInv u N m).map transpose := by
  unfold tryLowerTriInv tryUpperTriInv
  refine loopON_sim transpose _ _ ?_ _ _ _
  intro i m
  have inner : ∀ (x : K) (s : Mat K), loop 0 i (fun j (m : Mat K) =>
      let y := m i j
      let y := if u then y else y * m j j
      let y := loop (j + 1) i (fun k y => y + m k j * m i k) y
      m.set i j (x * y)) (transpose s) = transpose (loop 0 i (fun j (m : Mat K) =>
      let y := m j i
      let y := if u then y else y * m j j
      let y := loop (j + 1) i (fun k y => y + m j k * m k i) y
      m.set j i (x * y)) s) := by
    intro x s
    refine loop_sim transpose _ _ ?_ _ _ _
    intro j s
    simp only
    rw [transpose_set]
    rfl
  cases u
  · simp only [Bool.false_eq_true, if_false]
    have e : transpose m i i = m i i := rfl
    rw [e]
    by_cases h : m i i = 0
    · rw [if_pos h, if_pos h]; rfl
    · rw [if_neg h, if_neg h]
      simp only [Option.map_some]
      rw [transpose_set]
      simp only [Bool.false_eq_true, if_false] at inner
      rw [inner]
  · simp only [if_true, Option.map_some]
    simp only [if_true] at inner
    rw [inner]

end Verif.LuInverse
