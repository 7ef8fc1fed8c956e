import Verif.Perlin.Spec
import Mathlib.Tactic.FieldSimp
import Mathlib.Tactic.Linarith
import Mathlib.Tactic.LinearCombination
import Mathlib.Tactic.Positivity
import Mathlib.Tactic.NormNum
import Mathlib.Tactic.Ring

/-!
# Lemmas about Perlin noise
-/

namespace Verif.Perlin

open Spec

/-! ### Number of gradients, and their indexes -/

theorem numGradientsLoop_eq (max : ℕ) (l : List ℤ) (n : ℕ) (hn : 0 < n) (hmax : n ≤ max) (r : ℕ) :
    numGradientsLoop max l n = some r ↔ (∀ x ∈ l, 1 ≤ x) ∧ r = n * (l.map fun x => x.toNat + 1).prod ∧ r ≤ max := by
  induction l generalizing n with
  | nil => simp [numGradientsLoop]; constructor
           · rintro rfl; exact ⟨rfl, hmax⟩
           · rintro ⟨h, -⟩; exact h.symm
  | cons x l ih =>
    rw [numGradientsLoop]
    by_cases h1 : x < 1
    · rw [if_pos h1]
      simp only [List.mem_cons, forall_eq_or_imp]
      constructor
      · intro h; cases h
      · rintro ⟨⟨h, -⟩, -⟩; omega
    rw [if_neg h1]
    have hpos : ∀ l : List ℤ, 0 < (l.map fun x => x.toNat + 1).prod := by
      intro l
      apply List.prod_pos
      intro a ha
      rw [List.mem_map] at ha
      obtain ⟨b, -, rfl⟩ := ha
      omega
    have hle : n * (x.toNat + 1) ≤ n * ((x :: l).map fun x => x.toNat + 1).prod := by
      rw [List.map_cons, List.prod_cons]
      exact Nat.mul_le_mul_left _ (Nat.le_mul_of_pos_right _ (hpos l))
    have hge : x.toNat + 1 ≤ n * (x.toNat + 1) := Nat.le_mul_of_pos_left _ hn
    have key : ∀ (hbig : max < n * (x.toNat + 1)),
        (none = some r ↔ (∀ y ∈ x :: l, 1 ≤ y) ∧ r = n * ((x :: l).map fun x => x.toNat + 1).prod ∧ r ≤ max) := by
      intro hbig
      constructor
      · intro h; cases h
      · rintro ⟨-, h2, h3⟩; omega
    simp only
    by_cases h2 : x.toNat > max
    · rw [if_pos h2]; exact key (by omega)
    rw [if_neg h2]
    by_cases h3 : x.toNat + 1 > max
    · rw [if_pos h3]; exact key (by omega)
    rw [if_neg h3]
    by_cases h4 : n * (x.toNat + 1) > max
    · rw [if_pos h4]; exact key (by omega)
    rw [if_neg h4, ih _ (by positivity) (by omega)]
    simp only [List.mem_cons, forall_eq_or_imp, List.map_cons, List.prod_cons, mul_assoc]
    constructor
    · rintro ⟨a, b, c⟩; exact ⟨⟨by omega, a⟩, b, c⟩
    · rintro ⟨⟨-, a⟩, b, c⟩; exact ⟨a, b, c⟩

/-- Number of vertices up to an axis. -/
def stride {N : ℕ} (size : Fin N → ℕ) (d : ℕ) : ℕ := ∏ j : Fin N, if j.val < d then size j + 1 else 1

theorem stride_zero {N : ℕ} (size : Fin N → ℕ) : stride size 0 = 1 := by simp [stride]

theorem stride_succ {N : ℕ} (size : Fin N → ℕ) {d : ℕ} (h : d < N) : stride size (d + 1) = stride size d * (size ⟨d, h⟩ + 1) := by
  unfold stride
  rw [← Finset.mul_prod_erase Finset.univ _ (Finset.mem_univ (⟨d, h⟩ : Fin N)),
    ← Finset.mul_prod_erase (a := (⟨d, h⟩ : Fin N)) Finset.univ (fun j => if j.val < d then size j + 1 else 1) (Finset.mem_univ _)]
  simp only [lt_irrefl, if_false, one_mul, Nat.lt_succ_self, if_true]
  rw [mul_comm]
  congr 1
  apply Finset.prod_congr rfl
  intro j hj
  have hne : j.val ≠ d := fun e => (Finset.mem_erase.mp hj).1 (Fin.ext e)
  by_cases hjd : j.val < d
  · rw [if_pos hjd, if_pos (by omega)]
  · rw [if_neg hjd, if_neg (by omega)]

theorem stride_all {N : ℕ} (size : Fin N → ℕ) : stride size N = ∏ i, (size i + 1) := by
  unfold stride
  exact Finset.prod_congr rfl fun j _ => if_pos j.isLt

theorem stride_le {N : ℕ} (size : Fin N → ℕ) (d : ℕ) : stride size d ≤ ∏ i, (size i + 1) := by
  unfold stride
  apply Finset.prod_le_prod'
  intro j _
  split <;> omega

theorem stride_cons {N : ℕ} (size : Fin (N + 1) → ℕ) (d : ℕ) :
    stride size (d + 1) = (size 0 + 1) * stride (fun i => size i.succ) d := by
  unfold stride
  rw [Fin.prod_univ_succ]
  simp

theorem linear_eq {N : ℕ} (size v : Fin N → ℕ) : linear N size v = ∑ i, stride size i.val * v i := by
  induction N with
  | zero => simp [linear]
  | succ N ih =>
    rw [linear, Fin.sum_univ_succ, ih, Finset.mul_sum]
    simp only [Fin.val_zero, stride_zero, one_mul, Fin.val_succ, stride_cons, mul_assoc]

theorem linear_lt {N : ℕ} (size v : Fin N → ℕ) (h : ∀ i, v i ≤ size i) : linear N size v < ∏ i, (size i + 1) := by
  induction N with
  | zero => simp [linear]
  | succ N ih =>
    rw [linear, Fin.prod_univ_succ]
    have h1 := ih (fun i => size i.succ) (fun i => v i.succ) (fun i => h i.succ)
    have h2 := h 0
    calc v 0 + (size 0 + 1) * linear N (fun i => size i.succ) (fun i => v i.succ)
        < (size 0 + 1) + (size 0 + 1) * linear N (fun i => size i.succ) (fun i => v i.succ) := by omega
      _ = (size 0 + 1) * (linear N (fun i => size i.succ) (fun i => v i.succ) + 1) := by ring
      _ ≤ _ := Nat.mul_le_mul_left _ h1

theorem linear_inj {N : ℕ} (size v w : Fin N → ℕ) (hv : ∀ i, v i ≤ size i) (hw : ∀ i, w i ≤ size i)
    (h : linear N size v = linear N size w) : v = w := by
  induction N with
  | zero => funext i; exact i.elim0
  | succ N ih =>
    rw [linear, linear] at h
    have h1 := hv 0
    have h2 := hw 0
    have hm := congrArg (· % (size 0 + 1)) h
    have hd := congrArg (· / (size 0 + 1)) h
    simp only [Nat.add_mul_mod_self_left, Nat.add_mul_div_left _ _ (Nat.succ_pos (size 0)), Nat.mod_eq_of_lt (Nat.lt_succ_of_le h1),
      Nat.mod_eq_of_lt (Nat.lt_succ_of_le h2), Nat.div_eq_of_lt (Nat.lt_succ_of_le h1), Nat.div_eq_of_lt (Nat.lt_succ_of_le h2), zero_add,
      Nat.succ_eq_add_one] at hm hd
    have ht := ih _ _ _ (fun i => hv i.succ) (fun i => hw i.succ) hd
    funext i
    refine Fin.cases hm (fun j => ?_) i
    exact congrFun ht j

theorem linear_surj {N : ℕ} (size : Fin N → ℕ) {n : ℕ} (h : n < ∏ i, (size i + 1)) : ∃ v : Fin N → ℕ, (∀ i, v i ≤ size i) ∧ linear N size v = n := by
  induction N generalizing n with
  | zero => exact ⟨fun _ => 0, fun i => i.elim0, by simp [linear] at h ⊢; omega⟩
  | succ N ih =>
    rw [Fin.prod_univ_succ] at h
    have h1 : n / (size 0 + 1) < ∏ i : Fin N, (size i.succ + 1) := Nat.div_lt_of_lt_mul h
    obtain ⟨v, hv, hl⟩ := ih (fun i => size i.succ) h1
    refine ⟨Fin.cons (n % (size 0 + 1)) v, ?_, ?_⟩
    · intro i
      refine Fin.cases ?_ (fun j => ?_) i
      · exact Nat.le_of_lt_succ (Nat.mod_lt _ (Nat.succ_pos _))
      · simpa using hv j
    · rw [linear]
      simp only [Fin.cons_zero, Fin.cons_succ]
      rw [hl]
      exact Nat.mod_add_div _ _

/-! ### The first loop -/

section

variable {N : ℕ}

/-- The fractional part of a coordinate. -/
noncomputable def frac (s : Noise N) (pos : Fin N → ℝ) (i : Fin N) : ℝ := (cell (s.gridSize i) ((pos i - s.gridPos i) * s.invGridGauge i)).1

/-- The integer part of a coordinate. -/
noncomputable def base (s : Noise N) (pos : Fin N → ℝ) (i : Fin N) : ℕ := (cell (s.gridSize i) ((pos i - s.gridPos i) * s.invGridGauge i)).2

theorem setup_take (s : Noise N) (pos : Fin N → ℝ) (d : ℕ) (hd : d ≤ N) :
    let u := ((List.finRange N).take d).foldl s.setupStep { vec := pos - s.gridPos }
    (∀ i, u.vec i = if i.val < d then frac s pos i else pos i - s.gridPos i) ∧
    u.index = ∑ i : Fin N, (if i.val < d then stride s.gridSize i.val * base s pos i else 0) ∧
    (∀ i, u.indexShifts i = if i.val < d then stride s.gridSize i.val else 0) ∧ u.multiplier = stride s.gridSize d := by
  induction d with
  | zero => simp [stride_zero]
  | succ d ih =>
    obtain ⟨h1, h2, h3, h4⟩ := ih (by omega)
    have e : (List.finRange N).take (d + 1) = (List.finRange N).take d ++ [⟨d, hd⟩] := by
      rw [List.take_add_one]
      congr 1
      rw [List.getElem?_eq_getElem (by simpa using hd)]
      simp
    simp only
    rw [e, List.foldl_append]
    generalize ((List.finRange N).take d).foldl s.setupStep { vec := pos - s.gridPos } = u at *
    simp only [List.foldl_cons, List.foldl_nil, Noise.setupStep]
    have hval : u.vec ⟨d, hd⟩ = pos ⟨d, hd⟩ - s.gridPos ⟨d, hd⟩ := by rw [h1]; simp
    rw [hval]
    refine ⟨?_, ?_, ?_, ?_⟩
    · intro i
      by_cases hi : i = ⟨d, hd⟩
      · subst hi
        simp [frac]
      · have hne : i.val ≠ d := fun e => hi (Fin.ext e)
        rw [Function.update_of_ne hi, h1]
        by_cases h5 : i.val < d
        · rw [if_pos h5, if_pos (by omega)]
        · rw [if_neg h5, if_neg (by omega)]
    · rw [h2, h4]
      rw [← Finset.add_sum_erase Finset.univ _ (Finset.mem_univ (⟨d, hd⟩ : Fin N)),
        ← Finset.add_sum_erase (a := (⟨d, hd⟩ : Fin N)) Finset.univ (fun i => if i.val < d + 1 then _ else 0) (Finset.mem_univ _)]
      simp only [lt_irrefl, if_false, zero_add, Nat.lt_succ_self, if_true]
      rw [add_comm]
      congr 1
      apply Finset.sum_congr rfl
      intro j hj
      have hne : j.val ≠ d := fun e => (Finset.mem_erase.mp hj).1 (Fin.ext e)
      by_cases hjd : j.val < d
      · rw [if_pos hjd, if_pos (by omega)]
      · rw [if_neg hjd, if_neg (by omega)]
    · intro i
      by_cases hi : i = ⟨d, hd⟩
      · subst hi
        simp [h4]
      · have hne : i.val ≠ d := fun e => hi (Fin.ext e)
        rw [Function.update_of_ne hi, h3]
        by_cases h5 : i.val < d
        · rw [if_pos h5, if_pos (by omega)]
        · rw [if_neg h5, if_neg (by omega)]
    · rw [h4, stride_succ s.gridSize hd]

theorem setup_eq (s : Noise N) (pos : Fin N → ℝ) :
    (s.setup pos).vec = frac s pos ∧ (s.setup pos).index = linear N s.gridSize (base s pos) ∧
    (s.setup pos).indexShifts = fun i => stride s.gridSize i.val := by
  have h := setup_take s pos N le_rfl
  rw [List.take_of_length_le (by simp)] at h
  obtain ⟨h1, h2, h3, -⟩ := h
  refine ⟨funext fun i => ?_, ?_, funext fun i => ?_⟩
  · exact (h1 i).trans (if_pos i.isLt)
  · refine h2.trans ?_
    rw [linear_eq]
    exact Finset.sum_congr rfl fun i _ => if_pos i.isLt
  · exact (h3 i).trans (if_pos i.isLt)

theorem cell_spec {size : ℕ} (hs : 0 < size) (x : ℝ) :
    0 ≤ (cell size x).1 ∧ (cell size x).1 ≤ 1 ∧ (cell size x).2 < size ∧
    (((cell size x).2 : ℝ) + (cell size x).1 = max 0 (min (size : ℝ) x)) := by
  unfold cell
  have hs' : (0 : ℝ) < size := by exact_mod_cast hs
  split
  next h0 =>
    split
    next h1 =>
      have h2 := Nat.floor_le h0
      have h3 := Nat.lt_floor_add_one x
      refine ⟨by simpa using h2, by simp only; linarith, (Nat.floor_lt h0).mpr h1, ?_⟩
      rw [min_eq_right h1.le, max_eq_right h0]
      simp
    next h1 =>
      push Not at h1
      refine ⟨zero_le_one, le_rfl, by simp only; omega, ?_⟩
      rw [min_eq_left h1, max_eq_right hs'.le]
      simp only
      have : size - 1 + 1 = size := by omega
      exact_mod_cast this
  next h0 =>
    push Not at h0
    refine ⟨le_rfl, zero_le_one, hs, ?_⟩
    rw [min_eq_right (by linarith), max_eq_left h0.le]
    simp

end

end Verif.Perlin
