import Verif.StableSort.Model
import Verif.StableSort.Spec
import Mathlib.Data.List.Perm.Basic
import Mathlib.Data.List.Induction
import Mathlib.Tactic.Common

/-!
# Properties of stable sort (C106)
-/

namespace Verif.StableSort

open Spec

variable {α : Type}

theorem write_at (A B : List α) (y x : α) : write (A ++ y :: B) A.length x = some (A ++ x :: B) := by
  unfold write
  rw [if_pos (by simp)]
  simp

theorem moveLoop_spec (A : List α) : ∀ (M : List α) (m : α) (y : α) (B : List α) (fuel : Nat), M.length < fuel →
    moveLoop A.length fuel (A ++ m :: M ++ y :: B) (A.length + M.length + 1) = some (A ++ m :: m :: M ++ B) := by
  intro M
  induction M using List.reverseRecOn with
  | nil =>
    intro m y B fuel hf
    obtain ⟨fuel, rfl⟩ : ∃ f, fuel = f + 1 := ⟨fuel - 1, by omega⟩
    unfold moveLoop
    rw [if_neg (by omega)]
    have h1 : (A ++ m :: [] ++ y :: B)[A.length + ([] : List α).length + 1 - 1]? = some m := by simp
    rw [h1]
    have h2 := write_at (A ++ [m]) B y m
    simp only [List.length_append, List.length_cons, List.length_nil] at h2
    simp only [List.length_nil, Nat.add_zero, Option.bind_eq_bind, Option.bind_some]
    rw [show A ++ m :: [] ++ y :: B = A ++ [m] ++ y :: B by simp, h2]
    simp
  | append_singleton M p ih =>
    intro m y B fuel hf
    obtain ⟨fuel, rfl⟩ : ∃ f, fuel = f + 1 := ⟨fuel - 1, by omega⟩
    unfold moveLoop
    rw [if_neg (by omega)]
    have e1 : A ++ m :: (M ++ [p]) ++ y :: B = (A ++ m :: M) ++ p :: y :: B := by simp
    have e2 : A ++ m :: (M ++ [p]) ++ y :: B = (A ++ m :: M ++ [p]) ++ y :: B := by simp
    have l1 : A.length + (M ++ [p]).length + 1 - 1 = (A ++ m :: M).length := by simp
    have l2 : A.length + (M ++ [p]).length + 1 = (A ++ m :: M ++ [p]).length := by simp; omega
    rw [l1]
    have h1 : (A ++ m :: (M ++ [p]) ++ y :: B)[(A ++ m :: M).length]? = some p := by
      rw [e1, List.getElem?_append_right (Nat.le_refl _)]; simp
    rw [h1]
    have h2 := write_at (A ++ m :: M ++ [p]) B y p
    simp only [Option.bind_eq_bind, Option.bind_some]
    rw [e2, l2, h2]
    simp only [Option.bind_some]
    rw [if_pos (by simp)]
    have := ih m p (p :: B) fuel (by simp at hf; omega)
    rw [show A ++ m :: M ++ [p] ++ p :: B = A ++ m :: M ++ p :: p :: B by simp,
      show (A ++ m :: M).length = A.length + M.length + 1 by simp; omega, this]
    simp

/-- Insertion of an element after all elements that it does not come before, counted from the beginning. -/
def insertElem (lt : α → α → Bool) (x : α) (l : List α) : List α :=
  l.takeWhile (fun y => !lt x y) ++ x :: l.dropWhile (fun y => !lt x y)

theorem innerLoop_spec (lt : α → α → Bool) (x : α) (B : List α) : ∀ (M A : List α) (fuel : Nat), M.length < fuel →
    innerLoop lt (A ++ M).length fuel (A ++ M ++ x :: B) A.length =
      some (A ++ insertElem lt x M ++ B) := by
  intro M
  induction M with
  | nil =>
    intro A fuel hf
    obtain ⟨fuel, rfl⟩ : ∃ f, fuel = f + 1 := ⟨fuel - 1, by omega⟩
    unfold innerLoop
    rw [if_neg (by simp)]
    simp [insertElem]
  | cons m M ih =>
    intro A fuel hf
    obtain ⟨fuel, rfl⟩ : ∃ f, fuel = f + 1 := ⟨fuel - 1, by omega⟩
    unfold innerLoop
    rw [if_pos (by simp)]
    have h1 : (A ++ m :: M ++ x :: B)[(A ++ m :: M).length]? = some x := by
      rw [List.getElem?_append_right (Nat.le_refl _)]; simp
    have h2 : (A ++ m :: M ++ x :: B)[A.length]? = some m := by simp
    rw [h1, h2]
    simp only [Option.bind_eq_bind, Option.bind_some]
    by_cases hc : lt x m = true
    · rw [if_neg (by simp [hc])]
      have hm := moveLoop_spec A M m x B ((A ++ m :: M).length + 1) (by simp; omega)
      rw [show (A ++ m :: M).length = A.length + M.length + 1 by simp; omega] at hm ⊢
      rw [hm]
      simp only [Option.bind_some]
      rw [show A ++ m :: m :: M ++ B = A ++ m :: (m :: M ++ B) by simp, write_at]
      simp [insertElem, hc]
    · rw [if_pos (by simp [hc])]
      have := ih (A ++ [m]) fuel (by simp at hf; omega)
      rw [show A ++ [m] ++ M = A ++ m :: M by simp, show (A ++ [m]).length = A.length + 1 by simp] at this
      rw [this]
      simp [insertElem, hc]

/-- Insertion of elements one by one. -/
def insertAll (lt : α → α → Bool) (acc l : List α) : List α := l.foldl (fun acc x => insertElem lt x acc) acc

theorem insertElem_perm (lt : α → α → Bool) (x : α) (l : List α) : (insertElem lt x l).Perm (l ++ [x]) := by
  unfold insertElem
  have h : l.takeWhile (fun y => !lt x y) ++ l.dropWhile (fun y => !lt x y) = l := List.takeWhile_append_dropWhile
  refine List.perm_middle.trans ?_
  rw [h]
  exact (List.perm_append_singleton x l).symm

theorem insertElem_length (lt : α → α → Bool) (x : α) (l : List α) : (insertElem lt x l).length = l.length + 1 := by
  rw [(insertElem_perm lt x l).length_eq]; simp

theorem outerLoop_spec (lt : α → α → Bool) : ∀ (B A : List α) (fuel : Nat), B.length < fuel →
    outerLoop lt fuel (A ++ B) A.length = some (insertAll lt A B) := by
  intro B
  induction B with
  | nil =>
    intro A fuel hf
    obtain ⟨fuel, rfl⟩ : ∃ f, fuel = f + 1 := ⟨fuel - 1, by omega⟩
    unfold outerLoop
    rw [if_neg (by simp)]
    simp [insertAll]
  | cons x B ih =>
    intro A fuel hf
    obtain ⟨fuel, rfl⟩ : ∃ f, fuel = f + 1 := ⟨fuel - 1, by omega⟩
    unfold outerLoop
    rw [if_pos (by simp)]
    have h1 := innerLoop_spec lt x B A [] (A.length + 1) (by omega)
    simp only [List.nil_append, List.length_nil] at h1
    rw [h1]
    simp only [Option.bind_eq_bind, Option.bind_some]
    have := ih (insertElem lt x A) fuel (by simp at hf; omega)
    rw [insertElem_length] at this
    rw [this]
    rfl

theorem le_trans' {lt : α → α → Bool} (w : IsOrder lt) {a b c : α} (h1 : lt b a = false) (h2 : lt c b = false) :
    lt c a = false := by
  by_contra hc
  rw [Bool.not_eq_false] at hc
  cases hab : lt a b with
  | true => rw [w.trans c a b hc hab] at h2; exact absurd h2 (by simp)
  | false =>
    cases hbc : lt b c with
    | true => rw [w.trans b c a hbc hc] at h1; exact absurd h1 (by simp)
    | false => have := (w.incomp c b a h2 hbc h1 hab).1; rw [hc] at this; exact absurd this (by simp)

theorem asymm' {lt : α → α → Bool} (w : IsOrder lt) {a b : α} (h : lt a b = true) : lt b a = false := by
  by_contra hc
  rw [Bool.not_eq_false] at hc
  have := w.trans a b a h hc
  rw [w.irrefl] at this
  exact absurd this (by simp)

theorem lt_of_lt_le {lt : α → α → Bool} (w : IsOrder lt) {a b c : α} (h1 : lt a b = true) (h2 : lt c b = false) :
    lt a c = true := by
  by_contra hc
  rw [Bool.not_eq_true] at hc
  rw [le_trans' w h2 hc] at h1
  exact absurd h1 (by simp)

theorem insertElem_sorted {lt : α → α → Bool} (w : IsOrder lt) (x : α) : ∀ {l : List α},
    l.Pairwise (fun a b => lt b a = false) → (insertElem lt x l).Pairwise (fun a b => lt b a = false) ∧
      (∀ y ∈ l.dropWhile (fun y => !lt x y), lt x y = true) := by
  intro l
  induction l with
  | nil => intro _; simp [insertElem]
  | cons m l ih =>
    intro h
    obtain ⟨h1, h2⟩ := List.pairwise_cons.mp h
    unfold insertElem
    by_cases hc : lt x m = true
    · have hd : List.dropWhile (fun y => !lt x y) (m :: l) = m :: l := by simp [hc]
      have ht : List.takeWhile (fun y => !lt x y) (m :: l) = [] := by simp [hc]
      rw [hd, ht]
      have hall : ∀ y ∈ m :: l, lt x y = true := by
        intro y hy
        rcases List.mem_cons.mp hy with rfl | hy
        · exact hc
        · exact lt_of_lt_le w hc (h1 y hy)
      refine ⟨?_, hall⟩
      rw [List.nil_append, List.pairwise_cons]
      exact ⟨fun y hy => asymm' w (hall y hy), h⟩
    · have hd : List.dropWhile (fun y => !lt x y) (m :: l) = l.dropWhile (fun y => !lt x y) := by simp [hc]
      have ht : List.takeWhile (fun y => !lt x y) (m :: l) = m :: l.takeWhile (fun y => !lt x y) := by simp [hc]
      rw [hd, ht]
      obtain ⟨i1, i2⟩ := ih h2
      refine ⟨?_, i2⟩
      rw [List.cons_append, List.pairwise_cons]
      refine ⟨?_, i1⟩
      intro y hy
      rcases List.mem_append.mp ((insertElem_perm lt x l).mem_iff.mp hy) with hy | hy
      · exact h1 y hy
      · rw [List.mem_singleton] at hy; subst hy; simpa using hc

theorem insertElem_stable {lt : α → α → Bool} (w : IsOrder lt) (x z : α) {l : List α}
    (h : l.Pairwise (fun a b => lt b a = false)) :
    (insertElem lt x l).filter (Tied lt z) = (l ++ [x]).filter (Tied lt z) := by
  have hd := (insertElem_sorted w x h).2
  have hs : l.takeWhile (fun y => !lt x y) ++ l.dropWhile (fun y => !lt x y) = l := List.takeWhile_append_dropWhile
  conv_rhs => rw [← hs]
  unfold insertElem
  simp only [List.filter_append, List.append_assoc]
  congr 1
  by_cases hx : Tied lt z x = true
  · have : (l.dropWhile (fun y => !lt x y)).filter (Tied lt z) = [] := by
      rw [List.filter_eq_nil_iff]
      intro y hy hz
      have h1 := hd y hy
      unfold Tied at hx hz
      simp only [Bool.and_eq_true, Bool.not_eq_true'] at hx hz
      have := (w.incomp x z y hx.2 hx.1 hz.1 hz.2).1
      rw [h1] at this
      exact absurd this (by simp)
    rw [List.filter_cons_of_pos hx, this]
    simp [hx]
  · rw [List.filter_cons_of_neg hx]
    simp [hx]

theorem insertAll_spec {lt : α → α → Bool} (w : IsOrder lt) : ∀ (l acc : List α),
    acc.Pairwise (fun a b => lt b a = false) →
    (insertAll lt acc l).Pairwise (fun a b => lt b a = false) ∧ (insertAll lt acc l).Perm (acc ++ l) ∧
    ∀ z, (insertAll lt acc l).filter (Tied lt z) = (acc ++ l).filter (Tied lt z) := by
  intro l
  induction l with
  | nil => intro acc h; exact ⟨h, by simp [insertAll], by simp [insertAll]⟩
  | cons x l ih =>
    intro acc h
    obtain ⟨h1, h2, h3⟩ := ih (insertElem lt x acc) (insertElem_sorted w x h).1
    refine ⟨h1, ?_, fun z => ?_⟩
    · refine h2.trans ?_
      rw [show acc ++ x :: l = (acc ++ [x]) ++ l by simp]
      exact (insertElem_perm lt x acc).append_right l
    · show (insertAll lt (insertElem lt x acc) l).filter _ = _
      rw [h3 z, List.filter_append, insertElem_stable w x z h, ← List.filter_append]
      simp

/-- For every strict weak order, sorting terminates without any access that is out of range, and produces the
result of sorting in a stable fashion. -/
theorem C106_stable_sort {lt : α → α → Bool} (w : IsOrder lt) (l : List α) :
    ∃ m, stableSort lt l = some m ∧ IsStableSort lt l m := by
  have h := outerLoop_spec lt l [] (l.length + 1) (by omega)
  obtain ⟨h1, h2, h3⟩ := insertAll_spec w l [] List.Pairwise.nil
  refine ⟨_, h, by simpa using h2, ?_, by simpa using h3⟩
  intro i j a b hij ha hb
  obtain ⟨hi, rfl⟩ := List.getElem?_eq_some_iff.mp ha
  obtain ⟨hj, rfl⟩ := List.getElem?_eq_some_iff.mp hb
  exact List.pairwise_iff_getElem.mp h1 i j hi hj hij

example : stableSort (fun a b : Nat × Nat => decide (a.1 < b.1)) [(3, 0), (1, 1), (3, 2), (2, 3), (1, 4)] =
    some [(1, 1), (1, 4), (2, 3), (3, 0), (3, 2)] := by decide

/-- Whatever the comparison function is, sorting terminates without any access that is out of range, and
rearranges the elements. -/
theorem C106_rearrange (compare : α → α → Bool) (l : List α) :
    ∃ m, stableSort compare l = some m ∧ m.Perm l := by
  refine ⟨_, outerLoop_spec compare l [] (l.length + 1) (by omega), ?_⟩
  have : ∀ (l acc : List α), (insertAll compare acc l).Perm (acc ++ l) := by
    intro l
    induction l with
    | nil => intro acc; simp [insertAll]
    | cons x l ih =>
      intro acc
      refine (ih (insertElem compare x acc)).trans ?_
      rw [show acc ++ x :: l = (acc ++ [x]) ++ l by simp]
      exact (insertElem_perm compare x acc).append_right l
  simpa using this l []

example : stableSort (fun _ _ : Nat => true) [1, 2, 3] = some [3, 2, 1] := by decide

end Verif.StableSort
