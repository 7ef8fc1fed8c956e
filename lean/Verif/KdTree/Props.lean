import Verif.KdTree.Find
import Mathlib.Analysis.Real.Sqrt
/-!
Properties of sorting of points and of search for the nearest point.
-/
namespace Verif.KdTree
open Spec

/-- C42: Sorting succeeds, permutes the points, and produces a balanced tree whose levels split according to the dimensions in turn,
regardless of what `std::nth_element()` does within its contract. -/
theorem C42_sort {P R : Type} [LinearOrder R] (env : Env P R) (nth : Nat → Nat → Nat → List P → List P) (arr : List P)
    (hk : arr ≠ [] → env.k ≠ 0) (hsize : arr.length < 2 ^ env.maxLevels)
    (hn : ∀ call dim n l, n < l.length → NthElement env.comp dim n l (nth call dim n l)) :
    ∃ arr', sort env nth arr = some arr' ∧ arr'.Perm arr ∧ Organized env.k env.comp 0 arr' := by
  unfold sort
  cases arr with
  | nil => exact ⟨[], rfl, .refl _, .empty _⟩
  | cons p ps =>
    generalize harr : p :: ps = arr at *
    have hne : arr ≠ [] := by rw [← harr]; simp
    have hlen : 0 < arr.length := List.length_pos_iff.2 hne
    rw [if_pos (by omega)]
    obtain ⟨arr', h1, h2, h3⟩ := sortLoop_spec (hk hne) hn arr.length 0 arr.length 0 0 0 arr [] rfl hlen (le_refl _) (by simpa using hsize)
    have hall : ∀ l : List P, l.length = arr.length → seg l 0 arr.length = l := fun l hl => by
      unfold seg; rw [← hl, List.take_length, List.drop_zero]
    refine ⟨arr', ?_, ?_, ?_⟩
    · rw [Nat.zero_add] at h3; exact h3
    · have := h1.inside
      rwa [hall _ h1.length, hall _ rfl] at this
    · rwa [hall _ h1.length] at h2

/-- There is a function that satisfies the contract of `std::nth_element()`. -/
example : ∃ nth : Nat → Nat → Nat → List (ℤ × ℤ) → List (ℤ × ℤ), ∀ call dim n l, n < l.length →
    NthElement (fun p i => if i = 0 then p.1 else p.2) dim n l (nth call dim n l) := by
  refine ⟨fun _ dim _ l => l.mergeSort (fun a b => decide ((if dim = 0 then a.1 else a.2) ≤ (if dim = 0 then b.1 else b.2))), ?_⟩
  intro call dim n l hn
  refine ⟨List.mergeSort_perm _ _, ?_⟩
  simp only
  have hp := List.pairwise_mergeSort (le := fun a b : ℤ × ℤ => decide ((if dim = 0 then a.1 else a.2) ≤ (if dim = 0 then b.1 else b.2)))
    (fun a b c h1 h2 => by simp only [decide_eq_true_eq] at *; exact le_trans h1 h2)
    (fun a b => by simp only [Bool.or_eq_true, decide_eq_true_eq]; exact le_total _ _) l
  have hl := List.length_mergeSort (le := fun a b : ℤ × ℤ => decide ((if dim = 0 then a.1 else a.2) ≤ (if dim = 0 then b.1 else b.2))) l
  generalize l.mergeSort _ = s at hp hl ⊢
  have hs : s = s.take n ++ s[n] :: s.drop (n + 1) := by rw [List.getElem_cons_drop, List.take_append_drop]
  rw [hs, List.pairwise_append, List.pairwise_cons] at hp
  refine ⟨s.take n, s[n], s.drop (n + 1), hs, by rw [List.length_take]; omega, fun p h => ?_, fun p h => ?_⟩
  · have := hp.2.2 p h _ List.mem_cons_self
    simp only [decide_eq_true_eq] at this
    exact not_lt.2 this
  · have := hp.2.1.1 p h
    simp only [decide_eq_true_eq] at this
    exact not_lt.2 this

/-- Points of the plane with whole coordinates. -/
def plane : Env (ℤ × ℤ) ℤ := ⟨2, fun p i => if i = 0 then p.1 else p.2, 63⟩

/-- A way to do what `std::nth_element()` does. -/
def nthBySorting (_call dim _n : Nat) (l : List (ℤ × ℤ)) : List (ℤ × ℤ) :=
  l.foldr (fun p s => s.takeWhile (fun x => plane.comp x dim < plane.comp p dim) ++ p :: s.dropWhile (fun x => plane.comp x dim < plane.comp p dim)) []

example : sort plane nthBySorting [(7, 2), (5, 4), (2, 3), (4, 7), (9, 6), (8, 1)] =
    some [(2, 3), (4, 7), (5, 4), (8, 1), (7, 2), (9, 6)] := by decide +kernel

/-- C41: Search in a sequence of points that has been sorted terminates with a point that is not further away than any other point,
if there is a point within the limit, and otherwise with nothing. Distances are compared through their squares. -/
theorem C41_find {P R : Type} [CommRing R] [LinearOrder R] [IsStrictOrderedRing R] (env : Env P R) (sqrt : R → R) (arr : List P)
    (q : Nat → R) (limit : Option R) (hk : arr ≠ [] → env.k ≠ 0) (hsize : arr.length < 2 ^ env.maxLevels)
    (ho : Organized env.k env.comp 0 arr) :
    (∃ p, find env sqrt arr q limit = some (some (p, sqrt (sqdist env.k env.comp q p))) ∧ p ∈ arr ∧
      (∀ p' ∈ arr, sqdist env.k env.comp q p ≤ sqdist env.k env.comp q p') ∧
      ∀ m, limit = some m → sqdist env.k env.comp q p < m ^ 2) ∨
    (find env sqrt arr q limit = some none ∧ ∀ p ∈ arr, ∃ m, limit = some m ∧ m ^ 2 ≤ sqdist env.k env.comp q p) := by
  unfold find
  cases arr with
  | nil => right; exact ⟨rfl, fun p hp => by simp at hp⟩
  | cons p ps =>
    generalize harr : p :: ps = arr at *
    have hne : arr ≠ [] := by rw [← harr]; simp
    have hlen : 0 < arr.length := List.length_pos_iff.2 hne
    rw [if_pos (by omega)]
    have hseg : seg arr 0 arr.length = arr := by unfold seg; rw [List.take_length, List.drop_zero]
    obtain ⟨best, h1, h2, h3⟩ := findLoop_spec (env := env) (arr := arr) (q := q) (hk hne) (limit := limit.map (fun x => x * x))
      arr.length ⟨0, 0, arr.length⟩ [] ⟨limit.map (fun x => x * x), none⟩ rfl hlen (le_refl _)
      (Nat.pos_of_ne_zero (hk hne)) (by rw [hseg]; exact ho) trivial (by simpa using hsize) (by simp [total])
      (fun i hi => .inr (.inl ⟨Nat.zero_le _, hi⟩))
    rw [h1]
    simp only [Option.bind_eq_bind, Option.bind_some]
    unfold BestOk at h2
    cases hi : best.index with
    | none =>
      rw [hi] at h2; simp only at h2
      right
      refine ⟨rfl, fun p' hp' => ?_⟩
      obtain ⟨i, hi'⟩ := List.mem_iff_getElem?.1 hp'
      obtain ⟨x, g1, g2⟩ := h3 i (List.getElem?_eq_some_iff.1 hi').1
      rw [h2] at g1
      cases hl : limit with
      | none => rw [hl] at g1; simp at g1
      | some m =>
        rw [hl] at g1
        simp only [Option.map_some, Option.some.injEq] at g1
        exact ⟨m, rfl, by rw [sq, g1]; exact g2 p' hi'⟩
    | some j =>
      rw [hi] at h2
      obtain ⟨p', g1, g2, g3⟩ := h2
      left
      refine ⟨p', ?_, List.mem_of_getElem? g1, fun p'' hp'' => ?_, fun m hm => ?_⟩
      · simp only [g1, g2, Option.bind_some]
      · obtain ⟨i, hi'⟩ := List.mem_iff_getElem?.1 hp''
        obtain ⟨x, e1, e2⟩ := h3 i (List.getElem?_eq_some_iff.1 hi').1
        rw [g2] at e1
        injection e1 with e1
        rw [e1]; exact e2 p'' hi'
      · rw [sq]; exact g3 _ (by rw [hm]; rfl)

example : find plane id [(2, 3), (4, 7), (5, 4), (8, 1), (7, 2), (9, 6)] (fun i => if i = 0 then 9 else 2) none =
    some (some ((8, 1), 2)) := by decide +kernel

/-- The point that is returned is one for which the search has to go to the other side of the root. -/
example : find plane id [(2, 3), (4, 7), (5, 4), (8, 1), (7, 2), (9, 6)] (fun i => if i = 0 then 5 else 7) none =
    some (some ((4, 7), 1)) := by decide +kernel

/-- Only points that are closer than the limit are considered. -/
example : find plane id [(2, 3), (4, 7), (5, 4), (8, 1), (7, 2), (9, 6)] (fun i => if i = 0 then 5 else 7) (some 1) = some none ∧
    find plane id [(2, 3), (4, 7), (5, 4), (8, 1), (7, 2), (9, 6)] (fun i => if i = 0 then 5 else 7) (some 2) =
      some (some ((4, 7), 1)) := by decide +kernel

/-- Euclidean distance. -/
noncomputable def Spec.distance {P : Type} (k : Nat) (comp : P → Nat → ℝ) (q : Nat → ℝ) (p : P) : ℝ := √(sqdist k comp q p)

theorem sqdist_nonneg {P : Type} (k : Nat) (comp : P → Nat → ℝ) (q : Nat → ℝ) (p : P) : 0 ≤ sqdist k comp q p :=
  Finset.sum_nonneg (fun _ _ => sq_nonneg _)

/-- C41: When coordinates are real numbers, sorting the points, and then searching, produces a point of least distance among those
closer than the limit, together with that distance, if there is a point closer than the limit. Otherwise the search produces nothing.
The limit must not be negative. -/
theorem C41_nearest_partial {P : Type} (env : Env P ℝ) (nth : Nat → Nat → Nat → List P → List P) (points : List P) (q : Nat → ℝ)
    (limit : Option ℝ) (hlimit : ∀ m, limit = some m → 0 ≤ m) (hk : points ≠ [] → env.k ≠ 0) (hsize : points.length < 2 ^ env.maxLevels)
    (hn : ∀ call dim n l, n < l.length → NthElement env.comp dim n l (nth call dim n l)) :
    ∃ arr, sort env nth points = some arr ∧ arr.Perm points ∧
    ∃ r, find env Real.sqrt arr q limit = some r ∧
      (r = none ↔ ¬ ∃ p ∈ points, ∀ m, limit = some m → distance env.k env.comp q p < m) ∧
      ∀ p d, r = some (p, d) → p ∈ points ∧ d = distance env.k env.comp q p ∧ (∀ m, limit = some m → d < m) ∧
        ∀ p' ∈ points, d ≤ distance env.k env.comp q p' := by
  obtain ⟨arr, h1, h2, h3⟩ := C42_sort env nth points hk hsize hn
  have hlt : ∀ p m, 0 ≤ m → (sqdist env.k env.comp q p < m ^ 2 ↔ distance env.k env.comp q p < m) := fun p m hm => by
    rcases eq_or_lt_of_le hm with rfl | hm
    · constructor
      · intro h; have := sqdist_nonneg env.k env.comp q p; simp only [ne_eq, OfNat.ofNat_ne_zero, not_false_eq_true, zero_pow] at h; linarith
      · intro h; have := Real.sqrt_nonneg (sqdist env.k env.comp q p); unfold distance at h; linarith
    · exact (Real.sqrt_lt' hm).symm
  refine ⟨arr, h1, h2, ?_⟩
  rcases C41_find env Real.sqrt arr q limit (fun h => hk (fun h' => h (by rw [h'] at h2; exact h2.eq_nil))) (by rw [h2.length_eq]; exact hsize) h3
    with ⟨p, g1, g2, g3, g4⟩ | ⟨g1, g2⟩
  · have hlim : ∀ m, limit = some m → distance env.k env.comp q p < m := fun m hm => (hlt p m (hlimit m hm)).1 (g4 m hm)
    refine ⟨_, g1, ?_, ?_⟩
    · simp only [reduceCtorEq, false_iff, not_not]
      exact ⟨p, h2.mem_iff.1 g2, hlim⟩
    · intro p' d h
      simp only [Option.some.injEq, Prod.mk.injEq] at h
      obtain ⟨rfl, rfl⟩ := h
      exact ⟨h2.mem_iff.1 g2, rfl, hlim, fun p' hp' => Real.sqrt_le_sqrt (g3 p' (h2.mem_iff.2 hp'))⟩
  · refine ⟨_, g1, ?_, ?_⟩
    · simp only [true_iff]
      rintro ⟨p, hp, h⟩
      obtain ⟨m, hm, hle⟩ := g2 p (h2.mem_iff.2 hp)
      exact absurd ((hlt p m (hlimit m hm)).2 (h m hm)) (not_lt.2 hle)
    · intro p d h; cases h

/-- A negative limit acts like its absolute value: a point is found although no point is at a negative distance. This is against
the documentation, which says that only points closer than the limit are considered. -/
theorem C41_negative_limit : ∃ (env : Env ℝ ℝ) (arr : List ℝ) (q : Nat → ℝ) (m : ℝ), env.k ≠ 0 ∧ arr.length < 2 ^ env.maxLevels ∧
    Organized env.k env.comp 0 arr ∧ (∃ p d, find env Real.sqrt arr q (some m) = some (some (p, d))) ∧
    ∀ p ∈ arr, ¬ distance env.k env.comp q p < m := by
  have ho : Organized 1 (fun (p : ℝ) _ => p) 0 ([] ++ 0 :: []) := .node 0 [] [] 0 (.inl rfl) (by simp) (by simp) (.empty _) (.empty _)
  refine ⟨⟨1, fun p _ => p, 63⟩, [0], fun _ => 0, -1, by simp, by simp, ho, ?_, ?_⟩
  · rcases C41_find ⟨1, fun (p : ℝ) _ => p, 63⟩ Real.sqrt [0] (fun _ => 0) (some (-1)) (by simp) (by simp) ho with ⟨p, h, _⟩ | ⟨_, h⟩
    · exact ⟨_, _, h⟩
    · obtain ⟨m, h1, h2⟩ := h 0 (by simp)
      simp only [Option.some.injEq] at h1
      rw [← h1] at h2
      simp [sqdist] at h2
      linarith
  · intro p _ h
    have := Real.sqrt_nonneg (sqdist 1 (fun (p : ℝ) _ => p) (fun _ => 0) p)
    unfold distance at h
    linarith

end Verif.KdTree
