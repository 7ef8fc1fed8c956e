import Verif.KdTree.Sort
import Mathlib.Algebra.Order.BigOperators.Group.Finset
import Mathlib.Tactic.Linarith
import Mathlib.Algebra.BigOperators.Intervals
/-!
Lemmas about search for the nearest point.
-/
namespace Verif.KdTree
open Spec

variable {P R : Type} [CommRing R] [LinearOrder R] [IsStrictOrderedRing R] {env : Env P R} {arr : List P} {q : Nat → R}

theorem sqdistTo_eq (p : P) : sqdistTo env q p = sqdist env.k env.comp q p := by
  unfold sqdistTo sqdist
  generalize env.k = k
  induction k with
  | zero => simp
  | succ k ih =>
    rw [List.range_succ, List.foldl_append, ih, Finset.sum_range_succ]
    simp only [List.foldl_cons, List.foldl_nil]
    ring

theorem comp_le_sqdist (p : P) {dim : Nat} (h : dim < env.k) : (env.comp p dim - q dim) ^ 2 ≤ sqdist env.k env.comp q p :=
  Finset.single_le_sum (f := fun i => (env.comp p i - q i) ^ 2) (fun i _ => sq_nonneg _) (Finset.mem_range.2 h)

/-- The square of the distance to the point with the specified index is at least this. -/
def AtLeast (env : Env P R) (arr : List P) (q : Nat → R) (i : Nat) (x : R) : Prop :=
  ∀ p, arr[i]? = some p → x ≤ sqdist env.k env.comp q p

/-- What is known about the best point so far. -/
def BestOk (env : Env P R) (arr : List P) (q : Nat → R) (limit : Option R) (best : Best R) : Prop :=
  match best.index with
  | none => best.sqdist = limit
  | some j => ∃ p, arr[j]? = some p ∧ best.sqdist = some (sqdist env.k env.comp q p) ∧
      ∀ x, limit = some x → sqdist env.k env.comp q p < x

/-- What is known about the pending ranges. -/
def PendOk (env : Env P R) (arr : List P) (q : Nat → R) : List Trans → Prop
  | [] => True
  | t :: ts => t.first < t.last ∧ t.last ≤ arr.length ∧ t.dim < env.k ∧
      Organized env.k env.comp ((t.dim + 1) % env.k) (seg arr t.first t.last) ∧
      (∃ m, arr[t.mid]? = some m ∧ ∀ i, t.first ≤ i → i < t.last → AtLeast env arr q i ((env.comp m t.dim - q t.dim) ^ 2)) ∧
      (t.last - t.first) * 2 ^ ts.length < 2 ^ env.maxLevels ∧ PendOk env arr q ts

/-- The number of points in pending ranges. -/
def total : List Trans → Nat
  | [] => 0
  | t :: ts => (t.last - t.first) + total ts

/-- The point is in one of the pending ranges. -/
def InPending (i : Nat) (ts : List Trans) : Prop := ∃ t ∈ ts, t.first ≤ i ∧ i < t.last

/-- The point is not better than the best so far. -/
def NoBetter (env : Env P R) (arr : List P) (q : Nat → R) (best : Best R) (i : Nat) : Prop :=
  ∃ x, best.sqdist = some x ∧ AtLeast env arr q i x

theorem leave_spec (hk : env.k ≠ 0) {limit : Option R} {best : Best R} (hb : BestOk env arr q limit best) (hsome : ∃ x, best.sqdist = some x) :
    ∀ (ts : List Trans), PendOk env arr q ts →
    (∀ i, i < arr.length → NoBetter env arr q best i ∨ InPending i ts) →
    (leave env arr q best ts = some none ∧ ∀ i, i < arr.length → NoBetter env arr q best i) ∨
    ∃ r ts', leave env arr q best ts = some (some (r, ts')) ∧ r.first < r.last ∧ r.last ≤ arr.length ∧ r.dim < env.k ∧
      Organized env.k env.comp r.dim (seg arr r.first r.last) ∧ PendOk env arr q ts' ∧
      (r.last - r.first) * 2 ^ ts'.length < 2 ^ env.maxLevels ∧ (r.last - r.first) + total ts' ≤ total ts ∧
      ∀ i, i < arr.length → NoBetter env arr q best i ∨ (r.first ≤ i ∧ i < r.last) ∨ InPending i ts' := by
  intro ts
  induction ts with
  | nil =>
    intro _ h
    refine .inl ⟨rfl, fun i hi => (h i hi).resolve_right ?_⟩
    rintro ⟨t, ht, _⟩
    simp at ht
  | cons t ts ih =>
    rintro ⟨h1, h2, h3, h4, ⟨m, h5, h6⟩, h7, h8⟩ h
    obtain ⟨x, hx⟩ := hsome
    rw [leave, h5, hx]
    simp only [Option.bind_eq_bind, Option.bind_some]
    by_cases hc : (env.comp m t.dim - q t.dim) * (env.comp m t.dim - q t.dim) ≥ x
    · rw [if_pos hc]
      have hcov : ∀ i, i < arr.length → NoBetter env arr q best i ∨ InPending i ts := by
        intro i hi
        rcases h i hi with h9 | ⟨t', ht', h9⟩
        · exact .inl h9
        · rcases List.mem_cons.1 ht' with rfl | ht'
          · refine .inl ⟨x, hx, fun p hp => le_trans hc ?_⟩
            have := h6 i h9.1 h9.2 p hp
            rwa [sq] at this
          · exact .inr ⟨t', ht', h9⟩
      rcases ih h8 hcov with h9 | ⟨r, ts', g1, g2, g3, g4, g5, g6, g7, g8, g9⟩
      · exact .inl h9
      · exact .inr ⟨r, ts', g1, g2, g3, g4, g5, g6, g7, by rw [total]; omega, g9⟩
    · rw [if_neg hc, nextDim, if_neg hk]
      simp only [Option.bind_some]
      refine .inr ⟨_, ts, rfl, h1, h2, Nat.mod_lt _ (by omega), h4, h8, h7, by rw [total], fun i hi => ?_⟩
      rcases h i hi with h9 | ⟨t', ht', h9⟩
      · exact .inl h9
      · rcases List.mem_cons.1 ht' with rfl | ht'
        · exact .inr (.inl h9)
        · exact .inr (.inr ⟨t', ht', h9⟩)

theorem consider_spec {limit : Option R} {best : Best R} (hb : BestOk env arr q limit best) {c : Nat} {p : P} (hp : arr[c]? = some p) :
    BestOk env arr q limit (consider best (sqdist env.k env.comp q p) c) ∧
    (∃ x, (consider best (sqdist env.k env.comp q p) c).sqdist = some x) ∧
    NoBetter env arr q (consider best (sqdist env.k env.comp q p) c) c ∧
    ∀ i, NoBetter env arr q best i → NoBetter env arr q (consider best (sqdist env.k env.comp q p) c) i := by
  have hself : AtLeast env arr q c (sqdist env.k env.comp q p) := fun p' hp' => by
    rw [hp] at hp'; injection hp' with hp'; rw [hp']
  unfold consider
  cases hs : best.sqdist with
  | none =>
    simp only
    refine ⟨⟨p, hp, rfl, fun x hx => ?_⟩, ⟨_, rfl⟩, ⟨_, rfl, hself⟩, ?_⟩
    · unfold BestOk at hb
      cases hi : best.index with
      | none => rw [hi] at hb; simp only at hb; rw [← hb, hs] at hx; cases hx
      | some j =>
        rw [hi] at hb
        obtain ⟨p', _, h2, _⟩ := hb
        rw [hs] at h2; cases h2
    · rintro i ⟨x, hx, _⟩; rw [hs] at hx; cases hx
  | some sq0 =>
    simp only
    by_cases hlt : sqdist env.k env.comp q p < sq0
    · rw [if_pos hlt]
      refine ⟨⟨p, hp, rfl, fun x hx => ?_⟩, ⟨_, rfl⟩, ⟨_, rfl, hself⟩, ?_⟩
      · unfold BestOk at hb
        cases hi : best.index with
        | none =>
          rw [hi] at hb; simp only at hb
          rw [← hb, hs] at hx
          injection hx with hx; rwa [← hx]
        | some j =>
          rw [hi] at hb
          obtain ⟨p', _, h2, h3⟩ := hb
          rw [hs] at h2
          injection h2 with h2
          exact lt_trans hlt (h2 ▸ h3 x hx)
      · rintro i ⟨x, hx, h⟩
        rw [hs] at hx
        injection hx with hx
        exact ⟨_, rfl, fun p' hp' => le_trans hlt.le (hx ▸ h p' hp')⟩
    · rw [if_neg hlt]
      refine ⟨hb, ⟨_, hs⟩, ⟨_, hs, fun p' hp' => ?_⟩, fun _ h => h⟩
      exact le_trans (not_lt.1 hlt) (hself p' hp')

theorem findLoop_spec (hk : env.k ≠ 0) {limit : Option R} (fuel : Nat) :
    ∀ (r : Range) (ts : List Trans) (best : Best R), BestOk env arr q limit best → r.first < r.last → r.last ≤ arr.length → r.dim < env.k →
    Organized env.k env.comp r.dim (seg arr r.first r.last) → PendOk env arr q ts → (r.last - r.first) * 2 ^ ts.length < 2 ^ env.maxLevels →
    (r.last - r.first) + total ts ≤ fuel →
    (∀ i, i < arr.length → NoBetter env arr q best i ∨ (r.first ≤ i ∧ i < r.last) ∨ InPending i ts) →
    ∃ best', findLoop env arr q fuel r ts best = some best' ∧ BestOk env arr q limit best' ∧
      ∀ i, i < arr.length → NoBetter env arr q best' i := by
  induction fuel with
  | zero => intro r ts best _ h1 _ _ _ _ _ h2; omega
  | succ fuel ih =>
    rintro ⟨dim, a, b⟩ ts best hbest hab hb hdim ho hpend hL hfuel hcov
    simp only at hab hb hdim ho hL hfuel hcov
    obtain ⟨m1, m2, m3, m4, m5⟩ := mid_facts hab
    obtain ⟨p, o1, o2, o3, o4, o5⟩ := organized_split ho hab hb
    rw [findLoop, if_pos hab]
    simp only
    generalize midpoint a b = c at *
    rw [o1]
    simp only [Option.bind_eq_bind, Option.bind_some]
    rw [sqdistTo_eq]
    obtain ⟨c1, c2, c3, c4⟩ := consider_spec hbest o1
    generalize consider best (sqdist env.k env.comp q p) c = best1 at *
    have hnd : ∀ d, nextDim env d = some ((d + 1) % env.k) := fun d => by rw [nextDim, if_neg hk]
    have hdim' : (dim + 1) % env.k < env.k := Nat.mod_lt _ (by omega)
    -- the common end of all cases
    have hleave : ∀ ts' : List Trans, PendOk env arr q ts' → total ts' ≤ fuel →
        (∀ i, i < arr.length → NoBetter env arr q best1 i ∨ InPending i ts') →
        ∃ best', (do
          match ← leave env arr q best1 ts' with
          | none => some best1
          | some (r, ts) => findLoop env arr q fuel r ts best1) = some best' ∧ BestOk env arr q limit best' ∧
          ∀ i, i < arr.length → NoBetter env arr q best' i := by
      intro ts' hp ht hc
      rcases leave_spec hk c1 c2 ts' hp hc with ⟨l1, l2⟩ | ⟨r, ts'', l1, l2, l3, l4, l5, l6, l7, l8, l9⟩
      · rw [l1]; exact ⟨best1, rfl, c1, l2⟩
      · rw [l1]
        exact ih r ts'' best1 c1 l2 l3 l4 l5 l6 l7 (by omega) l9
    by_cases hq : q dim ≤ env.comp p dim
    · simp only [hq, decide_true, if_true, true_and, not_true_eq_false, false_and, if_false]
      have hplane : ∀ i, c + 1 ≤ i → i < b → AtLeast env arr q i ((env.comp p dim - q dim) ^ 2) := by
        intro i h1 h2 p' hp'
        have h3 := o3 p' (mem_seg.2 ⟨i, h1, h2, hp'⟩)
        refine le_trans ?_ (comp_le_sqdist p' hdim)
        exact pow_le_pow_left₀ (by linarith) (by linarith) 2
      by_cases hdb : c + 1 < b
      · rw [push, if_pos hdb, if_pos (two_pow_lt hL (by omega))]
        simp only [Option.bind_some]
        have hp' : PendOk env arr q (⟨dim, c, c + 1, b⟩ :: ts) :=
          ⟨hdb, hb, hdim, o5, ⟨p, o1, hplane⟩, le_pow hL (by simp only; omega), hpend⟩
        by_cases hac : a < c
        · rw [if_pos hac, hnd]
          simp only [Option.bind_some]
          refine ih ⟨_, a, c⟩ _ best1 c1 hac (by simp only; omega) hdim' o4 hp' (by
            rw [List.length_cons]; exact half_pow hL (by simp only; omega)) (by simp only [total]; omega) (fun i hi => ?_)
          simp only
          rcases hcov i hi with h | h | ⟨t, ht, h⟩
          · exact .inl (c4 i h)
          · rcases Nat.lt_trichotomy i c with h' | h' | h'
            · exact .inr (.inl ⟨h.1, h'⟩)
            · subst h'; exact .inl c3
            · exact .inr (.inr ⟨_, List.mem_cons_self, h', h.2⟩)
          · exact .inr (.inr ⟨t, List.mem_cons_of_mem _ ht, h⟩)
        · rw [if_neg hac]
          refine hleave _ hp' (by simp only [total]; omega) (fun i hi => ?_)
          rcases hcov i hi with h | h | ⟨t, ht, h⟩
          · exact .inl (c4 i h)
          · rcases Nat.lt_trichotomy i c with h' | h' | h'
            · omega
            · subst h'; exact .inl c3
            · exact .inr ⟨_, List.mem_cons_self, h', h.2⟩
          · exact .inr ⟨t, List.mem_cons_of_mem _ ht, h⟩
      · rw [push, if_neg hdb]
        simp only [Option.bind_some]
        rw [if_neg (by omega)]
        refine hleave _ hpend (by omega) (fun i hi => ?_)
        rcases hcov i hi with h | h | h
        · exact .inl (c4 i h)
        · have : i = c := by omega
          subst this; exact .inl c3
        · exact .inr h
    · simp only [hq, decide_false, if_false, false_and, Bool.false_eq_true, not_false_eq_true, true_and]
      have hplane : ∀ i, a ≤ i → i < c → AtLeast env arr q i ((env.comp p dim - q dim) ^ 2) := by
        intro i h1 h2 p' hp'
        have h3 := o2 p' (mem_seg.2 ⟨i, h1, h2, hp'⟩)
        refine le_trans ?_ (comp_le_sqdist p' hdim)
        rw [← neg_sq (env.comp p dim - q dim), ← neg_sq (env.comp p' dim - q dim)]
        rw [not_le] at hq
        exact pow_le_pow_left₀ (by linarith) (by linarith) 2
      by_cases hdb : c + 1 < b
      · by_cases hac : a < c
        · rw [push, if_pos hac, if_pos (two_pow_lt hL (by omega))]
          simp only [Option.bind_some]
          rw [if_pos hdb, hnd]
          simp only [Option.bind_some]
          have hp' : PendOk env arr q (⟨dim, c, a, c⟩ :: ts) :=
            ⟨hac, by simp only; omega, hdim, o4, ⟨p, o1, hplane⟩, le_pow hL (by simp only; omega), hpend⟩
          refine ih ⟨_, c + 1, b⟩ _ best1 c1 hdb hb hdim' o5 hp' (by
            rw [List.length_cons]; exact half_pow hL (by simp only; omega)) (by simp only [total]; omega) (fun i hi => ?_)
          simp only
          rcases hcov i hi with h | h | ⟨t, ht, h⟩
          · exact .inl (c4 i h)
          · rcases Nat.lt_trichotomy i c with h' | h' | h'
            · exact .inr (.inr ⟨_, List.mem_cons_self, h.1, h'⟩)
            · subst h'; exact .inl c3
            · exact .inr (.inl ⟨h', h.2⟩)
          · exact .inr (.inr ⟨t, List.mem_cons_of_mem _ ht, h⟩)
        · rw [push, if_neg hac]
          simp only [Option.bind_some]
          rw [if_pos hdb, hnd]
          simp only [Option.bind_some]
          refine ih ⟨_, c + 1, b⟩ _ best1 c1 hdb hb hdim' o5 hpend (le_pow hL (by simp only; omega)) (by simp only; omega) (fun i hi => ?_)
          simp only
          rcases hcov i hi with h | h | h
          · exact .inl (c4 i h)
          · rcases Nat.lt_trichotomy i c with h' | h' | h'
            · omega
            · subst h'; exact .inl c3
            · exact .inr (.inl ⟨h', h.2⟩)
          · exact .inr (.inr h)
      · rw [push, if_neg (by omega)]
        simp only [Option.bind_some]
        rw [if_neg hdb]
        refine hleave _ hpend (by omega) (fun i hi => ?_)
        rcases hcov i hi with h | h | h
        · exact .inl (c4 i h)
        · have : i = c := by omega
          subst this; exact .inl c3
        · exact .inr h

end Verif.KdTree
