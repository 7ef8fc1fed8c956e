import Verif.StringMatcher.Add
/-!
The positions of all patterns, and the strings that lead from one to another.
-/
namespace Verif.StringMatcher
open Verif.FrozenSets (Ident At)
open Spec (Matches)

variable {star : Int}

/-! ### Parsing -/

theorem parseElement_spec (c : Int) (cs : List Int) :
    ∃ n pre rest, parseElement star (c :: cs) = some (n, rest) ∧ Tree star n pre ∧ c :: cs = pre ++ rest ∧ rest.length ≤ cs.length := by
  rw [parseElement]
  by_cases h : c = star
  · subst h
    exact ⟨.wildcard, [c], cs, by rw [if_pos rfl], .wildcard, rfl, Nat.le_refl _⟩
  · refine ⟨_, c :: cs.takeWhile (· ≠ star), cs.dropWhile (· ≠ star), by rw [if_neg h], .segment (by simp) ?_, ?_, ?_⟩
    · intro hm
      rcases List.mem_cons.1 hm with hm | hm
      · exact h hm.symm
      · have := List.mem_takeWhile_imp hm
        simp at this
    · rw [List.cons_append, List.takeWhile_append_dropWhile]
    · exact (List.dropWhile_sublist _).length_le

theorem parseLoop_spec {k : Nat} : ∀ {n : Node} {Q rest : List Int}, Tree star n Q → rest.length ≤ k →
    ∃ n', parseLoop star k n rest = some n' ∧ Tree star n' (Q ++ rest) := by
  induction k with
  | zero =>
    intro n Q rest ht hl
    have : rest = [] := List.length_eq_zero_iff.1 (by omega)
    subst this
    exact ⟨n, rfl, by rwa [List.append_nil]⟩
  | succ k ih =>
    intro n Q rest ht hl
    rcases rest with _ | ⟨c, cs⟩
    · exact ⟨n, by rw [parseLoop], by rwa [List.append_nil]⟩
    · obtain ⟨r, pre, rest, h1, h2, h3, h4⟩ := parseElement_spec (star := star) c cs
      simp only [List.length_cons] at hl
      obtain ⟨n', h5, h6⟩ := ih (Tree.concatenation ht h2) (rest := rest) (by omega)
      refine ⟨n', by simp only [parseLoop, h1, Option.bind_eq_bind, Option.bind_some, h5], ?_⟩
      rw [h3, ← List.append_assoc]; exact h6

theorem parse_spec {P : List Int} (h : P ≠ []) : ∃ n, parse star P = some n ∧ Tree star n P := by
  rcases P with _ | ⟨c, cs⟩
  · exact absurd rfl h
  obtain ⟨r, pre, rest, h1, h2, h3, h4⟩ := parseElement_spec (star := star) c cs
  obtain ⟨n', h5, h6⟩ := parseLoop_spec (k := (c :: cs).length) h2 (rest := rest) (by simp; omega)
  exact ⟨n', by simp only [parse, h1, Option.bind_eq_bind, Option.bind_some, h5], by rw [h3]; exact h6⟩

/-! ### The strings that are accepted from a position -/

/-- From the position of index `k` (before it is used), the rest of the pattern matches `w`, and the position is used unless it
is the terminal one. -/
def Acc (star : Int) (P : List Int) (k : Nat) (w : List Int) : Prop :=
  (k = P.length ∧ w = []) ∨
  ∃ s, P[k]? = some s ∧
    if s = star then ∃ c u v, w = c :: (u ++ v) ∧ Matches star (P.drop (k + 1)) v
    else ∃ v, w = s :: v ∧ Matches star (P.drop (k + 1)) v

theorem drop_eq {P : List Int} {k : Nat} {s : Int} (h : P[k]? = some s) : P.drop k = s :: P.drop (k + 1) := by
  obtain ⟨h1, h2⟩ := List.getElem?_eq_some_iff.1 h
  rw [List.drop_eq_getElem_cons h1, h2]

theorem matches_closure {P w : List Int} {k : Nat} (hk : k ≤ P.length) :
    Matches star (P.drop k) w ↔ ∃ k', k ≤ k' ∧ k' ≤ P.length ∧ gap star P k k' ∧ Acc star P k' w := by
  generalize hd : P.length - k = d
  induction d generalizing k with
  | zero =>
    have : k = P.length := by omega
    subst this
    rw [List.drop_length, Matches]
    constructor
    · intro h; exact ⟨P.length, Nat.le_refl _, Nat.le_refl _, gap_nil (Nat.le_refl _), .inl ⟨rfl, h⟩⟩
    · rintro ⟨k', h1, h2, _, h3⟩
      rcases h3 with ⟨_, h3⟩ | ⟨s, h3, _⟩
      · exact h3
      · have := (List.getElem?_eq_some_iff.1 h3).1; omega
  | succ d ih =>
    have hlt : k < P.length := by omega
    obtain ⟨s, hs⟩ : ∃ s, P[k]? = some s := ⟨_, List.getElem?_eq_getElem hlt⟩
    have ih' := ih (k := k + 1) (by omega) (by omega)
    rw [drop_eq hs, Matches]
    by_cases hst : s = star
    · rw [if_pos hst]
      constructor
      · rintro ⟨u, v, rfl, hm⟩
        rcases u with _ | ⟨c, u⟩
        · obtain ⟨k', h1, h2, h3, h4⟩ := ih'.1 hm
          refine ⟨k', by omega, h2, ?_, h4⟩
          intro j h5 h6
          by_cases hj : j = k
          · subst hj; rw [hs, hst]
          · exact h3 j (by omega) h6
        · exact ⟨k, Nat.le_refl _, by omega, gap_nil (Nat.le_refl _), .inr ⟨s, hs, by rw [if_pos hst]; exact ⟨c, u, v, rfl, hm⟩⟩⟩
      · rintro ⟨k', h1, h2, h3, h4⟩
        by_cases hk' : k' = k
        · subst hk'
          rcases h4 with ⟨h4, _⟩ | ⟨s', h4, h5⟩
          · omega
          · rw [hs] at h4; injection h4 with h4; subst h4
            rw [if_pos hst] at h5
            obtain ⟨c, u, v, h5, h6⟩ := h5
            exact ⟨c :: u, v, h5, h6⟩
        · exact ⟨[], w, rfl, ih'.2 ⟨k', by omega, h2, fun j h5 h6 => h3 j (by omega) h6, h4⟩⟩
    · rw [if_neg hst]
      constructor
      · rintro ⟨v, rfl, hm⟩
        exact ⟨k, Nat.le_refl _, by omega, gap_nil (Nat.le_refl _), .inr ⟨s, hs, by rw [if_neg hst]; exact ⟨v, rfl, hm⟩⟩⟩
      · rintro ⟨k', h1, h2, h3, h4⟩
        have hk' : k' = k := by
          by_contra hne
          have := h3 k (Nat.le_refl _) (by omega)
          rw [hs] at this; injection this with this; exact hst this
        subst hk'
        rcases h4 with ⟨h4, _⟩ | ⟨s', h4, h5⟩
        · omega
        · rw [hs] at h4; injection h4 with h4; subst h4
          rw [if_neg hst] at h5
          exact h5

theorem matches_iff {P w : List Int} : Matches star P w ↔ ∃ k, k ≤ P.length ∧ gap star P 0 k ∧ Acc star P k w := by
  have := matches_closure (star := star) (P := P) (w := w) (k := 0) (Nat.zero_le _)
  rw [List.drop_zero] at this
  rw [this]
  simp

theorem acc_nil {P : List Int} {k : Nat} : Acc star P k [] ↔ k = P.length := by
  constructor
  · rintro (h | ⟨s, h1, h2⟩)
    · exact h.1
    · split at h2
      · obtain ⟨c, u, v, h2, _⟩ := h2; simp at h2
      · obtain ⟨v, h2, _⟩ := h2; simp at h2
  · intro h; exact .inl ⟨h, rfl⟩

theorem acc_cons {P w : List Int} {k : Nat} {c : Int} :
    Acc star P k (c :: w) ↔ ∃ s, P[k]? = some s ∧ (s = star ∨ s = c) ∧ ∃ k', k' ≤ P.length ∧ Fol star P k k' ∧ Acc star P k' w := by
  constructor
  · rintro (h | ⟨s, hs, h2⟩)
    · simp at h
    · have hlt := (List.getElem?_eq_some_iff.1 hs).1
      refine ⟨s, hs, ?_⟩
      by_cases hst : s = star
      · rw [if_pos hst] at h2
        obtain ⟨c', u, v, h2, h3⟩ := h2
        injection h2 with h2 h4
        refine ⟨.inl hst, ?_⟩
        have hm : Matches star (P.drop k) w := by
          rw [drop_eq hs, Matches, if_pos hst]
          exact ⟨u, v, h4, h3⟩
        obtain ⟨k', h5, h6, h7, h8⟩ := (matches_closure (by omega)).1 hm
        refine ⟨k', h6, ?_, h8⟩
        by_cases hk : k' = k
        · exact .inl ⟨hk, by rw [hs, hst]⟩
        · exact .inr ⟨by omega, fun j h9 h10 => h7 j (by omega) h10⟩
      · rw [if_neg hst] at h2
        obtain ⟨v, h2, h3⟩ := h2
        injection h2 with h2 h4
        subst h4
        obtain ⟨k', h5, h6, h7, h8⟩ := (matches_closure (by omega)).1 h3
        exact ⟨.inr h2.symm, k', h6, .inr ⟨by omega, h7⟩, h8⟩
  · rintro ⟨s, hs, hsc, k', h1, h2, h3⟩
    have hlt := (List.getElem?_eq_some_iff.1 hs).1
    refine .inr ⟨s, hs, ?_⟩
    by_cases hst : s = star
    · rw [if_pos hst]
      have hm : Matches star (P.drop k) w := by
        refine (matches_closure (by omega)).2 ⟨k', ?_, h1, ?_, h3⟩
        · rcases h2 with h2 | h2 <;> omega
        · intro j h4 h5
          by_cases hj : j = k
          · subst hj; rw [hs, hst]
          · rcases h2 with h2 | h2
            · omega
            · exact h2.2 j (by omega) h5
      rw [drop_eq hs, Matches, if_pos hst] at hm
      obtain ⟨u, v, h4, h5⟩ := hm
      exact ⟨c, u, v, by rw [h4], h5⟩
    · rw [if_neg hst]
      have hsc' : s = c := hsc.resolve_left hst
      refine ⟨w, by rw [hsc'], (matches_closure (by omega)).2 ⟨k', ?_, h1, ?_, h3⟩⟩
      · rcases h2 with ⟨_, h2⟩ | h2
        · rw [hs] at h2; injection h2 with h2; exact absurd h2 hst
        · omega
      · rcases h2 with ⟨_, h2⟩ | h2
        · rw [hs] at h2; injection h2 with h2; exact absurd h2 hst
        · exact h2.2

/-! ### The positions of several patterns -/

/-- The number of positions of some patterns. -/
def total (Ps : List (List Int)) : Nat := (Ps.map (fun P => P.length + 1)).sum

/-- The pattern of index `i` is `P`, and its first position is `q`. -/
def Loc (Ps : List (List Int)) (i : Nat) (P : List Int) (q : Nat) : Prop := Ps[i]? = some P ∧ q = total (Ps.take i)

theorem total_snoc (Ps : List (List Int)) (P : List Int) : total (Ps ++ [P]) = total Ps + P.length + 1 := by
  simp [total]; omega

theorem loc_snoc {Ps : List (List Int)} {P R : List Int} {i q : Nat} :
    Loc (Ps ++ [P]) i R q ↔ Loc Ps i R q ∨ (i = Ps.length ∧ R = P ∧ q = total Ps) := by
  unfold Loc
  by_cases h : i < Ps.length
  · rw [List.getElem?_append_left h, List.take_append_of_le_length (by omega)]
    constructor
    · exact .inl
    · rintro (h | h)
      · exact h
      · omega
  · rw [List.getElem?_append_right (by omega), List.getElem?_eq_none (l := Ps) (by omega)]
    by_cases he : i = Ps.length
    · subst he
      simp; exact fun _ => eq_comm
    · rw [List.getElem?_eq_none (by simp; omega)]
      simp [he]

theorem total_take_le {Ps : List (List Int)} {i j : Nat} (h : i ≤ j) : total (Ps.take i) ≤ total (Ps.take j) := by
  obtain ⟨d, rfl⟩ := Nat.exists_eq_add_of_le h
  rw [List.take_add]
  simp [total]

theorem Loc.lt {Ps : List (List Int)} {i j q r : Nat} {P R : List Int} (h1 : Loc Ps i P q) (h2 : Loc Ps j R r) (h : i < j) :
    q + P.length < r := by
  obtain ⟨h3, h4⟩ := h1
  obtain ⟨h5, h6⟩ := h2
  have h7 := total_take_le (Ps := Ps) (i := i + 1) (j := j) h
  obtain ⟨h8, h9⟩ := List.getElem?_eq_some_iff.1 h3
  rw [← List.take_append_getElem h8, total_snoc, h9] at h7
  omega

theorem Loc.eq {Ps : List (List Int)} {i j q r k l : Nat} {P R : List Int} (h1 : Loc Ps i P q) (h2 : Loc Ps j R r)
    (hk : k ≤ P.length) (hl : l ≤ R.length) (h : q + k = r + l) : i = j ∧ P = R ∧ q = r ∧ k = l := by
  have hij : i = j := by
    by_contra hne
    rcases Nat.lt_or_gt_of_ne hne with h3 | h3
    · have := h1.lt h2 h3; omega
    · have := h2.lt h1 h3; omega
  subst hij
  have hP : P = R := by have := h1.1.symm.trans h2.1; injection this
  have hq : q = r := h1.2.trans h2.2.symm
  exact ⟨rfl, hP, hq, by omega⟩

theorem Loc.bound {Ps : List (List Int)} {i q : Nat} {P : List Int} (h : Loc Ps i P q) : q + P.length < total Ps := by
  obtain ⟨h8, h9⟩ := List.getElem?_eq_some_iff.1 h.1
  have h7 := total_take_le (Ps := Ps) (i := i + 1) (j := Ps.length) h8
  rw [← List.take_append_getElem h8, total_snoc, h9, List.take_length] at h7
  have := h.2
  omega

theorem loc_of {Ps : List (List Int)} {x : Nat} (h : x < total Ps) : ∃ i P q k, Loc Ps i P q ∧ k ≤ P.length ∧ x = q + k := by
  induction Ps using List.reverseRecOn with
  | nil => simp [total] at h
  | append_singleton Ps P ih =>
    by_cases hx : x < total Ps
    · obtain ⟨i, R, q, k, h1, h2, h3⟩ := ih hx
      exact ⟨i, R, q, k, loc_snoc.2 (.inl h1), h2, h3⟩
    · rw [total_snoc] at h
      exact ⟨Ps.length, P, total Ps, x - total Ps, loc_snoc.2 (.inr ⟨rfl, rfl, rfl⟩), by omega, by omega⟩

/-- The state of a builder that holds certain patterns. -/
structure Inv (star : Int) (Ps : List (List Int)) (b : Builder) : Prop where
  wf : WF b
  count : b.patterns.length = Ps.length
  len : b.positions.length = total Ps
  sym : ∀ i P q k s, Loc Ps i P q → P[k]? = some s → b.sym (q + k) = some (symOf star s)
  pat : ∀ i P q k, Loc Ps i P q → k ≤ P.length → b.pat (q + k) = some i
  fol : ∀ q x, x ∈ b.fol q ↔ ∃ i P q0 k k', Loc Ps i P q0 ∧ q = q0 + k ∧ x = q0 + k' ∧ k < P.length ∧ k' ≤ P.length ∧ Fol star P k k'
  start : ∀ x, x ∈ b.startPositions ↔ ∃ i P q0 k, Loc Ps i P q0 ∧ x = q0 + k ∧ k ≤ P.length ∧ gap star P 0 k
  startSorted : Sorted b.startPositions

theorem inv_init : Inv star [] Builder.init := by
  refine ⟨wf_init, rfl, rfl, ?_, ?_, ?_, ?_, ?_⟩ <;> simp [Loc, Builder.init, Builder.fol]

theorem inv_clear {Ps : List (List Int)} {b : Builder} (h : Inv star Ps b) : Inv star [] b.clear := by
  refine ⟨wf_clear h.wf, rfl, rfl, ?_, ?_, ?_, ?_, ?_⟩ <;> simp [Loc, Builder.clear, Builder.fol]

/-- The effect of `do_add_pattern()`. -/
theorem doAddPattern_spec {b : Builder} (h : WF b) (hs : Sorted b.startPositions) (P : List Int) (pi : Nat) :
    ∃ b', b.doAddPattern star P pi = some b' ∧ WF b' ∧ b'.patterns = b.patterns ∧
      b'.positions.map (·.symbol) = b.positions.map (·.symbol) ++ (P.map (symOf star) ++ [some 0]) ∧
      b'.positions.map (·.patternIndex) = b.positions.map (·.patternIndex) ++ List.replicate (P.length + 1) pi ∧
      (∀ q x, x ∈ b'.fol q ↔ x ∈ b.fol q ∨ ∃ k k', q = b.positions.length + k ∧ x = b.positions.length + k' ∧ k < P.length ∧
        k' ≤ P.length ∧ Fol star P k k') ∧
      (∀ x, x ∈ b'.startPositions ↔ x ∈ b.startPositions ∨ ∃ k, x = b.positions.length + k ∧ k ≤ P.length ∧ gap star P 0 k) ∧
      Sorted b'.startPositions := by
  generalize hN : b.positions.length = N
  by_cases hP : P = []
  · subst hP
    obtain ⟨e1, f1⟩ := registerPosition_ext (pi := pi) h (some 0)
    simp only [Builder.doAddPattern, ne_eq, not_true_eq_false, if_false]
    refine ⟨_, rfl, ?_, ?_, ?_, ?_, ?_, ?_, ?_⟩
    · exact e1.wf.of_eq rfl rfl
    · exact e1.patterns
    · exact e1.sym
    · exact e1.pat
    · intro q x
      have : x ∈ (b.registerPosition (some 0) pi).1.fol q ↔ x ∈ b.fol q := by rw [f1]
      refine this.trans ⟨.inl, ?_⟩
      rintro (h | ⟨k, k', _, _, h, _⟩)
      · exact h
      · simp at h
    · intro x
      simp only [Builder.registerPosition, mem_setInsert, hN, List.length_nil]
      constructor
      · rintro (h | h)
        · exact .inr ⟨0, h, Nat.le_refl _, gap_nil (Nat.le_refl _)⟩
        · exact .inl h
      · rintro (h | ⟨k, h, h2, _⟩)
        · exact .inr h
        · exact .inl (by omega)
    · exact sorted_setInsert hs
  · obtain ⟨n, hn, ht⟩ := parse_spec (star := star) hP
    have h0 : WF { b with sets1 := [] } := h.of_eq rfl rfl
    obtain ⟨b1, r, h1, A⟩ := addNode_spec (pi := pi) ht h0
    obtain ⟨F, aF, sF, mF⟩ := A.firstpos
    obtain ⟨L, aL, sL, mL⟩ := A.lastpos
    have hl1 : b1.positions.length = N + P.length := by have := A.ext.len; simpa [hN] using this
    simp only [hN] at mF mL
    have w2 : WF { b1 with startPositions := insertAll F b1.startPositions } := A.ext.wf.of_eq rfl rfl
    obtain ⟨e3, f3⟩ := registerPosition_ext (pi := pi) w2 (some 0)
    generalize hb3 : Builder.registerPosition { b1 with startPositions := insertAll F b1.startPositions } (some 0) pi = r3 at e3 f3
    obtain ⟨b3, t3⟩ := r3
    have ht3 : t3 = N + P.length := by
      have := congrArg Prod.snd hb3
      simp only [Builder.registerPosition] at this
      omega
    subst ht3
    simp only at e3 f3
    have hl3 : b3.positions.length = N + P.length + 1 := by have := e3.len; simp at this; omega
    generalize hb4 : (if r.nullable = true then { b3 with startPositions := setInsert (N + P.length) b3.startPositions } else b3) = b4
    have w4 : WF b4 := by
      rw [← hb4]; split
      · exact e3.wf.of_eq rfl rfl
      · exact e3.wf
    have q4 : b4.positions = b3.positions ∧ b4.sets1 = b3.sets1 ∧ b4.patterns = b3.patterns ∧ b4.followposSets = b3.followposSets := by
      rw [← hb4]; split <;> exact ⟨rfl, rfl, rfl, rfl⟩
    have a4 : At b4.sets1 r.lastpos L := by rw [q4.2.1]; exact e3.at (b := { b1 with startPositions := insertAll F b1.startPositions }) aL
    have f4 : ∀ q, b4.fol q = b3.fol q := fun q => by simp only [Builder.fol, q4.1, q4.2.2.2]
    have s4 : Sorted b4.startPositions ∧ ∀ x, x ∈ b4.startPositions ↔ x ∈ b.startPositions ∨
        ∃ k, x = N + k ∧ k ≤ P.length ∧ gap star P 0 k := by
      have hst : b3.startPositions = insertAll F b.startPositions := by rw [e3.start]; simp only; rw [A.ext.start]
      rw [← hb4]
      by_cases hnull : r.nullable = true
      · rw [if_pos hnull]
        have hg := A.nullable.1 hnull
        refine ⟨by simp only; rw [hst]; exact sorted_setInsert (sorted_insertAll hs), fun x => ?_⟩
        simp only [mem_setInsert, hst, mem_insertAll, mF]
        constructor
        · rintro (h | ⟨j, h, h2, h3⟩ | h)
          · exact .inr ⟨_, h, Nat.le_refl _, hg⟩
          · exact .inr ⟨j, h, by omega, h3⟩
          · exact .inl h
        · rintro (h | ⟨k, h, h2, h3⟩)
          · exact .inr (.inr h)
          · by_cases hk : k = P.length
            · subst hk; exact .inl h
            · exact .inr (.inl ⟨k, h, by omega, h3⟩)
      · rw [if_neg hnull]
        refine ⟨by rw [hst]; exact sorted_insertAll hs, fun x => ?_⟩
        simp only [hst, mem_insertAll, mF]
        constructor
        · rintro (⟨j, h, h2, h3⟩ | h)
          · exact .inr ⟨j, h, by omega, h3⟩
          · exact .inl h
        · rintro (h | ⟨k, h, h2, h3⟩)
          · exact .inr h
          · by_cases hk : k = P.length
            · subst hk; exact absurd (A.nullable.2 h3) hnull
            · exact .inl ⟨k, h, by omega, h3⟩
    obtain ⟨b5, h5, w5, fr5, f5⟩ := registerEach_spec w4 (ps := L) (by
      intro p hp
      obtain ⟨j, rfl, h6, _⟩ := (mL p).1 hp
      rw [q4.1, hl3]; omega) (N + P.length)
    have e5 := fr5.ext (pi := pi) w5
    refine ⟨b5, ?_, w5, ?_, ?_, ?_, ?_, ?_, ?_⟩
    · simp only [Builder.doAddPattern, ne_eq, hP, not_false_eq_true, if_true, hn, h1, contents_at aF, Option.bind_eq_bind,
        Option.bind_some, hb3, hb4, Builder.registerFollowposSet, contents_at a4, h5]
    · rw [fr5.patterns, q4.2.2.1, e3.patterns]; exact A.ext.patterns
    · rw [e5.sym, q4.1, e3.sym]; simp only; rw [A.ext.sym]; simp
    · rw [e5.pat, q4.1, e3.pat]; simp only; rw [A.ext.pat]; simp [List.replicate_succ']
    · intro q x
      have hb1 : x ∈ b1.fol q ↔ x ∈ b.fol q ∨ ∃ k k', q = N + k ∧ x = N + k' ∧ k < P.length ∧ k' < P.length ∧ Fol star P k k' := by
        have := A.fol q x
        simp only [hN] at this
        exact this
      rw [f5, f4, f3]
      refine (or_congr_left hb1).trans ?_
      rw [mL]
      constructor
      · rintro ((h | ⟨k, k', h6, h7, h8, h9, h10⟩) | ⟨⟨j, h6, h7, h8⟩, h9⟩)
        · exact .inl h
        · exact .inr ⟨k, k', h6, h7, h8, by omega, h10⟩
        · exact .inr ⟨j, P.length, h6, h9, h7, Nat.le_refl _, .inr ⟨h7, h8⟩⟩
      · rintro (h | ⟨k, k', h6, h7, h8, h9, h10⟩)
        · exact .inl (.inl h)
        · by_cases hk : k' = P.length
          · subst hk
            refine .inr ⟨⟨k, h6, h8, ?_⟩, h7⟩
            rcases h10 with h10 | h10
            · omega
            · exact h10.2
          · exact .inl (.inr ⟨k, k', h6, h7, h8, by omega, h10⟩)
    · intro x; rw [fr5.start]; exact s4.2 x
    · rw [fr5.start]; exact s4.1

theorem addPattern_spec {Ps : List (List Int)} {b : Builder} (h : Inv star Ps b) (P : List Int) (ident : Nat) :
    ∃ b', b.addPattern star P ident = some b' ∧ Inv star (Ps ++ [P]) b' ∧ b'.patterns = b.patterns ++ [ident] := by
  have h0 : WF { b with patterns := b.patterns ++ [ident] } := h.wf.of_eq rfl rfl
  obtain ⟨b', h1, w, hp, hsym, hpat, hf, hst, hss⟩ := doAddPattern_spec (star := star) h0 h.startSorted P b.patterns.length
  have hlen : b'.positions.length = total Ps + P.length + 1 := by
    have := congrArg List.length hsym
    simp [h.len] at this
    omega
  refine ⟨b', h1, ⟨w, ?_, ?_, ?_, ?_, ?_, ?_, hss⟩, hp⟩
  · rw [hp]; simp [h.count]
  · rw [hlen, total_snoc]
  · intro i R q k s hl hk
    have hsy : ∀ q, b'.sym q = (b'.positions.map (·.symbol))[q]? := fun q => by rw [Builder.sym, List.getElem?_map]
    have hsy' : ∀ q, b.sym q = (b.positions.map (·.symbol))[q]? := fun q => by rw [Builder.sym, List.getElem?_map]
    have hlt := (List.getElem?_eq_some_iff.1 hk).1
    rw [hsy, hsym]
    rcases loc_snoc.1 hl with hl | ⟨-, rfl, rfl⟩
    · have := hl.bound
      simp only
      rw [List.getElem?_append_left (by rw [List.length_map, h.len]; omega), ← hsy']
      exact h.sym i R q k s hl hk
    · simp only
      rw [List.getElem?_append_right (by rw [List.length_map, h.len]; omega), List.length_map, h.len, Nat.add_sub_cancel_left,
        List.getElem?_append_left (by simpa using hlt), List.getElem?_map, hk]
      rfl
  · intro i R q k hl hk
    have hsy : ∀ q, b'.pat q = (b'.positions.map (·.patternIndex))[q]? := fun q => by rw [Builder.pat, List.getElem?_map]
    have hsy' : ∀ q, b.pat q = (b.positions.map (·.patternIndex))[q]? := fun q => by rw [Builder.pat, List.getElem?_map]
    rw [hsy, hpat]
    rcases loc_snoc.1 hl with hl | ⟨hi, rfl, rfl⟩
    · have := hl.bound
      simp only
      rw [List.getElem?_append_left (by rw [List.length_map, h.len]; omega), ← hsy']
      exact h.pat i R q k hl hk
    · simp only
      rw [List.getElem?_append_right (by rw [List.length_map, h.len]; omega), List.length_map, h.len, Nat.add_sub_cancel_left,
        List.getElem?_replicate, if_pos (by omega), hi, h.count]
  · intro q x
    rw [hf, h.len]
    have hb : x ∈ ({ b with patterns := b.patterns ++ [ident] } : Builder).fol q ↔ x ∈ b.fol q := Iff.rfl
    rw [hb, h.fol]
    constructor
    · rintro (⟨i, R, q0, k, k', h2, h3⟩ | ⟨k, k', h2, h3, h4⟩)
      · exact ⟨i, R, q0, k, k', loc_snoc.2 (.inl h2), h3⟩
      · exact ⟨Ps.length, P, total Ps, k, k', loc_snoc.2 (.inr ⟨rfl, rfl, rfl⟩), h2, h3, h4⟩
    · rintro ⟨i, R, q0, k, k', h2, h3⟩
      rcases loc_snoc.1 h2 with h2 | ⟨-, rfl, rfl⟩
      · exact .inl ⟨i, R, q0, k, k', h2, h3⟩
      · exact .inr ⟨k, k', h3⟩
  · intro x
    rw [hst, h.len]
    simp only
    rw [h.start]
    constructor
    · rintro (⟨i, R, q0, k, h2, h3⟩ | ⟨k, h2⟩)
      · exact ⟨i, R, q0, k, loc_snoc.2 (.inl h2), h3⟩
      · exact ⟨Ps.length, P, total Ps, k, loc_snoc.2 (.inr ⟨rfl, rfl, rfl⟩), h2⟩
    · rintro ⟨i, R, q0, k, h2, h3⟩
      rcases loc_snoc.1 h2 with h2 | ⟨-, rfl, rfl⟩
      · exact .inl ⟨i, R, q0, k, h2, h3⟩
      · exact .inr ⟨k, h3⟩

/-! ### Sets of positions -/

/-- A position can be used for a character. -/
def Builder.uses (b : Builder) (q : Nat) (c : Int) : Prop := b.sym q = some none ∨ b.sym q = some (some c)

instance (b : Builder) (q : Nat) (c : Int) : Decidable (b.uses q c) := by unfold Builder.uses; infer_instance

/-- The positions that can be next after use of one of the positions for a character. -/
def Builder.delta (b : Builder) (c : Int) : List Nat → List Nat → List Nat
  | acc, [] => acc
  | acc, q :: S => b.delta c (if b.uses q c then FrozenSets.setUnion acc (b.fol q) else acc) S

theorem fol_sorted {b : Builder} (h : WF b) (q : Nat) : Sorted (b.fol q) := by
  unfold Builder.fol
  split
  · exact .nil
  · rename_i s hs; exact h.sorted q s hs

theorem delta_spec {b : Builder} (h : WF b) {c : Int} {S : List Nat} : ∀ {acc : List Nat}, Sorted acc →
    Sorted (b.delta c acc S) ∧ ∀ x, x ∈ b.delta c acc S ↔ x ∈ acc ∨ ∃ q ∈ S, b.uses q c ∧ x ∈ b.fol q := by
  induction S with
  | nil => intro acc ha; exact ⟨ha, fun x => by simp [Builder.delta]⟩
  | cons q S ih =>
    intro acc ha
    rw [Builder.delta]
    by_cases hu : b.uses q c
    · rw [if_pos hu]
      have hl := FrozenSets.setUnion_lists ha (fol_sorted h q)
      obtain ⟨h1, h2⟩ := ih hl.1
      refine ⟨h1, fun x => ?_⟩
      rw [h2, hl.2]
      constructor
      · rintro ((h | h) | ⟨q', h3, h4⟩)
        · exact .inl h
        · exact .inr ⟨q, List.mem_cons_self, hu, h⟩
        · exact .inr ⟨q', List.mem_cons_of_mem _ h3, h4⟩
      · rintro (h | ⟨q', h3, h4⟩)
        · exact .inl (.inl h)
        · rcases List.mem_cons.1 h3 with rfl | h3
          · exact .inl (.inr h4.2)
          · exact .inr ⟨q', h3, h4⟩
    · rw [if_neg hu]
      obtain ⟨h1, h2⟩ := ih ha
      refine ⟨h1, fun x => ?_⟩
      rw [h2]
      constructor
      · rintro (h | ⟨q', h3, h4⟩)
        · exact .inl h
        · exact .inr ⟨q', List.mem_cons_of_mem _ h3, h4⟩
      · rintro (h | ⟨q', h3, h4⟩)
        · exact .inl h
        · rcases List.mem_cons.1 h3 with rfl | h3
          · exact absurd h4.1 hu
          · exact .inr ⟨q', h3, h4⟩

/-- The positions that can be next after a string. -/
def Builder.run (b : Builder) : List Nat → List Int → List Nat
  | S, [] => S
  | S, c :: w => b.run (b.delta c [] S) w

theorem uses_iff {Ps : List (List Int)} {b : Builder} (h : Inv star Ps b) {i : Nat} {P : List Int} {q k : Nat} {s c : Int}
    (hl : Loc Ps i P q) (hk : P[k]? = some s) : b.uses (q + k) c ↔ s = star ∨ s = c := by
  rw [Builder.uses, h.sym i P q k s hl hk]
  unfold symOf
  by_cases hs : s = star
  · simp [hs]
  · simp [hs]

/-- The terminal position of a pattern is reached exactly by the strings that are accepted from one of the positions. -/
theorem run_terminal {Ps : List (List Int)} {b : Builder} (h : Inv star Ps b) {i : Nat} {P : List Int} {q0 : Nat}
    (hl : Loc Ps i P q0) (w : List Int) :
    ∀ S, q0 + P.length ∈ b.run S w ↔ ∃ k, k ≤ P.length ∧ q0 + k ∈ S ∧ Acc star P k w := by
  induction w with
  | nil =>
    intro S
    rw [Builder.run]
    constructor
    · intro hm; exact ⟨P.length, Nat.le_refl _, hm, acc_nil.2 rfl⟩
    · rintro ⟨k, _, h2, h3⟩
      rw [acc_nil] at h3; subst h3; exact h2
  | cons c w ih =>
    intro S
    rw [Builder.run, ih]
    have hd := (delta_spec h.wf (c := c) (S := S) (acc := []) .nil).2
    constructor
    · rintro ⟨k', h1, h2, h3⟩
      rcases (hd _).1 h2 with h2 | ⟨q, hq, hu, h2⟩
      · simp at h2
      · obtain ⟨i', R, r0, k, k'', l, rfl, h4, h5, h6, h7⟩ := (h.fol _ _).1 h2
        obtain ⟨rfl, rfl, rfl, rfl⟩ := hl.eq l h1 h6 h4
        obtain ⟨s, hs⟩ : ∃ s, P[k]? = some s := ⟨_, List.getElem?_eq_getElem h5⟩
        exact ⟨k, by omega, hq, acc_cons.2 ⟨s, hs, (uses_iff h hl hs).1 hu, k', h1, h7, h3⟩⟩
    · rintro ⟨k, h1, h2, h3⟩
      obtain ⟨s, hs, hsc, k', h4, h5, h6⟩ := acc_cons.1 h3
      have hlt := (List.getElem?_eq_some_iff.1 hs).1
      refine ⟨k', h4, (hd _).2 (.inr ⟨q0 + k, h2, (uses_iff h hl hs).2 hsc, ?_⟩), h6⟩
      exact (h.fol _ _).2 ⟨i, P, q0, k, k', hl, rfl, rfl, hlt, h4, h5⟩

theorem run_start {Ps : List (List Int)} {b : Builder} (h : Inv star Ps b) {i : Nat} {P : List Int} {q0 : Nat}
    (hl : Loc Ps i P q0) (w : List Int) : q0 + P.length ∈ b.run b.startPositions w ↔ Matches star P w := by
  rw [run_terminal h hl, matches_iff]
  refine exists_congr fun k => and_congr_right fun hk => and_congr_left fun _ => ?_
  rw [h.start]
  constructor
  · rintro ⟨i', R, r0, k', l, h1, h2, h3⟩
    obtain ⟨rfl, rfl, rfl, rfl⟩ := hl.eq l hk h2 h1
    exact h3
  · intro hg; exact ⟨i, P, q0, k, hl, rfl, hk, hg⟩

/-- Terminal positions are those without follow positions. -/
theorem fol_nil {Ps : List (List Int)} {b : Builder} (h : Inv star Ps b) {i : Nat} {P : List Int} {q0 k : Nat}
    (hl : Loc Ps i P q0) (hk : k ≤ P.length) : b.fol (q0 + k) = [] ↔ k = P.length := by
  constructor
  · intro hn
    by_contra hne
    have : q0 + (k + 1) ∈ b.fol (q0 + k) :=
      (h.fol _ _).2 ⟨i, P, q0, k, k + 1, hl, rfl, rfl, by omega, by omega, .inr ⟨by omega, gap_nil (Nat.le_refl _)⟩⟩
    rw [hn] at this; simp at this
  · rintro rfl
    rw [List.eq_nil_iff_forall_not_mem]
    intro x hx
    obtain ⟨i', R, r0, k, k'', l, h4, h5, h6, h7⟩ := (h.fol _ _).1 hx
    obtain ⟨rfl, rfl, rfl, rfl⟩ := hl.eq l (Nat.le_refl _) (by omega) h4
    omega

end Verif.StringMatcher
