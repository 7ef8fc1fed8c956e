import Verif.StringMatcher.Sim
/-!
The effect of the functions that register positions.
-/
namespace Verif.StringMatcher
open Verif.FrozenSets (Ident At)

/-- Strictly increasing. -/
abbrev Sorted (xs : List Nat) : Prop := xs.Pairwise (· < ·)

theorem mem_setInsert {x y : Nat} {xs : List Nat} : y ∈ setInsert x xs ↔ y = x ∨ y ∈ xs := by
  induction xs with
  | nil => simp [setInsert]
  | cons z zs ih =>
    rw [setInsert]
    split
    · simp
    · split
      · rename_i h; subst h; simp
      · simp only [List.mem_cons, ih]; tauto

theorem sorted_setInsert {x : Nat} {xs : List Nat} (h : Sorted xs) : Sorted (setInsert x xs) := by
  induction xs with
  | nil => simp [setInsert, Sorted]
  | cons z zs ih =>
    rw [setInsert]
    have h' := List.pairwise_cons.1 h
    split
    · rename_i hlt
      refine List.pairwise_cons.2 ⟨fun y hy => ?_, h⟩
      rcases List.mem_cons.1 hy with rfl | hy
      · exact hlt
      · have := h'.1 y hy; omega
    · split
      · exact h
      · refine List.pairwise_cons.2 ⟨fun y hy => ?_, ih h'.2⟩
        rcases mem_setInsert.1 hy with rfl | hy
        · omega
        · exact h'.1 y hy

theorem mem_insertAll {y : Nat} {xs set : List Nat} : y ∈ insertAll xs set ↔ y ∈ xs ∨ y ∈ set := by
  induction xs generalizing set with
  | nil => simp [insertAll]
  | cons x xs ih => rw [insertAll, ih, mem_setInsert, List.mem_cons]; tauto

theorem sorted_insertAll {xs set : List Nat} (h : Sorted set) : Sorted (insertAll xs set) := by
  induction xs generalizing set with
  | nil => exact h
  | cons x xs ih => exact ih (sorted_setInsert h)

/-- The set of follow positions that a slot refers to. -/
def folOf (fs : List (List Nat)) (s : Slot) : List Nat := if s.single then [s.followpos] else fs.getD s.followpos []

/-- The follow positions of a position. -/
def Builder.fol (b : Builder) (q : Nat) : List Nat := match b.positions[q]? with
  | none => []
  | some s => folOf b.followposSets s

def Builder.sym (b : Builder) (q : Nat) : Option (Option Int) := b.positions[q]?.map (·.symbol)
def Builder.pat (b : Builder) (q : Nat) : Option Nat := b.positions[q]?.map (·.patternIndex)

/-- What holds for the positions at all times. -/
structure WF (b : Builder) : Prop where
  zero : b.followposSets[0]? = some []
  inside : ∀ (q : Nat) (s : Slot), b.positions[q]? = some s → s.single = false → s.followpos < b.followposSets.length
  nonempty : ∀ (q : Nat) (s : Slot), b.positions[q]? = some s → s.single = false → s.followpos ≠ 0 → folOf b.followposSets s ≠ []
  distinct : ∀ (q q' : Nat) (s s' : Slot), b.positions[q]? = some s → b.positions[q']? = some s' → s.single = false → s'.single = false →
    s.followpos = s'.followpos → s.followpos ≠ 0 → q = q'
  sorted : ∀ (q : Nat) (s : Slot), b.positions[q]? = some s → Sorted (folOf b.followposSets s)

/-- What does not change when follow positions are registered. -/
structure Frame (b b' : Builder) : Prop where
  patterns : b'.patterns = b.patterns
  start : b'.startPositions = b.startPositions
  sets1 : b'.sets1 = b.sets1
  len : b'.positions.length = b.positions.length
  sym : ∀ q, b'.sym q = b.sym q
  pat : ∀ q, b'.pat q = b.pat q

theorem Frame.refl (b : Builder) : Frame b b := ⟨rfl, rfl, rfl, rfl, fun _ => rfl, fun _ => rfl⟩

theorem Frame.trans {a b c : Builder} (h1 : Frame a b) (h2 : Frame b c) : Frame a c :=
  ⟨h2.patterns.trans h1.patterns, h2.start.trans h1.start, h2.sets1.trans h1.sets1, h2.len.trans h1.len,
    fun q => (h2.sym q).trans (h1.sym q), fun q => (h2.pat q).trans (h1.pat q)⟩

theorem WF.of_eq {b b' : Builder} (h : WF b) (h1 : b'.positions = b.positions) (h2 : b'.followposSets = b.followposSets) : WF b' := by
  obtain ⟨z, i, n, d, s⟩ := h
  exact ⟨by rw [h2]; exact z, by rw [h1, h2]; exact i, by rw [h1, h2]; exact n, by rw [h1]; exact d, by rw [h1, h2]; exact s⟩

theorem wf_init : WF Builder.init := by
  refine ⟨rfl, ?_, ?_, ?_, ?_⟩ <;> simp [Builder.init]

theorem wf_clear {b : Builder} (h : WF b) : WF b.clear := by
  refine ⟨?_, ?_, ?_, ?_, ?_⟩
  · have hz := h.zero
    simp only [Builder.clear, resizeSets]
    rcases hb : b.followposSets with _ | ⟨x, xs⟩
    · rw [hb] at hz; simp at hz
    · rw [hb] at hz
      simp at hz
      simp [hz]
  all_goals simp [Builder.clear]

theorem registerPosition_spec {b : Builder} (h : WF b) (sym : Option Int) (pat : Nat) :
    let b' := (b.registerPosition sym pat).1
    WF b' ∧ b'.patterns = b.patterns ∧ b'.startPositions = b.startPositions ∧ b'.sets1 = b.sets1 ∧
      b'.positions.length = b.positions.length + 1 ∧
      (∀ q < b.positions.length, b'.sym q = b.sym q ∧ b'.pat q = b.pat q) ∧
      b'.sym b.positions.length = some sym ∧ b'.pat b.positions.length = some pat ∧ (∀ q, b'.fol q = b.fol q) := by
  have hz : b.followposSets.getD 0 [] = [] := by rw [List.getD_eq_getElem?_getD, h.zero]; rfl
  have hlast : ∀ q s, (b.positions ++ [⟨pat, false, sym, 0⟩])[q]? = some s →
      b.positions[q]? = some s ∨ (q = b.positions.length ∧ s = ⟨pat, false, sym, 0⟩) := by
    intro q s hs
    by_cases hq : q < b.positions.length
    · rw [List.getElem?_append_left hq] at hs; exact .inl hs
    · rw [List.getElem?_append_right (by omega)] at hs
      obtain ⟨h1, h2⟩ := List.getElem?_eq_some_iff.1 hs
      simp at h1
      refine .inr ⟨by omega, ?_⟩
      have : q - b.positions.length = 0 := by omega
      simp only [this] at h2
      exact h2.symm
  have hpos : 0 < b.followposSets.length := by
    have := h.zero
    exact (List.getElem?_eq_some_iff.1 this).1
  simp only [Builder.registerPosition]
  refine ⟨⟨h.zero, ?_, ?_, ?_, ?_⟩, trivial, trivial, trivial, by simp, ?_, ?_, ?_, ?_⟩
  · intro q s hs h1
    rcases hlast q s hs with h2 | ⟨_, rfl⟩
    · exact h.inside q s h2 h1
    · exact hpos
  · intro q s hs h1 h2
    rcases hlast q s hs with h3 | ⟨_, rfl⟩
    · exact h.nonempty q s h3 h1 h2
    · exact absurd rfl h2
  · intro q q' s s' hs hs' h1 h1' he h0
    rcases hlast q s hs with h2 | ⟨_, rfl⟩
    · rcases hlast q' s' hs' with h3 | ⟨_, rfl⟩
      · exact h.distinct q q' s s' h2 h3 h1 h1' he h0
      · exact absurd he h0
    · exact absurd rfl h0
  · intro q s hs
    rcases hlast q s hs with h2 | ⟨_, rfl⟩
    · exact h.sorted q s h2
    · simp only [folOf, Bool.false_eq_true, if_false, hz]; exact .nil
  · intro q hq
    simp only [Builder.sym, Builder.pat, List.getElem?_append_left hq, and_self]
  · simp [Builder.sym]
  · simp [Builder.pat]
  · intro q
    simp only [Builder.fol]
    by_cases hq : q < b.positions.length
    · rw [List.getElem?_append_left hq]
    · rw [List.getElem?_eq_none (l := b.positions) (by omega)]
      by_cases hq2 : q = b.positions.length
      · subst hq2
        simp [folOf, h.zero]
      · rw [List.getElem?_eq_none (by simp; omega)]

theorem registerFollowpos_spec {b : Builder} (h : WF b) {p1 : Nat} (hp : p1 < b.positions.length) (p2 : Nat) :
    ∃ b', b.registerFollowpos p1 p2 = some b' ∧ WF b' ∧ Frame b b' ∧ (∀ q, q ≠ p1 → b'.fol q = b.fol q) ∧
      ∀ x, x ∈ b'.fol p1 ↔ x = p2 ∨ x ∈ b.fol p1 := by
  obtain ⟨slot, hslot⟩ : ∃ s, b.positions[p1]? = some s := ⟨_, List.getElem?_eq_getElem hp⟩
  have hpos : 0 < b.followposSets.length := (List.getElem?_eq_some_iff.1 h.zero).1
  have hz : b.followposSets.getD 0 [] = [] := by rw [List.getD_eq_getElem?_getD, h.zero]; rfl
  simp only [Builder.registerFollowpos, hslot, Option.bind_eq_bind, Option.bind_some]
  have hset : ∀ (v : Slot) q s, (b.positions.set p1 v)[q]? = some s → (q = p1 ∧ s = v) ∨ (q ≠ p1 ∧ b.positions[q]? = some s) := by
    intro v q s hs
    by_cases hq : q = p1
    · subst hq
      rw [List.getElem?_set_self hp] at hs
      injection hs with hs
      exact .inl ⟨rfl, hs.symm⟩
    · rw [List.getElem?_set_ne (Ne.symm hq)] at hs
      exact .inr ⟨hq, hs⟩
  have hframe : ∀ (v : Slot) fs, v.symbol = slot.symbol → v.patternIndex = slot.patternIndex →
      Frame b { b with positions := b.positions.set p1 v, followposSets := fs } := by
    intro v fs h1 h2
    refine ⟨rfl, rfl, rfl, by simp, fun q => ?_, fun q => ?_⟩
    · simp only [Builder.sym]
      by_cases hq : q = p1
      · subst hq; rw [List.getElem?_set_self hp, hslot]; simp [h1]
      · rw [List.getElem?_set_ne (Ne.symm hq)]
    · simp only [Builder.pat]
      by_cases hq : q = p1
      · subst hq; rw [List.getElem?_set_self hp, hslot]; simp [h2]
      · rw [List.getElem?_set_ne (Ne.symm hq)]
  cases hs : slot.single
  · by_cases h0 : slot.followpos = 0
    · simp only [Bool.not_false, if_true, h0]
      refine ⟨_, rfl, ⟨h.zero, ?_, ?_, ?_, ?_⟩, hframe _ _ rfl rfl, ?_, ?_⟩
      · intro q s hq h1
        rcases hset _ q s hq with ⟨_, rfl⟩ | ⟨_, h2⟩
        · simp at h1
        · exact h.inside q s h2 h1
      · intro q s hq h1 h2
        rcases hset _ q s hq with ⟨_, rfl⟩ | ⟨_, h3⟩
        · simp at h1
        · exact h.nonempty q s h3 h1 h2
      · intro q q' s s' hq hq' h1 h1' he hne
        rcases hset _ q s hq with ⟨_, rfl⟩ | ⟨_, h3⟩
        · simp at h1
        · rcases hset _ q' s' hq' with ⟨_, rfl⟩ | ⟨_, h4⟩
          · simp at h1'
          · exact h.distinct q q' s s' h3 h4 h1 h1' he hne
      · intro q s hq
        rcases hset _ q s hq with ⟨_, rfl⟩ | ⟨_, h3⟩
        · simp [folOf, Sorted]
        · exact h.sorted q s h3
      · intro q hq
        simp only [Builder.fol]
        rw [List.getElem?_set_ne (Ne.symm hq)]
      · intro x
        simp only [Builder.fol]
        rw [List.getElem?_set_self hp, hslot]
        simp [folOf, hs, h0, h.zero]
    · have hin := h.inside p1 slot hslot hs
      obtain ⟨set, hset'⟩ : ∃ s, b.followposSets[slot.followpos]? = some s := ⟨_, List.getElem?_eq_getElem hin⟩
      have hfol : folOf b.followposSets slot = set := by simp [folOf, hs, hset']
      simp only [Bool.not_false, if_true, h0, if_false, hset', Option.bind_some]
      have hother : ∀ q s, b.positions[q]? = some s → q ≠ p1 →
          folOf (b.followposSets.set slot.followpos (setInsert p2 set)) s = folOf b.followposSets s := by
        intro q s hq hne
        unfold folOf
        cases h1 : s.single
        · simp only [Bool.false_eq_true, if_false, List.getD_eq_getElem?_getD]
          rw [List.getElem?_set_ne]
          intro he
          exact hne (h.distinct p1 q slot s hslot hq hs h1 he h0).symm
        · rfl
      have hself : folOf (b.followposSets.set slot.followpos (setInsert p2 set)) slot = setInsert p2 set := by
        simp only [folOf, hs, Bool.false_eq_true, if_false, List.getD_eq_getElem?_getD]
        rw [List.getElem?_set_self hin]; rfl
      refine ⟨_, rfl, ⟨?_, ?_, ?_, h.distinct, ?_⟩, ⟨rfl, rfl, rfl, rfl, fun _ => rfl, fun _ => rfl⟩, ?_, ?_⟩
      · rw [List.getElem?_set_ne h0]; exact h.zero
      · intro q s hq h1; simp only [List.length_set]; exact h.inside q s hq h1
      · intro q s hq h1 h2
        by_cases hqp : q = p1
        · subst hqp
          rw [hslot] at hq; injection hq with hq; subst hq
          rw [hself]
          intro hn
          have : p2 ∈ setInsert p2 set := mem_setInsert.2 (.inl rfl)
          rw [hn] at this; simp at this
        · simp only; rw [hother q s hq hqp]; exact h.nonempty q s hq h1 h2
      · intro q s hq
        by_cases hqp : q = p1
        · subst hqp
          rw [hslot] at hq; injection hq with hq; subst hq
          rw [hself]
          have := h.sorted q slot hslot
          rw [hfol] at this
          exact sorted_setInsert this
        · simp only; rw [hother q s hq hqp]; exact h.sorted q s hq
      · intro q hq
        simp only [Builder.fol]
        cases hqs : b.positions[q]? with
        | none => rfl
        | some s => exact hother q s hqs hq
      · intro x
        simp only [Builder.fol, hslot, hself, hfol, mem_setInsert]
  · simp only [Bool.not_true, Bool.false_eq_true, if_false]
    have hsing : folOf b.followposSets slot = [slot.followpos] := by simp [folOf, hs]
    have hnew : ∀ p sy, folOf (b.followposSets ++ [setInsert p2 (setInsert slot.followpos [])])
        ⟨p, false, sy, b.followposSets.length⟩ = setInsert p2 (setInsert slot.followpos []) := by
      intro p sy
      simp [folOf]
    have hother : ∀ (q : Nat) (s : Slot), b.positions[q]? = some s →
        folOf (b.followposSets ++ [setInsert p2 (setInsert slot.followpos [])]) s = folOf b.followposSets s := by
      intro q s hq
      unfold folOf
      cases h1 : s.single
      · have := h.inside q s hq h1
        simp only [Bool.false_eq_true, if_false, List.getD_eq_getElem?_getD]
        rw [List.getElem?_append_left this]
      · rfl
    refine ⟨_, rfl, ⟨?_, ?_, ?_, ?_, ?_⟩, hframe _ _ rfl rfl, ?_, ?_⟩
    · rw [List.getElem?_append_left hpos]; exact h.zero
    · intro q s hq h1
      rcases hset _ q s hq with ⟨_, rfl⟩ | ⟨_, h2⟩
      · simp
      · have := h.inside q s h2 h1
        simp; omega
    · intro q s hq h1 h2
      rcases hset _ q s hq with ⟨_, rfl⟩ | ⟨_, h3⟩
      · rw [hnew]
        intro hn
        have : p2 ∈ setInsert p2 (setInsert slot.followpos []) := mem_setInsert.2 (.inl rfl)
        rw [hn] at this; simp at this
      · simp only; rw [hother q s h3]; exact h.nonempty q s h3 h1 h2
    · intro q q' s s' hq hq' h1 h1' he hne
      rcases hset _ q s hq with ⟨e1, rfl⟩ | ⟨_, h3⟩
      · rcases hset _ q' s' hq' with ⟨e2, rfl⟩ | ⟨_, h4⟩
        · rw [e1, e2]
        · have := h.inside q' s' h4 h1'
          simp only at he; omega
      · rcases hset _ q' s' hq' with ⟨_, rfl⟩ | ⟨_, h4⟩
        · have := h.inside q s h3 h1
          simp only at he; omega
        · exact h.distinct q q' s s' h3 h4 h1 h1' he hne
    · intro q s hq
      rcases hset _ q s hq with ⟨_, rfl⟩ | ⟨_, h3⟩
      · rw [hnew]
        exact sorted_setInsert (sorted_setInsert .nil)
      · simp only; rw [hother q s h3]; exact h.sorted q s h3
    · intro q hq
      simp only [Builder.fol]
      rw [List.getElem?_set_ne (Ne.symm hq)]
      cases hqs : b.positions[q]? with
      | none => rfl
      | some s => exact hother q s hqs
    · intro x
      simp only [Builder.fol]
      rw [List.getElem?_set_self hp, hslot]
      simp only [hnew, hsing, mem_setInsert, List.mem_singleton, List.not_mem_nil, or_false]

/-- A final position is one without follow positions. -/
theorem fol_nil_iff {b : Builder} (h : WF b) {q : Nat} {s : Slot} (hq : b.positions[q]? = some s) :
    ((!s.single) = true ∧ s.followpos = 0) ↔ b.fol q = [] := by
  have hz : b.followposSets.getD 0 [] = [] := by rw [List.getD_eq_getElem?_getD, h.zero]; rfl
  simp only [Builder.fol, hq]
  cases hs : s.single
  · by_cases h0 : s.followpos = 0
    · simp [folOf, hs, h0, h.zero]
    · have := h.nonempty q s hq hs h0
      simp [h0, this]
  · simp [folOf, hs]

theorem registerEach_spec {b : Builder} (h : WF b) {ps : List Nat} (hp : ∀ p ∈ ps, p < b.positions.length) (pos : Nat) :
    ∃ b', registerEach pos ps b = some b' ∧ WF b' ∧ Frame b b' ∧
      ∀ q x, x ∈ b'.fol q ↔ x ∈ b.fol q ∨ (q ∈ ps ∧ x = pos) := by
  induction ps generalizing b with
  | nil => exact ⟨b, rfl, h, Frame.refl b, fun q x => by simp⟩
  | cons p ps ih =>
    obtain ⟨b1, h1, h2, h3, h4, h5⟩ := registerFollowpos_spec h (hp p List.mem_cons_self) pos
    obtain ⟨b2, k1, k2, k3, k4⟩ := ih h2 (fun q hq => by rw [h3.len]; exact hp q (List.mem_cons_of_mem _ hq))
    refine ⟨b2, by simp only [registerEach, h1, Option.bind_eq_bind, Option.bind_some, k1], k2, h3.trans k3, fun q x => ?_⟩
    rw [k4]
    by_cases hq : q = p
    · subst hq; rw [h5]; simp only [List.mem_cons, true_or, true_and]; tauto
    · rw [h4 q hq]; simp only [List.mem_cons, hq, false_or]

theorem registerAll_spec {b : Builder} (h : WF b) {p : Nat} (hp : p < b.positions.length) (ps : List Nat) :
    ∃ b', registerAll p ps b = some b' ∧ WF b' ∧ Frame b b' ∧
      ∀ q x, x ∈ b'.fol q ↔ x ∈ b.fol q ∨ (q = p ∧ x ∈ ps) := by
  induction ps generalizing b with
  | nil => exact ⟨b, rfl, h, Frame.refl b, fun q x => by simp⟩
  | cons p' ps ih =>
    obtain ⟨b1, h1, h2, h3, h4, h5⟩ := registerFollowpos_spec h hp p'
    obtain ⟨b2, k1, k2, k3, k4⟩ := ih h2 (by rw [h3.len]; exact hp)
    refine ⟨b2, by simp only [registerAll, h1, Option.bind_eq_bind, Option.bind_some, k1], k2, h3.trans k3, fun q x => ?_⟩
    rw [k4]
    by_cases hq : q = p
    · subst hq; rw [h5]; simp only [List.mem_cons, true_and]; tauto
    · rw [h4 q hq]; simp [hq]

theorem contents_at {sets : List Nat} {i : Ident} {c : List Nat} (h : At sets i c) : contents sets i = some c := by
  rw [contents, h.get]; rfl

theorem registerPairs_spec {b : Builder} (h : WF b) {ps c : List Nat} {set2 : Ident} (hc : At b.sets1 set2 c)
    (hp : ∀ p ∈ ps, p < b.positions.length) :
    ∃ b', registerPairs set2 ps b = some b' ∧ WF b' ∧ Frame b b' ∧
      ∀ q x, x ∈ b'.fol q ↔ x ∈ b.fol q ∨ (q ∈ ps ∧ x ∈ c) := by
  induction ps generalizing b with
  | nil => exact ⟨b, rfl, h, Frame.refl b, fun q x => by simp⟩
  | cons p ps ih =>
    obtain ⟨b1, h1, h2, h3, h4⟩ := registerAll_spec h (hp p List.mem_cons_self) c
    obtain ⟨b2, k1, k2, k3, k4⟩ := ih h2 (by rw [h3.sets1]; exact hc)
      (fun q hq => by rw [h3.len]; exact hp q (List.mem_cons_of_mem _ hq))
    refine ⟨b2, by simp only [registerPairs, contents_at hc, h1, Option.bind_eq_bind, Option.bind_some, k1], k2, h3.trans k3,
      fun q x => ?_⟩
    rw [k4, h4]
    simp only [List.mem_cons]
    tauto

end Verif.StringMatcher
