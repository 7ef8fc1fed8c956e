import Verif.CliPattern.Dfa2
/-!
Pattern matching by the deterministic automaton.
-/
namespace Verif.CliPattern

/-- A matcher that is made from the given patterns, after the given symbols. -/
structure MatcherOf (config : Config) (ps : List Pat) (m : Matcher) (w : List PatternSymbol) : Prop where
  nfaOf : NfaOf m.nfa ps
  wf : ∀ p ∈ ps, Wf p .seq
  len : m.patterns.length = ps.length
  inv : Inv config m.patterns m.nfa m.states.length m.states
  state : ∃ P, posOf m.states m.stateIndex = some P ∧ ∀ q, q ∈ P ↔ Reach m.nfa w q

theorem makeMatcher_spec {t : Tables} {specs : List PatternSpec} {ps : List Pat} (hd : Described t specs ps) (hne : specs ≠ [])
    (config : Config) (numArgs : Nat) : ∃ N, ∀ fuel, N ≤ fuel →
    (∃ m, makeMatcher fuel t specs numArgs config = .ok m ∧ MatcherOf config ps m [] ∧ m.patterns = specs ∧ m.numArgs = numArgs ∧
      m.history = [] ∧ m.stateIndex = 0) ∨
    (∃ e nfa, makeMatcher fuel t specs numArgs config = .error e ∧ NfaOf nfa ps ∧
      (CrossErr config nfa e ∨ DelegErr specs nfa e ∨ PosErr config nfa e)) := by
  have hlen : specs.length = ps.length := hd.length_eq
  have hwf : ∀ p ∈ ps, Wf p .seq := by
    intro p hp
    obtain ⟨n, hn, rfl⟩ := List.getElem_of_mem hp
    unfold Described at hd
    rw [List.forall₂_iff_get] at hd
    exact (hd.2 n (by omega) hn).1
  obtain ⟨nfa, hn, N, hN⟩ := buildNfa_spec specs ps [] ⟨[], []⟩ hd NfaOf.nil
  rw [List.nil_append] at hn
  refine ⟨max N (2 ^ nfa.positions.length), ?_⟩
  intro fuel hf
  have hb := hN fuel (by omega)
  simp only [List.length_nil] at hb
  have hemp : specs.isEmpty = false := by simpa using hne
  simp only [makeMatcher, hemp, Bool.false_eq_true, if_false, hb, bind, Except.bind]
  rcases ensureState_spec hn hwf (config := config) (states := []) (set := nfa.starts) ⟨by simp, by simp⟩ hn.startsSorted
    ⟨[], fun q => Iff.rfl⟩ with ⟨states, j, h1, h2, h3, h4⟩ | ⟨e, h1, h2⟩
  · simp only [h1]
    rcases h4 with rfl | ⟨f, rfl⟩
    · simp [posOf] at h3
    · have hinv : Inv config specs nfa 0 ([] ++ [⟨nfa.starts, f, []⟩]) := by
        refine ⟨h2, by simp, by simp, by simp, ?_, by simp [posOf]⟩
        intro i st hi _
        have := (List.getElem?_eq_some_iff.1 hi).1
        simp only [List.nil_append, List.length_singleton] at this
        have : i = 0 := by omega
        subst this
        simp only [List.nil_append, List.getElem?_cons_zero, Option.some.injEq] at hi
        subst hi
        rfl
      rcases finalizeStates_spec hn hwf hlen fuel 0 _ hinv (by simp) (by omega) with ⟨states', h5, h6⟩ | ⟨e, h5, h6⟩
      · left
        simp only [h5]
        exact ⟨_, rfl, ⟨hn, hwf, hlen, h6, _, h6.start, fun q => Iff.rfl⟩, rfl, rfl, rfl, rfl⟩
      · right
        simp only [h5]
        exact ⟨e, nfa, rfl, hn, h6⟩
  · right
    simp only [h1]
    exact ⟨e, nfa, rfl, hn, Or.inl h2⟩

section
variable {config : Config} {ps : List Pat} {m : Matcher} {w : List PatternSymbol} (hm : MatcherOf config ps m w)
include hm

theorem MatcherOf.get : ∃ st, m.states[m.stateIndex]? = some st ∧ (∀ q, q ∈ st.positions ↔ Reach m.nfa w q) ∧
    StOK config m.nfa st ∧ Done config m.patterns m.nfa m.states st := by
  obtain ⟨P, h1, h2⟩ := hm.state
  unfold posOf at h1
  rw [Option.map_eq_some_iff] at h1
  obtain ⟨st, h3, rfl⟩ := h1
  exact ⟨st, h3, h2, hm.inv.invA.ok st (List.mem_of_getElem? h3), hm.inv.done _ st h3 (List.getElem?_eq_some_iff.1 h3).1⟩

theorem MatcherOf.next {st : DState} (h : ∀ q, q ∈ st.positions ↔ Reach m.nfa w q) (a : PatternSymbol) (q : Nat) :
    Next m.nfa (· ∈ st.positions) a q ↔ Reach m.nfa (w ++ [a]) q := by
  rw [reach_snoc]
  simp only [Next, h]

/-- There is a position after a sequence precisely when the sequence is the beginning of a match. -/
theorem MatcherOf.viable (v : List PatternSymbol) : (∃ q, Reach m.nfa v q) ↔ ∃ p ∈ ps, ∃ u, Lang p (v ++ u) := by
  constructor
  · rintro ⟨q, hq⟩
    obtain ⟨k, p, hk, h1, h2⟩ := cover hm.nfaOf (reach_range hm.nfaOf hq)
    have hp := List.mem_of_getElem? hk
    obtain ⟨u, hu⟩ := (reach_prefix hm.nfaOf hk (hm.wf p hp) v).1 ⟨q, h1, h2, hq⟩
    exact ⟨p, hp, u, hu⟩
  · rintro ⟨p, hp, hu⟩
    obtain ⟨k, hk⟩ := List.getElem?_of_mem hp
    obtain ⟨q, _, _, h⟩ := (reach_prefix hm.nfaOf hk (hm.wf p hp) v).2 hu
    exact ⟨q, h⟩

theorem consume_main {a : PatternSymbol} {i : Nat} (hi : i < m.numArgs) :
    (∃ m', m.consume a i = some (some m') ∧ MatcherOf config ps m' (w ++ [a]) ∧ m'.patterns = m.patterns ∧ m'.numArgs = m.numArgs ∧
      m'.nfa = m.nfa ∧ m'.states = m.states ∧ m'.history = m.history ++ [⟨m.stateIndex, a, i⟩] ∧ ∃ p ∈ ps, ∃ u, Lang p (w ++ [a] ++ u)) ∨
    (m.consume a i = some none ∧ ¬ ∃ p ∈ ps, ∃ u, Lang p (w ++ [a] ++ u)) := by
  obtain ⟨st, h1, h2, h3, h4⟩ := hm.get
  simp only [Matcher.consume, if_pos hi, h1, Option.bind_eq_bind, Option.bind_some]
  cases hf : st.transitions.find? (fun e => decide (e.1 = a)) with
  | some e =>
    left
    have he := List.find?_some hf
    simp only [decide_eq_true_eq] at he
    have hme := List.mem_of_find?_eq_some hf
    obtain ⟨b, j⟩ := e
    simp only at he
    subst he
    obtain ⟨P, h5, h6, h7⟩ := h4.trans b j hme
    obtain ⟨q, hq⟩ := List.exists_mem_of_ne_nil _ h6
    have h8 : ∀ q, q ∈ P ↔ Reach m.nfa (w ++ [b]) q := fun q => (h7 q).trans (hm.next h2 b q)
    refine ⟨_, rfl, ⟨hm.nfaOf, hm.wf, hm.len, hm.inv, P, h5, h8⟩, rfl, rfl, rfl, rfl, rfl, ?_⟩
    exact (hm.viable _).1 ⟨q, (h8 q).1 hq⟩
  | none =>
    right
    refine ⟨rfl, ?_⟩
    rw [← hm.viable]
    rintro ⟨q, hq⟩
    obtain ⟨j, hj⟩ := h4.all a q ((hm.next h2 a q).2 hq)
    rw [List.find?_eq_none] at hf
    have := hf _ hj
    simp at this

theorem canConsume_main : ∃ b, m.canConsume = some b ∧ (b = true ↔ ∃ p ∈ ps, ∃ a u, Lang p (w ++ a :: u)) := by
  obtain ⟨st, h1, h2, h3, h4⟩ := hm.get
  refine ⟨!st.transitions.isEmpty, by simp [Matcher.canConsume, h1], ?_⟩
  have : (∃ p ∈ ps, ∃ a u, Lang p (w ++ a :: u)) ↔ ∃ a q, Reach m.nfa (w ++ [a]) q := by
    constructor
    · rintro ⟨p, hp, a, u, h⟩
      obtain ⟨q, hq⟩ := (hm.viable (w ++ [a])).2 ⟨p, hp, u, by simpa using h⟩
      exact ⟨a, q, hq⟩
    · rintro ⟨a, q, hq⟩
      obtain ⟨p, hp, u, h⟩ := (hm.viable (w ++ [a])).1 ⟨q, hq⟩
      exact ⟨p, hp, a, u, by simpa using h⟩
  rw [this]
  constructor
  · intro h
    have hne : st.transitions ≠ [] := by simpa using h
    obtain ⟨⟨a, j⟩, haj⟩ := List.exists_mem_of_ne_nil _ hne
    obtain ⟨P, h5, h6, h7⟩ := h4.trans a j haj
    obtain ⟨q, hq⟩ := List.exists_mem_of_ne_nil _ h6
    exact ⟨a, q, (hm.next h2 a q).1 ((h7 q).1 hq)⟩
  · rintro ⟨a, q, hq⟩
    obtain ⟨j, hj⟩ := h4.all a q ((hm.next h2 a q).2 hq)
    cases ht : st.transitions with
    | nil => rw [ht] at hj; simp at hj
    | cons e l => rfl

/-- The final positions after the consumed symbols are those of the patterns that match. -/
theorem MatcherOf.final_of {k : Nat} {p : Pat} (hk : ps[k]? = some p) (h : Lang p w) : Reach m.nfa w (base ps k + size p) ∧
    m.nfa.fol (base ps k + size p) = [] ∧ m.nfa.pat (base ps k + size p) = k :=
  ⟨(reach_final hm.nfaOf hk w).2 h, (final_iff hm.nfaOf hk (hm.wf p (List.mem_of_getElem? hk)) (by omega) (by omega)).2 rfl,
    pat_eq hm.nfaOf hk (by omega) (by omega)⟩

theorem MatcherOf.of_final {f : Nat} (h : Reach m.nfa w f) (hf : m.nfa.fol f = []) : ∃ p, ps[m.nfa.pat f]? = some p ∧ Lang p w ∧
    f = base ps (m.nfa.pat f) + size p := by
  obtain ⟨p, h1, h2⟩ := final_pos hm.nfaOf hm.wf (reach_range hm.nfaOf h) hf
  refine ⟨p, h1, ?_, h2⟩
  rw [h2] at h
  exact (reach_final hm.nfaOf h1 w).1 h

theorem isMatch_main : ∃ r, m.isMatch = some r ∧ (∀ k, r = some k → (∃ p, ps[k]? = some p ∧ Lang p w) ∧
    ∀ j p, ps[j]? = some p → Lang p w → k ≤ j) ∧ (r = none → ∀ p ∈ ps, ¬ Lang p w) := by
  obtain ⟨st, h1, h2, h3, h4⟩ := hm.get
  cases hfp : st.finalpos with
  | none =>
    refine ⟨none, by simp [Matcher.isMatch, h1, hfp], by simp, ?_⟩
    intro _ p hp hl
    obtain ⟨k, hk⟩ := List.getElem?_of_mem hp
    obtain ⟨h5, h6, _⟩ := hm.final_of hk hl
    have := h3.final
    rw [hfp] at this
    have := List.find?_eq_none.1 this.symm _ ((h2 _).2 h5)
    simp [h6] at this
  | some f =>
    have := h3.final
    rw [hfp] at this
    obtain ⟨h5, h6, h7⟩ := find_sorted h3.sorted this.symm
    have h6' : m.nfa.fol f = [] := by simpa using h6
    have hf := (h2 f).1 h5
    obtain ⟨p, h8, h9, h10⟩ := hm.of_final hf h6'
    obtain ⟨P, h11, _, h12, _⟩ := get_pos (reach_range hm.nfaOf hf)
    refine ⟨some (m.nfa.pat f), by simp [Matcher.isMatch, h1, hfp, h11, h12], ?_, by simp⟩
    intro k hk
    cases hk
    refine ⟨⟨p, h8, h9⟩, ?_⟩
    intro j q hj hq
    obtain ⟨h13, h14, h15⟩ := hm.final_of hj hq
    have hle := h7 _ ((h2 _).2 h13) (by simpa using h14)
    apply Classical.byContradiction
    intro hlt
    have := base_mono ps j (m.nfa.pat f) q hj (by omega) (Nat.le_of_lt (List.getElem?_eq_some_iff.1 h8).1)
    omega

theorem canDelegate_main : ∃ b, m.canDelegate = some b ∧
    (b = true ↔ ∃ (k : Nat) (p : Pat) (s : PatternSpec) (u : List PatternSymbol), ps[k]? = some p ∧ m.patterns[k]? = some s ∧ s.isDeleg = true ∧ Lang p (w ++ u)) := by
  obtain ⟨st, h1, h2, h3, h4⟩ := hm.get
  have hany : ∀ l : List Nat, (∀ x ∈ l, x < m.nfa.positions.length) → ∃ b, anyDeleg m.patterns m.nfa l = some b ∧
      (b = true ↔ ∃ x ∈ l, ∃ s, m.patterns[m.nfa.pat x]? = some s ∧ s.isDeleg = true) := by
    intro l
    induction l with
    | nil => intro _; exact ⟨false, rfl, by simp⟩
    | cons x l ih =>
      intro h
      obtain ⟨b, hb1, hb2⟩ := ih (fun y hy => h y (by simp [hy]))
      obtain ⟨P, h5, _, h6, _⟩ := get_pos (h x (by simp))
      obtain ⟨k, p, hk, h7, h8⟩ := cover hm.nfaOf (h x (by simp))
      have hpat := pat_eq hm.nfaOf hk h7 h8
      have hkl := (List.getElem?_eq_some_iff.1 hk).1
      have hs : m.patterns[m.nfa.pat x]? = some (m.patterns[k]'(by rw [hm.len]; exact hkl)) := by rw [hpat]; simp
      generalize m.patterns[k]'(by rw [hm.len]; exact hkl) = s at hs
      simp only [anyDeleg, h5, Option.bind_eq_bind, Option.bind_some, h6, hs]
      cases hd : s.isDeleg with
      | true => exact ⟨true, by simp, by simp only [true_iff]; exact ⟨x, by simp, s, hs, hd⟩⟩
      | false =>
        refine ⟨b, by simpa using hb1, ?_⟩
        rw [hb2]
        constructor
        · rintro ⟨y, hy, h'⟩; exact ⟨y, by simp [hy], h'⟩
        · rintro ⟨y, hy, s', hs', hd'⟩
          rcases List.mem_cons.1 hy with rfl | hy
          · rw [hs] at hs'; cases hs'; rw [hd] at hd'; simp at hd'
          · exact ⟨y, hy, s', hs', hd'⟩
  obtain ⟨b, hb1, hb2⟩ := hany st.positions (fun x hx => reach_range hm.nfaOf ((h2 x).1 hx))
  refine ⟨b, by simp [Matcher.canDelegate, h1, hb1], ?_⟩
  rw [hb2]
  constructor
  · rintro ⟨x, hx, s, hs, hd⟩
    have hx' := (h2 x).1 hx
    obtain ⟨k, p, hk, h7, h8⟩ := cover hm.nfaOf (reach_range hm.nfaOf hx')
    rw [pat_eq hm.nfaOf hk h7 h8] at hs
    obtain ⟨u, hu⟩ := (reach_prefix hm.nfaOf hk (hm.wf p (List.mem_of_getElem? hk)) w).1 ⟨x, h7, h8, hx'⟩
    exact ⟨k, p, s, u, hk, hs, hd, hu⟩
  · rintro ⟨k, p, s, u, hk, hs, hd, hu⟩
    obtain ⟨x, h7, h8, hx⟩ := (reach_prefix hm.nfaOf hk (hm.wf p (List.mem_of_getElem? hk)) w).2 ⟨u, hu⟩
    exact ⟨x, (h2 x).2 hx, s, by rw [pat_eq hm.nfaOf hk h7 h8]; exact hs, hd⟩

end

end Verif.CliPattern
