import Verif.CliPattern.Backtrack
/-!
The outcome of the construction of the pattern matcher does not depend on the bound on the number of steps.
-/
namespace Verif.CliPattern

/-- The outcome of the construction of a pattern matcher: What it is for every sufficiently large bound on the number of steps. -/
def Constructs (t : Tables) (patterns : List PatternSpec) (numArgs : Nat) (config : Config) (r : Res Matcher) : Prop :=
  ∃ N, ∀ fuel, N ≤ fuel → makeMatcher fuel t patterns numArgs config = r

theorem Constructs.unique {t : Tables} {patterns : List PatternSpec} {numArgs : Nat} {config : Config} {r r' : Res Matcher}
    (h : Constructs t patterns numArgs config r) (h' : Constructs t patterns numArgs config r') : r = r' := by
  obtain ⟨N, hN⟩ := h
  obtain ⟨N', hN'⟩ := h'
  rw [← hN (max N N') (by omega), ← hN' (max N N') (by omega)]

theorem finalizeStates_mono {config : Config} {patterns : List PatternSpec} {nfa : Nfa} : ∀ (fuel k : Nat) (states : List DState) (r : Res (List DState)),
    finalizeStates config patterns nfa fuel k states = r → r ≠ .error .unfinished →
    finalizeStates config patterns nfa (fuel + 1) k states = r
  | 0, _, _, _, h, hr => by simp only [finalizeStates] at h; exact absurd h.symm hr
  | fuel + 1, k, states, r, h, hr => by
    rw [finalizeStates] at h ⊢
    cases hs : finalizeState config patterns nfa k states with
    | error e => simp only [hs, bind, Except.bind] at h ⊢; exact h
    | ok s =>
      simp only [hs, bind, Except.bind] at h ⊢
      split
      · rename_i hlt
        rw [if_pos hlt] at h
        exact finalizeStates_mono fuel (k + 1) s r h hr
      · rename_i hlt
        rw [if_neg hlt] at h
        exact h

theorem finalizeStates_mono' {config : Config} {patterns : List PatternSpec} {nfa : Nfa} {fuel k : Nat} {states : List DState} {r : Res (List DState)}
    (h : finalizeStates config patterns nfa fuel k states = r) (hr : r ≠ .error .unfinished) {fuel' : Nat} (hf : fuel ≤ fuel') :
    finalizeStates config patterns nfa fuel' k states = r := by
  induction fuel', hf using Nat.le_induction with
  | base => exact h
  | succ n _ ih => exact finalizeStates_mono n k states r ih hr

theorem build_mono {t : Tables} {i : Nat} : ∀ (fuel : Nat) (st : BState) (r : Nfa), build t i fuel st = some r → ∀ fuel', fuel ≤ fuel' →
    build t i fuel' st = some r
  | 0, _, _, h, _, _ => by simp [build] at h
  | fuel + 1, st, r, h, 0, hf => by omega
  | fuel + 1, st, r, h, fuel' + 1, hf => by
    rw [build] at h ⊢
    split
    · rename_i hl
      rw [if_pos hl] at h
      exact h
    · rename_i hl
      rw [if_neg hl] at h
      cases hs : step t i st with
      | none => simp [hs] at h
      | some st' =>
        simp only [hs, Option.bind_eq_bind, Option.bind_some] at h ⊢
        exact build_mono fuel st' r h fuel' (by omega)

theorem buildNfa_mono {t : Tables} {fuel fuel' : Nat} (hf : fuel ≤ fuel') : ∀ (specs : List PatternSpec) (i : Nat) (nfa r : Nfa),
    buildNfa fuel t specs i nfa = .ok r → buildNfa fuel' t specs i nfa = .ok r
  | [], _, _, _, h => h
  | s :: specs, i, nfa, r, h => by
    rw [buildNfa] at h ⊢
    cases ha : addPattern fuel t s.elemSeqIndex i nfa with
    | none => simp [ha, need, bind, Except.bind] at h
    | some nfa' =>
      simp only [ha, need, bind, Except.bind] at h
      have : addPattern fuel' t s.elemSeqIndex i nfa = some nfa' := by
        unfold addPattern at ha ⊢
        cases hi : initSeq t s.elemSeqIndex with
        | none => simp [hi] at ha
        | some fr =>
          simp only [hi, Option.bind_eq_bind, Option.bind_some] at ha ⊢
          exact build_mono fuel _ _ ha fuel' hf
      simp only [this, need, bind, Except.bind]
      exact buildNfa_mono hf specs (i + 1) nfa' r h

theorem buildNfa_error {t : Tables} {fuel : Nat} : ∀ (specs : List PatternSpec) (i : Nat) (nfa : Nfa) (e : Stop),
    buildNfa fuel t specs i nfa = .error e → e = .ub
  | [], _, _, _, h => by simp [buildNfa] at h
  | s :: specs, i, nfa, e, h => by
    rw [buildNfa] at h
    cases ha : addPattern fuel t s.elemSeqIndex i nfa with
    | none => simp only [ha, need, bind, Except.bind] at h; exact (Except.error.inj h).symm
    | some nfa' =>
      simp only [ha, need, bind, Except.bind] at h
      exact buildNfa_error specs (i + 1) nfa' e h

/-- An outcome that is found with some bound is the outcome. -/
theorem constructs_of {t : Tables} {patterns : List PatternSpec} {numArgs : Nat} {config : Config} {r : Res Matcher} {fuel : Nat}
    (h : makeMatcher fuel t patterns numArgs config = r) (h1 : r ≠ .error .ub) (h2 : r ≠ .error .unfinished) :
    Constructs t patterns numArgs config r := by
  refine ⟨fuel, ?_⟩
  intro fuel' hf
  unfold makeMatcher at h ⊢
  split
  · rename_i he
    rw [if_pos he] at h
    exact h
  · rename_i he
    rw [if_neg he] at h
    cases hb : buildNfa fuel t patterns 0 ⟨[], []⟩ with
    | error e =>
      simp only [hb, bind, Except.bind] at h
      rw [buildNfa_error _ _ _ _ hb] at h
      exact absurd h.symm h1
    | ok nfa =>
      rw [buildNfa_mono hf _ _ _ _ hb]
      simp only [hb, bind, Except.bind] at h ⊢
      cases hs : ensureState config nfa nfa.starts [] with
      | error e => simp only [hs] at h ⊢; exact h
      | ok s =>
        simp only [hs] at h ⊢
        cases hs' : finalizeStates config patterns nfa fuel 0 s.1 with
        | error e =>
          simp only [hs'] at h
          rw [finalizeStates_mono' hs' (by intro h'; rw [← h] at h2; have := Except.error.inj h'; subst this; exact h2 rfl) hf]
          exact h
        | ok s' =>
          simp only [hs'] at h
          rw [finalizeStates_mono' hs' (by intro h; cases h) hf]
          exact h

/-- The possible outcomes of the construction of a pattern matcher. -/
theorem constructs_main {t : Tables} {specs : List PatternSpec} {ps : List Pat} (hd : Described t specs ps) (hne : specs ≠ [])
    (config : Config) (numArgs : Nat) :
    (∃ m, Constructs t specs numArgs config (.ok m) ∧ MatcherOf config ps m [] ∧ m.patterns = specs ∧ m.numArgs = numArgs ∧
      m.history = [] ∧ m.stateIndex = 0) ∨
    (∃ e nfa, Constructs t specs numArgs config (.error e) ∧ NfaOf nfa ps ∧ (∀ p ∈ ps, Wf p .seq) ∧
      (CrossErr config nfa e ∨ DelegErr specs nfa e ∨ PosErr config nfa e)) := by
  have hwf : ∀ p ∈ ps, Wf p .seq := by
    intro p hp
    obtain ⟨n, hn, rfl⟩ := List.getElem_of_mem hp
    unfold Described at hd
    have hlen : specs.length = ps.length := hd.length_eq
    rw [List.forall₂_iff_get] at hd
    exact (hd.2 n (by omega) hn).1
  obtain ⟨N, hN⟩ := makeMatcher_spec hd hne config numArgs
  obtain ⟨nfa, _, N', hN'⟩ := buildNfa_spec specs ps [] ⟨[], []⟩ hd NfaOf.nil
  simp only [List.length_nil] at hN'
  have hemp : specs.isEmpty = false := by simpa using hne
  have hconst : ∀ r, makeMatcher (max N N') t specs numArgs config = r → r ≠ .error .unfinished → Constructs t specs numArgs config r := by
    intro r hr hu
    refine ⟨max N N', ?_⟩
    intro fuel hf
    have hb1 := hN' fuel (by omega)
    have hb2 := hN' (max N N') (by omega)
    simp only [makeMatcher, hemp, Bool.false_eq_true, if_false, hb1, hb2, bind, Except.bind] at hr ⊢
    cases he : ensureState config nfa nfa.starts [] with
    | error e => simp only [he] at hr ⊢; exact hr
    | ok s =>
      simp only [he] at hr ⊢
      cases hs : finalizeStates config specs nfa (max N N') 0 s.1 with
      | error e =>
        simp only [hs] at hr
        rw [finalizeStates_mono' hs (by intro h; rw [← hr] at hu; simp only [Except.error.injEq] at h; subst h; exact hu rfl) hf]
        exact hr
      | ok s' =>
        simp only [hs] at hr
        rw [finalizeStates_mono' hs (by intro h; cases h) hf]
        exact hr
  rcases hN (max N N') (by omega) with ⟨m, h1, h2⟩ | ⟨e, nfa, h1, h2, h3⟩
  · exact Or.inl ⟨m, hconst _ h1 (by intro h; cases h), h2⟩
  · refine Or.inr ⟨e, nfa, hconst _ h1 ?_, h2, hwf, h3⟩
    intro h
    have he : e = .unfinished := Except.error.inj h
    subst he
    rcases h3 with ⟨w, x, y, h⟩ | ⟨w, x, y, z, u, h⟩ | ⟨_, w, x, y, z, h⟩
    · exact absurd h.2.2.2.2.2.2 (by simp)
    · exact absurd h.2.2.2.2.2.2 (by simp)
    · exact absurd h.2.2.2.2.2.2 (by simp)

/-- A constructed matcher. -/
theorem constructed {t : Tables} {specs : List PatternSpec} {ps : List Pat} (hd : Described t specs ps) (hne : specs ≠ [])
    {config : Config} {numArgs : Nat} {m : Matcher} (h : Constructs t specs numArgs config (.ok m)) :
    MatcherOf config ps m [] ∧ m.patterns = specs ∧ m.numArgs = numArgs ∧ m.history = [] ∧ m.stateIndex = 0 := by
  rcases constructs_main hd hne config numArgs with ⟨m', h1, h2⟩ | ⟨e, nfa, h1, _⟩
  · have := Except.ok.inj (h.unique h1)
    subst this
    exact h2
  · exact absurd (h.unique h1) (by intro h; cases h)

end Verif.CliPattern
