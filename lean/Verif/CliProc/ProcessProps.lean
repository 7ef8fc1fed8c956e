import Verif.CliProc.Cluster
/-!
Properties of the processing of command-line arguments.
-/
namespace Verif.CliProc

open Verif.CliPattern Verif.CliSpec

section
variable {env : Env} {D : Cmd} {c : Ctx} {m : Matcher} {offset : Nat} {err : Bool} {invs : List Invocation} {errs : List (Nat × Message)}

/-- How it is at the beginning. -/
def atStart : Progress := ⟨[], true, [], []⟩

theorem Processes.unique {o o' : Outcome} {s s' : St} (h : Processes c offset m err invs errs o s) (h' : Processes c offset m err invs errs o' s') :
    o = o' ∧ s = s' := by
  obtain ⟨n, h⟩ := h
  obtain ⟨n', h'⟩ := h'
  have := h (max n n') (by omega)
  rw [h' (max n n') (by omega)] at this
  simp only [Option.some.injEq, Prod.mk.injEq] at this
  exact ⟨this.1.symm, this.2.symm⟩

theorem process_main (h : Made env D c m) (ho : offset ≤ c.args.length) {gs : List Group} (hR : ReadsAll D false offset (c.args.drop offset) gs)
    (err : Bool) (invs : List Invocation) (errs : List (Nat × Message)) :
    ∃ o a s, Processes c offset m err invs errs o s ∧ Walk D c.args err atStart gs o a ∧ Fin c m err errs invs s a := by
  obtain ⟨o, a, s, ⟨n, h1⟩, h2, h3⟩ := walk_lemma h.serves (err := err) (errs := errs) (invs := invs) hR rfl ho (start offset m err invs errs) atStart rfl rfl
    ⟨h.serves.start, rfl, by simp [start, atStart], by simp [start, atStart], ⟨[], by simp [start, atStart]⟩, by simp [atStart]⟩
  exact ⟨o, a, s, ⟨n, fun fuel hf => by simp only [process, ho, if_true]; exact h1 fuel hf⟩, h2, h3⟩

theorem process_walk (h : Made env D c m) (ho : offset ≤ c.args.length) {gs : List Group} (hR : ReadsAll D false offset (c.args.drop offset) gs) {o : Outcome}
    {s : St} (hP : Processes c offset m err invs errs o s) : ∃ a, Walk D c.args err atStart gs o a ∧ Fin c m err errs invs s a := by
  obtain ⟨o', a, s', h1, h2, h3⟩ := process_main h ho hR err invs errs
  obtain ⟨rfl, rfl⟩ := hP.unique h1
  exact ⟨a, h2, h3⟩

theorem walk_process (h : Made env D c m) (ho : offset ≤ c.args.length) {gs : List Group} (hR : ReadsAll D false offset (c.args.drop offset) gs) {o : Outcome}
    {a : Progress} (hW : Walk D c.args err atStart gs o a) : ∃ s, Processes c offset m err invs errs o s := by
  obtain ⟨o', a', s', h1, h2, h3⟩ := process_main h ho hR err invs errs
  obtain ⟨rfl, _⟩ := hW.unique h.serves.unique h2
  exact ⟨s', h1⟩

theorem index_args {gs : List Group} (hR : ReadsAll D false offset (c.args.drop offset) gs) : ∀ g ∈ gs, c.args[g.index]? ≠ none := by
  intro g hg
  have := hR.indexes.2 g hg
  simp only [List.length_drop] at this
  simp
  omega

/-- C89: command-line arguments can be read in exactly one way. -/
theorem C89_read (h : Made env D c m) (args : List Str) (further : Bool) (i : Nat) : ∃ gs, ReadsAll D further i args gs ∧ ∀ gs', ReadsAll D further i args gs' →
    gs' = gs := by
  obtain ⟨gs, h1⟩ := readsAll_total D further i args
  exact ⟨gs, h1, fun gs' h2 => h2.unique h.serves.requires h1⟩

/-- C89: processing always ends, without a violated assertion. It fails only if there was an error. -/
theorem C89_total (h : Made env D c m) (ho : offset ≤ c.args.length) (err : Bool) (invs : List Invocation) (errs : List (Nat × Message)) :
    ∃ o s, Processes c offset m err invs errs o s ∧ (∃ new, s.errors = errs ++ new ∧ (s.hasError = true ↔ err = true ∨ new ≠ [])) ∧
      (∃ new, s.invocations = invs ++ new) ∧ (o = .failed → s.hasError = true) ∧ (∀ k, o = .invoke k → s.hasError = false) := by
  obtain ⟨gs, hR⟩ := readsAll_total D false offset (c.args.drop offset)
  obtain ⟨o, a, s, h1, h2, h3⟩ := process_main h ho hR err invs errs
  obtain ⟨l, h4, _⟩ := h3.given
  have h5 : s.hasError = true ↔ err = true ∨ a.reports ≠ [] := by
    rw [h3.hasError]
    cases err <;> simp
  refine ⟨o, s, h1, ⟨_, h3.errors, h5⟩, ⟨_, h4⟩, fun h6 => h5.2 (h2.failed (by simp [atStart]) h6), ?_⟩
  rintro k rfl
  obtain ⟨_, _, h6, h7, _⟩ := h2.invoked k rfl
  rw [h3.hasError, h6, h7]
  rfl

/-- C89: when a pattern is invoked. -/
theorem C89_invoke (h : Made env D c m) (ho : offset ≤ c.args.length) {gs : List Group} (hR : ReadsAll D false offset (c.args.drop offset) gs) (k : Nat) :
    (∃ s, Processes c offset m err invs errs (.invoke k) s) ↔ err = false ∧ (∀ g ∈ gs, ∀ it ∈ g.items, it.wrong = false ∧ ¬ D.ShortsAt it) ∧
      ∃ u, TakenAll D [] gs u ∧ D.First k u ∧ ¬ D.IsDeleg k := by
  constructor
  · rintro ⟨s, hP⟩
    obtain ⟨a, hW, hF⟩ := process_walk h ho hR hP
    obtain ⟨_, _, _, h1, h2, h3, h4, h5, _⟩ := hW.invoked k rfl
    exact ⟨h1, h5, _, h2, h3, h4⟩
  · rintro ⟨h1, h2, u, h3, h4, h5⟩
    obtain ⟨a, h6, h7, h8, h9⟩ := walk_taken (args := c.args) (err := err) h3 atStart [] rfl rfl (fun g hg it hit => (h2 g hg it hit).2) (index_args hR) (by
      rintro ⟨gs₁, gs₂, v, k', rfl, _, h6, h7, h8⟩
      have h9 : ∃ w, u = v ++ w := by
        obtain ⟨v', h9, h10⟩ := h3.split
        rw [← h6.unique h9] at h10
        exact h10.extends
      obtain ⟨w, rfl⟩ := h9
      by_cases hw : w = []
      · subst hw
        rw [List.append_nil] at h4
        exact h5 (h4.unique h7 ▸ h8)
      · exact h.serves.last k' v w h7 h8 hw k h4.1)
    have h10 := h9 (.invoke k) a (.invoke h7 (by rw [h6]; exact h4) h5 h1 (by rw [h8 fun g hg it hit => (h2 g hg it hit).1]; rfl))
    rw [List.append_nil] at h10
    exact walk_process h ho hR h10

/-- C89: when there is delegation, and at which argument. -/
theorem C89_delegate (h : Made env D c m) (ho : offset ≤ c.args.length) {gs : List Group} (hR : ReadsAll D false offset (c.args.drop offset) gs) (k d : Nat) :
    (∃ s, Processes c offset m err invs errs (.deleg k d) s) ↔ ∃ gs₁ gs₂ u, gs = gs₁ ++ gs₂ ∧ d = indexOf c.args gs₂ ∧ TakenAll D [] gs₁ u ∧ D.First k u ∧
      D.IsDeleg k ∧ (∀ g ∈ gs₁, ∀ it ∈ g.items, ¬ D.ShortsAt it) ∧ ¬ D.DelegatesIn [] gs₁ := by
  constructor
  · rintro ⟨s, hP⟩
    obtain ⟨a, hW, hF⟩ := process_walk h ho hR hP
    obtain ⟨_, gs₁, gs₂, h1, h2, h3, h4, h5, h6, h7, _⟩ := hW.delegated k d rfl
    exact ⟨gs₁, gs₂, _, h1, h2, h3, h4, h5, h6, h7⟩
  · rintro ⟨gs₁, gs₂, u, rfl, rfl, h3, h4, h5, h6, h7⟩
    obtain ⟨a, h8, h9, _, h10⟩ := walk_taken (args := c.args) (err := err) h3 atStart gs₂ rfl rfl h6
      (fun g hg => index_args hR g (List.mem_append_left _ hg)) h7
    exact walk_process h ho hR (h10 _ _ (.deleg h9 (by rw [h8]; exact h4) h5))

/-- C89: what is recorded about the options when a pattern is invoked, or there is delegation. -/
theorem C89_options (h : Made env D c m) (ho : offset ≤ c.args.length) {gs : List Group} (hR : ReadsAll D false offset (c.args.drop offset) gs) {s : St} :
    (∀ k, Processes c offset m err invs errs (.invoke k) s → ∃ l l', s.invocations = invs ++ l ∧ List.Forall₂ (Shows c.args) l l' ∧ GivenAll D gs l') ∧
    (∀ k d, Processes c offset m err invs errs (.deleg k d) s → ∃ gs₁ gs₂ l l', gs = gs₁ ++ gs₂ ∧ d = indexOf c.args gs₂ ∧ s.invocations = invs ++ l ∧
      List.Forall₂ (Shows c.args) l l' ∧ GivenAll D gs₁ l') := by
  constructor
  · intro k hP
    obtain ⟨a, hW, hF⟩ := process_walk h ho hR hP
    obtain ⟨_, _, _, _, _, _, _, _, l', h1, h2⟩ := hW.invoked k rfl
    obtain ⟨l, h3, h4⟩ := hF.given
    rw [h2] at h4
    exact ⟨l, l', h3, by simpa [atStart] using h4, h1⟩
  · intro k d hP
    obtain ⟨a, hW, hF⟩ := process_walk h ho hR hP
    obtain ⟨_, gs₁, gs₂, h5, h6, _, _, _, _, _, l', h1, h2⟩ := hW.delegated k d rfl
    obtain ⟨l, h3, h4⟩ := hF.given
    rw [h2] at h4
    exact ⟨gs₁, gs₂, l, l', h5, h6, h3, by simpa [atStart] using h4, h1⟩

/-- C89: if an option is short-circuiting, it is the first such option. If there are no delegating patterns, it always is. -/
theorem C89_short_circuit_partial (h : Made env D c m) (ho : offset ≤ c.args.length) {gs : List Group} (hR : ReadsAll D false offset (c.args.drop offset) gs) (j : Nat) :
    ((∃ s, Processes c offset m err invs errs (.shorted j) s) → D.FirstShort (gs.flatMap Group.items) j) ∧
    ((∀ k, ¬ D.IsDeleg k) → D.FirstShort (gs.flatMap Group.items) j → ∃ s, Processes c offset m err invs errs (.shorted j) s) := by
  constructor
  · rintro ⟨s, hP⟩
    obtain ⟨a, hW, hF⟩ := process_walk h ho hR hP
    exact hW.shorted j rfl
  · intro hnd hj
    obtain ⟨o, a, s, h1, h2, h3⟩ := process_main h ho hR err invs errs
    obtain ⟨is, n, v, is', h4, h5, h6, h7⟩ := hj
    obtain ⟨j', rfl⟩ := h2.shorts hnd ⟨.option n v, by rw [h4]; simp, n, v, rfl, h6⟩
    have := (h2.shorted j' rfl).unique h.serves.unique ⟨is, n, v, is', h4, h5, h6, h7⟩
    subst this
    exact ⟨s, h1⟩

/-- C89: what is reported is true, and is in the order of the arguments. -/
theorem C89_errors (h : Made env D c m) (ho : offset ≤ c.args.length) {gs : List Group} (hR : ReadsAll D false offset (c.args.drop offset) gs) {o : Outcome} {s : St}
    (hP : Processes c offset m err invs errs o s) :
    ∃ new, s.errors = errs ++ new ∧ Ordered new ∧ ∀ x ∈ new, Reported D c.args gs x.1 x.2 := by
  obtain ⟨a, hW, hF⟩ := process_walk h ho hR hP
  refine ⟨_, hF.errors, hW.ordered (by simp [Ordered, atStart]) (by simp [atStart]) hR.indexes.1 ?_, ?_⟩
  · intro g hg
    have := hR.indexes.2 g hg
    simp only [List.length_drop] at this
    omega
  · intro x hx
    rcases hW.reported (gs := gs) [] rfl (fun _ => .done) x hx with h1 | h1
    · simp [atStart] at h1
    · exact h1

/-- C89: if there are no delegating patterns, and there is no short-circuiting option, then every error about an option is reported, and at most one about the
matching of patterns. There are no errors if, and only if every option is in order, and what is left is matched by a pattern. -/
theorem C89_complete (h : Made env D c m) (ho : offset ≤ c.args.length) {gs : List Group} (hR : ReadsAll D false offset (c.args.drop offset) gs)
    (hnd : ∀ k, ¬ D.IsDeleg k) (hns : ∀ g ∈ gs, ∀ it ∈ g.items, ¬ D.ShortsAt it) {o : Outcome} {s : St} (hP : Processes c offset m err invs errs o s) :
    ∃ new, s.errors = errs ++ new ∧ new.filter (!·.2.ofPattern) = itemErrors c.args gs ∧ (new.filter (·.2.ofPattern)).length ≤ 1 ∧
      (new = [] ↔ (∀ g ∈ gs, ∀ it ∈ g.items, it.wrong = false) ∧ ∃ u k, TakenAll D [] gs u ∧ D.Accepts k u) := by
  obtain ⟨a, hW, hF⟩ := process_walk h ho hR hP
  have hshort : ∀ j, o ≠ .shorted j := by
    rintro j rfl
    obtain ⟨is, n, v, is', h1, h2, h3, _⟩ := hW.shorted j rfl
    have : Item.option n v ∈ gs.flatMap Group.items := by rw [h1]; simp
    obtain ⟨g, hg, hit⟩ := List.mem_flatMap.1 this
    exact hns g hg _ hit ⟨n, v, rfl, h3⟩
  have hdeleg : ∀ k d, o ≠ .deleg k d := by
    rintro k d rfl
    obtain ⟨_, gs₁, gs₂, _, _, _, _, h1, _⟩ := hW.delegated k d rfl
    exact hnd k h1
  obtain ⟨h1, h2⟩ := hW.counted hnd hshort ⟨by simp [atStart], by simp [atStart]⟩
  refine ⟨_, hF.errors, by simpa [atStart] using h2, h1, ?_, ?_⟩
  · intro h3
    obtain ⟨_, h4, ⟨k, h5⟩, h6⟩ := hW.silent (by simp [atStart]) hdeleg hshort h3
    exact ⟨h6, _, k, h4, h5⟩
  · rintro ⟨h3, u, k, h4, h5⟩
    obtain ⟨k', h6⟩ : ∃ k', D.First k' u := by
      classical
      have hx : ∃ k, D.Accepts k u := ⟨k, h5⟩
      exact ⟨Nat.find hx, Nat.find_spec hx, fun j hj => Nat.find_min hx hj⟩
    obtain ⟨a', h7, h8, h9, h10⟩ := walk_taken (args := c.args) (err := err) h4 atStart [] rfl rfl hns (index_args hR) (by
      rintro ⟨_, _, _, k', _, _, _, _, h⟩
      exact hnd k' h)
    have h11 : a'.reports = [] := h9 h3
    have h12 : ∃ o', Walk D c.args err atStart gs o' a' := by
      rw [List.append_nil] at h10
      cases err with
      | false => exact ⟨_, h10 _ _ (.invoke h8 (by rw [h7]; exact h6) (hnd _) rfl h11)⟩
      | true => exact ⟨_, h10 _ _ (.error h8 (by rw [h7]; exact h6) (hnd _) (Or.inl rfl))⟩
    obtain ⟨o', h12⟩ := h12
    rw [(hW.unique h.serves.unique h12).2, h11]

/-- C89: if there are no delegating patterns, short options can be given together. Here, there is an option without an argument, and it is at the beginning of
an argument that is not the argument of another option. -/
theorem C89_compound_partial {c' : Ctx} {m' : Matcher} (h : Made env D c m) (h' : Made env D c' m') (hnd : ∀ k, ¬ D.IsDeleg k) {pre post : List Str} {ch : Nat} {cs : Str}
    (hargs : c.args.drop offset = pre ++ (45 :: ch :: cs) :: post) (hargs' : c'.args.drop offset = pre ++ [45, ch] :: (45 :: cs) :: post)
    (hk : D.Known (.short ch)) (hna : ¬ D.Allows (.short ch)) (hne : ¬ D.EndsOptions (.short ch)) (hc : ch ≠ 45) (hcs : cs ≠ []) (hh : cs.head? ≠ some 45)
    {gs : List Group} (hR : ReadsAll D false offset (c.args.drop offset) gs) (hg : ∃ g ∈ gs, g.index = offset + pre.length ∧ g.further = false) (o : Outcome) :
    (∃ s, Processes c offset m err invs errs o s) ↔ ∃ s, Processes c' offset m' err invs errs o s := by
  have ho : offset ≤ c.args.length := by
    by_contra hx
    rw [List.drop_eq_nil_of_le (by omega)] at hargs
    simp at hargs
  have ho' : offset ≤ c'.args.length := by
    by_contra hx
    rw [List.drop_eq_nil_of_le (by omega)] at hargs'
    simp at hargs'
  obtain ⟨gs', hR', hS⟩ := ReadsAll.divide h.serves.requires hk hna hne hc hcs hh (hargs ▸ hR) hg
  rw [← hargs'] at hR'
  have hshort : ∀ j, (∃ s, Processes c offset m err invs errs (.shorted j) s) ↔ ∃ s, Processes c' offset m' err invs errs (.shorted j) s := by
    intro j
    obtain ⟨h1, h2⟩ := C89_short_circuit_partial (err := err) (invs := invs) (errs := errs) h ho hR j
    obtain ⟨h3, h4⟩ := C89_short_circuit_partial (err := err) (invs := invs) (errs := errs) h' ho' hR' j
    exact ⟨fun hx => h4 hnd ((hS.shorts j).1 (h1 hx)), fun hx => h2 hnd ((hS.shorts j).2 (h3 hx))⟩
  have hinvoke : ∀ k, (∃ s, Processes c offset m err invs errs (.invoke k) s) ↔ ∃ s, Processes c' offset m' err invs errs (.invoke k) s := by
    intro k
    rw [C89_invoke h ho hR, C89_invoke h' ho' hR']
    simp only [forall_and, hS.taken, hS.wrong, hS.shortsAt]
  have hdeleg : ∀ k d, ¬ ∃ s, Processes c offset m err invs errs (.deleg k d) s := by
    rintro k d ⟨s, hP⟩
    obtain ⟨a, hW, _⟩ := process_walk h ho hR hP
    obtain ⟨_, _, _, _, _, _, _, hx, _⟩ := hW.delegated k d rfl
    exact hnd k hx
  have hdeleg' : ∀ k d, ¬ ∃ s, Processes c' offset m' err invs errs (.deleg k d) s := by
    rintro k d ⟨s, hP⟩
    obtain ⟨a, hW, _⟩ := process_walk h' ho' hR' hP
    obtain ⟨_, _, _, _, _, _, _, hx, _⟩ := hW.delegated k d rfl
    exact hnd k hx
  cases o with
  | shorted j => exact hshort j
  | invoke k => exact hinvoke k
  | deleg k d => exact iff_of_false (hdeleg k d) (hdeleg' k d)
  | failed =>
    obtain ⟨o₁, s₁, h1, _⟩ := C89_total h ho err invs errs
    obtain ⟨o₂, s₂, h2, _⟩ := C89_total h' ho' err invs errs
    constructor
    · rintro ⟨s, hP⟩
      obtain ⟨rfl, _⟩ := h1.unique hP
      cases o₂ with
      | shorted j => obtain ⟨_, hx⟩ := (hshort j).2 ⟨_, h2⟩; cases (hP.unique hx).1
      | invoke k => obtain ⟨_, hx⟩ := (hinvoke k).2 ⟨_, h2⟩; cases (hP.unique hx).1
      | deleg k d => exact absurd ⟨_, h2⟩ (hdeleg' k d)
      | failed => exact ⟨_, h2⟩
    · rintro ⟨s, hP⟩
      obtain ⟨rfl, _⟩ := h2.unique hP
      cases o₁ with
      | shorted j => obtain ⟨_, hx⟩ := (hshort j).1 ⟨_, h1⟩; cases (hP.unique hx).1
      | invoke k => obtain ⟨_, hx⟩ := (hinvoke k).1 ⟨_, h1⟩; cases (hP.unique hx).1
      | deleg k d => exact absurd ⟨_, h1⟩ (hdeleg k d)
      | failed => exact ⟨_, h1⟩

end

instance : DecidableEq (List (Nat × Message) × List (Nat × Option Str)) := inferInstance

/-- Construct a processor, and process arguments. What is returned is the outcome, the errors, and the arguments of options. -/
def exampleProcess (ds : List OptionDecl) (ps : List PatternDecl) (args : List Str) : Option (Outcome × List (Nat × Message) × List (Nat × Option Str)) := do
  match ← construct asciiEnv 60 ds ps with
  | .ok s => do
    let m ← (makeMatcher 60 s.t (s.patterns.map PatternInfo.spec) args.length ⟨false, false⟩).toOption
    let (o, st) ← process 60 ⟨args, s.reg, s.patterns⟩ 0 m false [] []
    let l ← st.invocations.mapM fun x => do some (x.option, ← argOf args x.occurrence)
    some (o, st.errors, l)
  | .error _ => none

/-- The option `-h`, which is short-circuiting. -/
def exampleH : OptionDecl := ⟨[45, 104], [], 1, false, false⟩

/-- The option `-b`, which is not. -/
def exampleB' : OptionDecl := { exampleB with attr := 0 }

/-- C89: a short-circuiting option is not seen if it is preceded by something that is not a match, while delegation is possible: The only pattern is `x`, which is
delegating, and the arguments are `y -h`. -/
theorem C89_short_circuit_missed : exampleProcess [exampleH] [⟨[120], 0, .deleg⟩] [[121], [45, 104]] = some (.failed, [(0, .mismatching [121])], []) ∧
    exampleProcess [exampleH] [⟨[120], 0, .null⟩] [[121], [45, 104]] = some (.shorted 0, [(0, .mismatching [121])], []) := by
  decide +kernel

/-- C89: with delegation, it makes a difference whether options are given together: The only pattern is `-a`, which is delegating. -/
theorem C89_compound_delegated : exampleProcess [] [⟨[45, 97], 0, .deleg⟩] [[45, 97], [45, 98]] = some (.deleg 0 1, [], []) ∧
    exampleProcess [] [⟨[45, 97], 0, .deleg⟩] [[45, 97, 98]] = some (.failed, [(0, .unknownInCompound [45, 98] [45, 97, 98])], []) := by
  decide +kernel

/-- C89: an argument for an option that cannot have one makes the option not be matched, which is then reported too: The only pattern is `-b`, and the argument
is `-b-x`. -/
theorem C89_unexpected_argument : exampleProcess [] [⟨[45, 98], 0, .null⟩] [[45, 98, 45, 120]] =
    some (.failed, [(0, .notAllowed [45, 120] [45, 98] [45, 98, 45, 120]), (1, .tooFew)], []) := by
  decide +kernel

/-- C89: `get -b -f 1 x --foo=2` is a match of `get [<a>]`. The options are `-f, --foo <x>` and `-b`. -/
example : exampleProcess [exampleF, exampleB'] [⟨[103, 101, 116, 32, 91, 60, 97, 62, 93], 0, .func (.cons (.optional .other) .nil)⟩]
    [[103, 101, 116], [45, 98], [45, 102], [49], [120], [45, 45, 102, 111, 111, 61, 50]] = some (.invoke 0, [], [(1, none), (0, some [49]), (0, some [50])]) := by
  decide +kernel

/-- C89: in `put -bxf get y`, there is an argument that does not match, and an option that is unknown. Then, nothing is extraneous. -/
example : exampleProcess [exampleF, exampleB'] [⟨[103, 101, 116, 32, 91, 60, 97, 62, 93], 0, .func (.cons (.optional .other) .nil)⟩]
    [[112, 117, 116], [45, 98, 120, 102], [103, 101, 116], [121]] =
    some (.failed, [(0, .mismatching [112, 117, 116]), (1, .unknownInCompound [45, 120] [45, 98, 120, 102])], [(1, none)]) := by
  decide +kernel

/-- C89: in `get x y -f`, one argument is too many, and another one is missing. -/
example : exampleProcess [exampleF, exampleB'] [⟨[103, 101, 116, 32, 91, 60, 97, 62, 93], 0, .func (.cons (.optional .other) .nil)⟩]
    [[103, 101, 116], [120], [121], [45, 102]] = some (.failed, [(2, .extraneous [121]), (3, .missing [45, 102])], []) := by
  decide +kernel

/-- C89: with the option `--`, further arguments are values. -/
example : exampleProcess [⟨[45, 45], [], 2, false, false⟩] [⟨[103, 101, 116, 32, 60, 97, 62], 0, .func (.cons .other .nil)⟩] [[103, 101, 116], [45, 45], [45, 120]] =
    some (.invoke 0, [], [(0, none)]) := by
  decide +kernel

/-- C89: too few arguments. -/
example : exampleProcess [exampleB'] [⟨[103, 101, 116, 32, 60, 97, 62], 0, .func (.cons .other .nil)⟩] [[103, 101, 116], [45, 98]] =
    some (.failed, [(2, .tooFew)], [(0, none)]) := by
  decide +kernel

end Verif.CliProc
