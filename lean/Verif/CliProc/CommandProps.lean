import Verif.CliProc.CommandLemmas
/-!
Properties of the processing of a command line.
-/
namespace Verif.CliProc

open Verif.CliPattern Verif.CliSpec

section
variable {σ : Type} {env : Env} {D : Cmd} {c : Ctx} {t : Tables} {m : Matcher} {root : Root σ} {app : App σ} {parents : List (Level σ)} {offset : Nat}
  {ds : List (Deed σ)} {es : List (Nat × Report)} {w : σ}

theorem Yields.unique {r r' : Result σ} (h : Yields root app c t m parents offset w r) (h' : Yields root app c t m parents offset w r') : r = r' := by
  obtain ⟨n, h⟩ := h
  obtain ⟨n', h'⟩ := h'
  have := h (max n n') (by omega)
  rw [h' (max n n') (by omega)] at this
  exact (Option.some.inj this).symm

theorem given_index {gs : List Group} {l : List (Nat × Nat × OptName × Option Str)} (h : GivenAll D gs l) : ∀ x ∈ l, ∃ g ∈ gs, x.1 = g.index := by
  induction h with
  | done => simp
  | next h1 _ ih =>
    intro x hx
    rcases List.mem_append.1 hx with hx | hx
    · obtain ⟨y, _, rfl⟩ := List.mem_map.1 hx
      exact ⟨_, by simp, rfl⟩
    · obtain ⟨g, hg, h2⟩ := ih x hx
      exact ⟨g, by simp [hg], h2⟩

theorem itemErrors_index {args : List Str} {gs : List Group} : ∀ x ∈ itemErrors args gs, ∃ g ∈ gs, x.1 = g.index := by
  intro x hx
  obtain ⟨g, hg, hx⟩ := List.mem_flatMap.1 hx
  obtain ⟨it, _, hx⟩ := List.mem_filterMap.1 hx
  obtain ⟨_, _, rfl⟩ := Option.map_eq_some_iff.1 hx
  exact ⟨g, hg, rfl⟩

/-- The command line is processed as long as `process()` of the processor has the given outcome. -/
theorem process_yields {o : Outcome} {s : St} (hP : Processes c offset m (parentHasError parents) [] [] o s) {r : Result σ}
    (h : ∃ n, ∀ fuel, n ≤ fuel → (do
      let errors := s.errors.map fun x => (x.1, Report.processing x.2)
      match o with
      | .shorted j => some (true, some exitSuccess, (app.act j none w).2)
      | .deleg k d =>
        if offset ≤ d then
          let r := app.deleg k (parents ++ [⟨app.act, s.invocations, errors, s.hasError⟩]) d w
          some (true, some r.1, r.2)
        else none
      | .invoke k => do
        let a ← invokeParents c.args ⟨errors, s.hasError, w⟩ parents
        let a ← invokeOptions c.args app.act a s.invocations
        let info ← c.patterns[k]?
        let entries ← s.matcher.backtrack
        let descs ← generateDescs fuel t info.elemSeqIndex entries
        invokePattern root app c t parents k info descs a
      | .failed => do
        let a ← invokeParents c.args ⟨errors, s.hasError, w⟩ parents
        let a ← invokeOptions c.args app.act a s.invocations
        if a.hasError then some (failWith root parents a.errors a.world) else none) = some r) : Yields root app c t m parents offset w r := by
  obtain ⟨n, hP⟩ := hP
  obtain ⟨n', h⟩ := h
  refine ⟨max n n', fun fuel hf => ?_⟩
  have h1 := hP fuel (by omega)
  have h2 := h fuel (by omega)
  unfold processAll
  rw [h1]
  exact h2

/-- C90: the processing of a command line always ends, without a violated assertion, and it does what it should do, if the type `std::size_t` is not used
for an alternatives construct in the parameters of functions of patterns (`C84_size_for_alternatives_fails`). Missing from the claim: The exit status, when it
is not zero, is lost for patterns that are not completing, see `C90_nonzero_status_dropped`. -/
theorem C90_process_partial (h : Ready env D c t m) (ho : offset ≤ c.args.length) {gs : List Group} (hR : ReadsAll D false offset (c.args.drop offset) gs)
    (hC : Chain c.args parents ds es)
    (hA : ∀ (k : Nat) (d : PatternDecl) (oe : Option Expr) (ts : Ty), D.ps[k]? = some d → D.es[k]? = some oe → d.action = .func ts → ¬ AltSize (patOf slotOrNot oe) ts) (w : σ) :
    ∃ r, Yields root app c t m parents offset w r ∧ Does D root app c.args gs parents ds es w r := by
  obtain ⟨o, a, s, hP, hW, hF⟩ := process_main h.made ho hR (parentHasError parents) [] []
  obtain ⟨parts, hparts, hds, hes⟩ := hC.parts
  obtain ⟨linv, hlinv, hshows⟩ := hF.given
  have herrors := hF.errors
  simp only [List.nil_append] at hlinv herrors
  have hnoDeleg : (∀ k d, o ≠ .deleg k d) → ∀ gs₁ gs₂ k u, gs = gs₁ ++ gs₂ → ¬ Delegates D gs₁ k u := by
    intro hod gs₁ gs₂ k u hgs hDel
    obtain ⟨s', hs'⟩ := (C89_delegate h.made ho hR (err := parentHasError parents) (invs := []) (errs := []) k _).2 ⟨gs₁, gs₂, _, hgs, rfl, hDel.taken.all, hDel.first, hDel.deleg,
      hDel.noShorts, hDel.notBefore⟩
    exact hod _ _ (hP.unique hs').1
  have hbound : ∀ g ∈ gs, offset ≤ g.index ∧ g.index < c.args.length := by
    intro g hg
    have := hR.indexes.2 g hg
    simp only [List.length_drop] at this
    omega
  cases o with
  | shorted j =>
    exact ⟨_, process_yields hP ⟨0, fun fuel _ => rfl⟩, .shorted (hW.shorted j rfl) (hnoDeleg (by simp))⟩
  | deleg k d =>
    obtain ⟨gs₁, gs₂, h1, h2, h3, h4, h5, h6⟩ := hW.deleg_steps k d rfl
    obtain ⟨_, h7, h8⟩ := h3.taken h4
    obtain ⟨h9, l, h10, h11⟩ := h3.given
    obtain ⟨h12, h13⟩ := h3.reports ⟨by simp [atStart], by simp [atStart]⟩
    have h14 : a.reports = itemErrors c.args gs₁ := by
      have h15 := h12.none h4
      have h16 : a.reports.filter (!·.2.ofPattern) = a.reports := by
        rw [List.filter_eq_self]
        intro x hx
        have := List.filter_eq_nil_iff.1 h15 x hx
        simpa using this
      rw [h16] at h13
      simpa [atStart] using h13
    have hoff : offset ≤ d := by
      rw [h2]
      cases gs₂ with
      | nil => exact ho
      | cons g gs₂ => exact (hbound g (by rw [h1]; simp)).1
    have hgiven : a.given = l := by simpa [atStart] using h11
    let L : Level σ := ⟨app.act, s.invocations, s.errors.map fun x => (x.1, Report.processing x.2), s.hasError⟩
    have hL : Carries c.args L (deedsOf app.act l) (processing (itemErrors c.args gs₁)) :=
      ⟨⟨l, by rw [← hgiven]; simp only [L]; rw [hlinv]; exact hshows, rfl⟩, by simp only [L, herrors, h14]; rfl⟩
    refine ⟨_, process_yields hP ⟨0, fun fuel _ => ?_⟩, .deleg h1 ⟨h9, h7, h5, h6, h8⟩ h10 hL ⟨?_, ?_, ?_, ?_⟩⟩
    · simp only [if_pos hoff, Option.some.injEq]
      rw [h2]
    · refine ⟨parts ++ [(deedsOf app.act l, processing (itemErrors c.args gs₁))], List.rel_append hparts (.cons hL .nil), ?_, ?_⟩
      · simp [hds]
      · simp [hes]
    · intro L' hL'
      simp only [List.getLast?_append, List.getLast?_singleton, Option.some_or, Option.some.injEq] at hL'
      subst hL'
      have := hC.parent
      simp only [L, hF.hasError, Bool.or_eq_true, this, h14, processing]
      simp
      tauto
    · intro x hx
      rcases List.mem_append.1 hx with hx | hx
      · exact hC.deedsIn x hx
      · obtain ⟨y, hy, rfl⟩ := List.mem_map.1 hx
        obtain ⟨g, hg, hy⟩ := given_index h10 y hy
        simp only [hy]
        exact (hbound g (by rw [h1]; simp [hg])).2
    · intro x hx
      rcases List.mem_append.1 hx with hx | hx
      · exact hC.errorsIn x hx
      · obtain ⟨y, hy, rfl⟩ := List.mem_map.1 hx
        obtain ⟨g, hg, hy⟩ := itemErrors_index y hy
        simp only [hy]
        exact (hbound g (by rw [h1]; simp [hg])).2.le
  | invoke k =>
    obtain ⟨h1, h2⟩ := hW.invoke_steps k rfl
    obtain ⟨_, _, h3, h4, h5, h6, h7, h8, l, h9, h10⟩ := hW.invoked k rfl
    obtain ⟨_, h11, _⟩ := h1.taken h2
    have hgiven : a.given = l := by simpa [atStart] using h10
    have hno : es = [] := by
      by_contra hne
      rw [hC.parent.2 hne] at h4
      cases h4
    have hnoErr : s.hasError = false := by rw [hF.hasError, h3, h4]; rfl
    have hI : Invokes D gs k a.toks := ⟨h8, h11, h6, h7⟩
    obtain ⟨oe, v, hoe, _⟩ := h6.1
    obtain ⟨d, hd, _⟩ := forall₂_get h.patterns hoe
    have hmatch : s.matcher.isMatch = some (some k) := by
      rcases h.made.serves.isMatch _ _ hF.tracks with ⟨k', h12, h13⟩ | ⟨_, h12⟩
      · rw [h12, h13.unique h6]
      · exact absurd h6.1 (h12 k)
    obtain ⟨info, ms, hi, hact, hcomp, hback, descs, ⟨N, hdescs⟩, hfun⟩ := receives h hF.tracks hmatch hd
    generalize hperf : perform (ds ++ deedsOf app.act l) w = pr
    obtain ⟨w', bad⟩ := pr
    have hinv : ((invokeParents c.args ⟨s.errors.map fun x => (x.1, Report.processing x.2), s.hasError, w⟩ parents).bind fun a =>
        invokeOptions c.args app.act a s.invocations) = some ⟨bad, !bad.isEmpty, w'⟩ := by
      rw [perform_append] at hperf
      simp only [Prod.mk.injEq] at hperf
      rw [invokeParents_eq hparts, Option.bind_some, hlinv, invokeOptions_eq hshows, hgiven, ← hds, herrors, h3, hnoErr]
      simp only [List.map_nil, List.nil_append, Bool.false_or, hperf.1, hperf.2]
      congr 2
      rw [← hperf.2]
      simp [isEmpty_append']
    have hall : ∀ {r : Result σ}, invokePattern root app c t parents k info descs ⟨bad, !bad.isEmpty, w'⟩ = some r → Yields root app c t m parents offset w r := by
      intro r hr
      refine process_yields hP ⟨N, fun fuel hf => ?_⟩
      have : ∀ f : Acc σ → Option (Result σ), ((invokeParents c.args ⟨s.errors.map fun x => (x.1, Report.processing x.2), s.hasError, w⟩ parents).bind fun a =>
          (invokeOptions c.args app.act a s.invocations).bind f) = f ⟨bad, !bad.isEmpty, w'⟩ := by
        intro f
        rw [← Option.bind_assoc, hinv, Option.bind_some]
      simp only [Option.bind_eq_bind]
      rw [this]
      rw [hi, Option.bind_some, hback, Option.bind_some, hdescs fuel hf, Option.bind_some]
      exact hr
    have hsucc : ∀ (x : Int) (w : σ), Succeeds (d.attr.toNat % 2 = 1) x w (succeedWith info.completing x w) := by
      intro x w
      unfold succeedWith Succeeds
      cases hx : info.completing with
      | true => exact Or.inl ⟨hcomp.1 hx, rfl⟩
      | false => exact Or.inr ⟨fun hy => (by rw [hcomp.2 hy] at hx; cases hx), rfl⟩
    have hfail : ∀ {errors : List (Nat × Report)}, errors ≠ [] → Fails root errors w' (failWith root parents errors w') := by
      intro errors hne
      have := failWith_fails root hC errors (by simp [hne]) w'
      simpa [hno] using this
    cases hdact : d.action with
    | null =>
      rw [hdact] at hact
      by_cases hbad : bad = []
      · subst hbad
        refine ⟨_, hall (r := succeedWith info.completing 0 w') ?_, .null hno hI h9 hd hdact hperf (hsucc _ _)⟩
        simp [invokePattern, hact]
      · refine ⟨_, hall (r := failWith root parents bad w') ?_, .badNull hno hI h9 hd hdact hperf (hfail hbad)⟩
        simp [invokePattern, hact, hbad]
    | func ts =>
      rw [hdact] at hact
      obtain ⟨vs, h12, h13⟩ := hfun ts hdact (fun oe' hoe' => hA k d oe' ts hd hoe' hdact) (goodArg root c.args)
      by_cases hbad : bad = [] ∧ bads vs = []
      · obtain ⟨rfl, hvs⟩ := hbad
        refine ⟨_, hall (r := succeedWith info.completing (app.func k vs w').1 (app.func k vs w').2) ?_, .func hno hI h9 hd hdact hperf h12 hvs (hsucc _ _)⟩
        simp [invokePattern, hact, h13, hvs]
      · have hne : bad ++ badPatternArgs c.args (bads vs) ≠ [] := by
          simpa [badPatternArgs] using hbad
        refine ⟨_, hall (r := failWith root parents (bad ++ badPatternArgs c.args (bads vs)) w') ?_, .badFunc hno hI h9 hd hdact hperf h12 (hfail hne)⟩
        have : ((bads vs).isEmpty && !!bad.isEmpty) = false := by
          rw [Bool.eq_false_iff]
          intro hx
          simp at hx
          exact hbad ⟨hx.2, hx.1⟩
        simp only [invokePattern, hact, h13, Option.bind_eq_bind, Option.bind_some, this]
        rfl
    | deleg => exact absurd ⟨d, hd, by rw [hdact]; rfl⟩ h7
  | failed =>
    obtain ⟨l, l', h1, h2, h3⟩ := hW.given_prefix
    have hgiven : a.given = l := by simpa [atStart] using h3
    have hhas : s.hasError = true := by
      rw [hF.hasError]
      rcases hW.failed (by simp [atStart]) rfl with h4 | h4
      · simp [h4]
      · have : a.reports.isEmpty = false := by simpa using h4
        simp [this]
    have hor : es ≠ [] ∨ a.reports ≠ [] := by
      rcases hW.failed (by simp [atStart]) rfl with h4 | h4
      · exact Or.inl (hC.parent.1 h4)
      · exact Or.inr h4
    generalize hperf : perform (ds ++ deedsOf app.act l) w = pr
    obtain ⟨w', bad⟩ := pr
    have hinv : ((invokeParents c.args ⟨s.errors.map fun x => (x.1, Report.processing x.2), s.hasError, w⟩ parents).bind fun a =>
        invokeOptions c.args app.act a s.invocations) = some ⟨processing a.reports ++ bad, true, w'⟩ := by
      rw [perform_append] at hperf
      simp only [Prod.mk.injEq] at hperf
      rw [invokeParents_eq hparts, Option.bind_some, hlinv, invokeOptions_eq hshows, hgiven, ← hds, herrors, hhas]
      simp only [Bool.true_or, hperf.1, List.append_assoc, hperf.2]
      rfl
    have hErrs : Errs D c.args gs a.reports l := by
      obtain ⟨new, h4, h5, h6⟩ := C89_errors h.made ho hR hP
      rw [herrors, List.nil_append] at h4
      subst h4
      refine ⟨h6, h5, ⟨l', h1, h2⟩, hnoDeleg (by simp), fun hnd => ?_⟩
      have hns : ∀ g ∈ gs, ∀ it ∈ g.items, ¬ D.ShortsAt it := by
        intro g hg it hit hsh
        obtain ⟨j, hj⟩ := hW.shorts hnd ⟨it, List.mem_flatMap.2 ⟨g, hg, hit⟩, hsh⟩
        cases hj
      obtain ⟨new, h7, h8, _, h9⟩ := C89_complete h.made ho hR hnd hns hP
      rw [herrors, List.nil_append] at h7
      subst h7
      obtain ⟨l'', h10, h11⟩ := hW.given_all hnd rfl
      have : l'' = l := by
        rw [h3] at h11
        simpa [atStart] using h11.symm
      subst this
      exact ⟨hns, h10, h8, h9⟩
    refine ⟨failWith root parents (processing a.reports ++ bad) w', process_yields hP ⟨0, fun fuel _ => ?_⟩, .failed hErrs hor hperf ?_⟩
    · have : ∀ f : Acc σ → Option (Result σ), ((invokeParents c.args ⟨s.errors.map fun x => (x.1, Report.processing x.2), s.hasError, w⟩ parents).bind fun a =>
          (invokeOptions c.args app.act a s.invocations).bind f) = f ⟨processing a.reports ++ bad, true, w'⟩ := by
        intro f
        rw [← Option.bind_assoc, hinv, Option.bind_some]
      simp only [Option.bind_eq_bind]
      rw [this]
      simp
    · rw [List.append_assoc]
      refine failWith_fails root hC _ ?_ w'
      intro hx
      obtain ⟨hx1, hx2⟩ := List.append_eq_nil_iff.1 hx
      obtain ⟨hx3, _⟩ := List.append_eq_nil_iff.1 hx2
      rcases hor with h4 | h4
      · exact h4 hx1
      · exact h4 (by simpa [processing] using hx3)

theorem Fails.status {l : List (Nat × Report)} {w : σ} {r : Result σ} (h : Fails root l w r) : r.1 = true ∧ ∃ x, r.2.1 = some x := by
  obtain ⟨_, es', _, h1⟩ := h
  cases hh : root.handler with
  | some handle => rw [hh] at h1; simp only at h1; rw [h1]; exact ⟨rfl, _, rfl⟩
  | none => rw [hh] at h1; simp only at h1; rw [h1]; exact ⟨rfl, _, rfl⟩

theorem Succeeds.status {p : Prop} {x : Int} {w : σ} {r : Result σ} (h : Succeeds p x w r) : (r.1 = true ↔ p) ∧ (r.1 = true → r.2.1 = some x) ∧
    (r.1 = false → r.2.1 = none) := by
  rcases h with ⟨h, rfl⟩ | ⟨h, rfl⟩ <;> simp [h]

theorem clash (h : Ready env D c t m) {gs gs₁ gs₂ : List Group} (hgs : gs = gs₁ ++ gs₂) {k k' : Nat} {u u' : List (Tok × Nat)} (hD : Delegates D gs₁ k u)
    (hI : Invokes D gs k' u') : False := by
  have h1 := hI.taken.all
  rw [hgs] at h1
  obtain ⟨v, h2, h3⟩ := h1.split
  have h4 := h2.unique hD.taken.all
  subst h4
  obtain ⟨x, hx⟩ := h3.extends
  by_cases hw : x = []
  · subst hw
    rw [List.append_nil] at hx
    have := hI.first
    rw [hx] at this
    exact hI.noDeleg (this.unique hD.first ▸ hD.deleg)
  · refine h.made.serves.last k _ x hD.first hD.deleg hw k' ?_
    rw [← hx]
    exact hI.first.1

/-- C90: a value is assigned to `exit_status` when, and only when `process()` returns true. -/
theorem C90_status (h : Ready env D c t m) (ho : offset ≤ c.args.length) (hC : Chain c.args parents ds es)
    (hA : ∀ (k : Nat) (d : PatternDecl) (oe : Option Expr) (ts : Ty), D.ps[k]? = some d → D.es[k]? = some oe → d.action = .func ts → ¬ AltSize (patOf slotOrNot oe) ts)
    {r : Result σ} (hr : Yields root app c t m parents offset w r) : r.1 = true ↔ ∃ x, r.2.1 = some x := by
  obtain ⟨gs, hR⟩ := readsAll_total D false offset (c.args.drop offset)
  obtain ⟨r', h1, h2⟩ := C90_process_partial (root := root) (app := app) h ho hR hC hA w
  rw [hr.unique h1]
  have fails : ∀ {l : List (Nat × Report)} {w : σ} {r : Result σ}, Fails root l w r → (r.1 = true ↔ ∃ x, r.2.1 = some x) := fun h => iff_of_true h.status.1 h.status.2
  have succeeds : ∀ {p : Prop} {x : Int} {w : σ} {r : Result σ}, Succeeds p x w r → (r.1 = true ↔ ∃ x, r.2.1 = some x) := by
    intro p x w r h
    rcases h with ⟨_, rfl⟩ | ⟨_, rfl⟩ <;> simp
  cases h2 with
  | shorted => simp
  | deleg => simp
  | null _ _ _ _ _ _ h => exact succeeds h
  | func _ _ _ _ _ _ _ _ h => exact succeeds h
  | badNull _ _ _ _ _ _ h => exact fails h
  | badFunc _ _ _ _ _ _ _ h => exact fails h
  | failed _ _ _ h => exact fails h

/-- C90: `process()` returns false only if there was no error, and every option was acted on, and there is a match of a pattern that is not completing. -/
theorem C90_returns_false (h : Ready env D c t m) (ho : offset ≤ c.args.length) {gs : List Group} (hR : ReadsAll D false offset (c.args.drop offset) gs)
    (hC : Chain c.args parents ds es)
    (hA : ∀ (k : Nat) (d : PatternDecl) (oe : Option Expr) (ts : Ty), D.ps[k]? = some d → D.es[k]? = some oe → d.action = .func ts → ¬ AltSize (patOf slotOrNot oe) ts)
    {r : Result σ} (hr : Yields root app c t m parents offset w r) (hf : r.1 = false) :
    es = [] ∧ (∀ g ∈ gs, ∀ it ∈ g.items, it.wrong = false ∧ ¬ D.ShortsAt it) ∧ ∃ k d u l, TakenAll D [] gs u ∧ D.First k u ∧ D.ps[k]? = some d ∧ d.attr.toNat % 2 ≠ 1 ∧
      GivenAll D gs l ∧ (perform (ds ++ deedsOf app.act l) w).2 = [] := by
  obtain ⟨r', h1, h2⟩ := C90_process_partial (root := root) (app := app) h ho hR hC hA w
  rw [hr.unique h1] at hf
  have fails : ∀ {l : List (Nat × Report)} {w : σ} {r : Result σ}, Fails root l w r → r.1 = false → False := by
    intro l w r h h'
    rw [h.status.1] at h'
    cases h'
  have succeeds : ∀ {p : Prop} {x : Int} {w : σ} {r : Result σ}, Succeeds p x w r → r.1 = false → ¬ p := by
    intro p x w r h h' hp
    rw [h.status.1.2 hp] at h'
    cases h'
  cases h2 with
  | shorted => simp at hf
  | deleg => simp at hf
  | null h3 h4 h5 h6 _ h7 h => exact ⟨h3, h4.clean, _, _, _, _, h4.taken.all, h4.first, h6, succeeds h hf, h5, by rw [h7]⟩
  | func h3 h4 h5 h6 _ h7 _ _ h => exact ⟨h3, h4.clean, _, _, _, _, h4.taken.all, h4.first, h6, succeeds h hf, h5, by rw [h7]⟩
  | badNull _ _ _ _ _ _ h => exact (fails h hf).elim
  | badFunc _ _ _ _ _ _ _ h => exact (fails h hf).elim
  | failed _ _ _ h => exact (fails h hf).elim

/-- C90: delegation. If the root processor leaves the rest of the arguments to another processor, then what the root processor has found is reported or
acted on by the other processor. -/
theorem C90_delegated_partial {D' : Cmd} {c' : Ctx} {t' : Tables} {m' : Matcher} {app' : App σ} (hargs : c'.args = c.args) (h : Ready env D c t m)
    (h' : Ready env D' c' t' m') (ho : offset ≤ c.args.length) {gs gs₁ gs₂ gs' : List Group} (hR : ReadsAll D false offset (c.args.drop offset) gs) (hgs : gs = gs₁ ++ gs₂) {k : Nat}
    {u : List (Tok × Nat)} (hD : Delegates D gs₁ k u) (hR' : ReadsAll D' false (indexOf c.args gs₂) (c.args.drop (indexOf c.args gs₂)) gs')
    (hA : ∀ (k : Nat) (d : PatternDecl) (oe : Option Expr) (ts : Ty), D.ps[k]? = some d → D.es[k]? = some oe → d.action = .func ts → ¬ AltSize (patOf slotOrNot oe) ts)
    (hA' : ∀ (k : Nat) (d : PatternDecl) (oe : Option Expr) (ts : Ty), D'.ps[k]? = some d → D'.es[k]? = some oe → d.action = .func ts → ¬ AltSize (patOf slotOrNot oe) ts)
    (w w' : σ) : ∃ L l r, GivenAll D gs₁ l ∧
      Yields root app c t m [] offset w (true, some (app.deleg k [L] (indexOf c.args gs₂) w).1, (app.deleg k [L] (indexOf c.args gs₂) w).2) ∧
      Yields root app' c' t' m' [L] (indexOf c.args gs₂) w' r ∧
      Does D' root app' c.args gs' [L] (deedsOf app.act l) (processing (itemErrors c.args gs₁)) w' r := by
  obtain ⟨r, h1, h2⟩ := C90_process_partial (root := root) (app := app) (parents := []) h ho hR ⟨⟨[], .nil, rfl, rfl⟩, by simp, by simp, by simp⟩ hA w
  have hidx : ∀ gs₂, (∃ gs₁, gs = gs₁ ++ gs₂) → indexOf c.args gs₂ ≤ c.args.length := by
    rintro gs₂ ⟨gs₁, hx⟩
    cases gs₂ with
    | nil => exact le_refl _
    | cons g gs₂ =>
      have := (hR.indexes.2 g (by rw [hx]; simp)).2
      simp only [List.length_drop] at this
      simp only [indexOf]
      omega
  have hwalk : ∀ {k' : Nat} {u' : List (Tok × Nat)} {gs₁' gs₂' : List Group}, gs = gs₁' ++ gs₂' → Delegates D gs₁' k' u' → gs₁' = gs₁ ∧ gs₂' = gs₂ ∧ k' = k := by
    intro k' u' gs₁' gs₂' hx hy
    have key : ∀ {p p' q q' : List Group} {j j' : Nat} {v v' : List (Tok × Nat)}, p ++ q = p' ++ q' → Delegates D p j v → Delegates D p' j' v' → p.length < p'.length →
        False := by
      intro p p' q q' j j' v v' hpq hp hp' hlt
      obtain ⟨x, rfl⟩ : ∃ x, p' = p ++ x := by
        refine ⟨p'.drop p.length, ?_⟩
        have h1 := congrArg (List.take p.length) hpq
        rw [List.take_append_of_le_length (le_refl _), List.take_append_of_le_length hlt.le, List.take_length] at h1
        conv_lhs => rw [← List.take_append_drop p.length p', ← h1]
      refine hp'.notBefore ⟨p, x, _, j, rfl, ?_, hp.taken.all, hp.first, hp.deleg⟩
      rintro rfl
      simp at hlt
    have hlen : gs₁'.length = gs₁.length := by
      rcases Nat.lt_trichotomy gs₁'.length gs₁.length with hl | hl | hl
      · exact (key (by rw [← hx, hgs]) hy hD hl).elim
      · exact hl
      · exact (key (by rw [← hx, hgs]) hD hy hl).elim
    obtain ⟨rfl, rfl⟩ := List.append_inj (by rw [← hx, hgs] : gs₁' ++ gs₂' = gs₁ ++ gs₂) hlen
    refine ⟨rfl, rfl, ?_⟩
    have hu := hy.taken.all.unique hD.taken.all
    exact (hu ▸ hy.first).unique hD.first
  cases h2 with
  | deleg h3 h4 h5 h6 h7 =>
    obtain ⟨rfl, rfl, rfl⟩ := hwalk h3 h4
    simp only [List.nil_append] at h7 h1
    obtain ⟨r', h8, h9⟩ := C90_process_partial (root := root) (app := app') (offset := indexOf c.args _) h' (by rw [hargs]; exact hidx _ ⟨_, hgs⟩)
      (by rw [hargs]; exact hR') (by rw [hargs]; exact h7) hA' w'
    rw [hargs] at h9
    exact ⟨_, _, r', h5, h1, h8, h9⟩
  | shorted _ h3 => exact absurd hD (h3 gs₁ gs₂ k u hgs)
  | failed h3 => exact absurd hD (h3.noDeleg gs₁ gs₂ k u hgs)
  | null _ h3 => exact (clash h hgs hD h3).elim
  | func _ h3 => exact (clash h hgs hD h3).elim
  | badNull _ h3 => exact (clash h hgs hD h3).elim
  | badFunc _ h3 => exact (clash h hgs hD h3).elim

end

/-- What happens in an example. -/
inductive Event where
  | acted (option : Nat) (value : Option Str)
  | called (pattern : Nat) (values : Val)
  | logged (report : Report)
deriving DecidableEq, Repr

instance : DecidableEq (Result (List Event)) := inferInstanceAs (DecidableEq (Bool × Option Int × List Event))

/-- Arguments are bad if they start with `!`. Functions of patterns return 7. -/
def exampleApp (deleg : Nat → List (Level (List Event)) → Nat → List Event → Int × List Event) : App (List Event) where
  act j v w := (v.getD [] |>.head? |> (· ≠ some 33), w ++ [.acted j v])
  func k vs w := (7, w ++ [.called k vs])
  deleg := deleg

def exampleRoot : Root (List Event) where
  parse _ s := s.head? ≠ some 33
  handler := none
  log r w := w ++ [.logged r]

/-- Construct a processor, and process a command line. -/
def exampleCommand (ds : List OptionDecl) (ps : List PatternDecl) (args : List Str) (app : App (List Event)) (parents : List (Level (List Event))) (offset : Nat)
    (w : List Event) : Option (Result (List Event)) := do
  match ← construct asciiEnv 60 ds ps with
  | .ok s => do
    let m ← (makeMatcher 60 s.t (s.patterns.map PatternInfo.spec) args.length ⟨false, false⟩).toOption
    processAll 60 exampleRoot app ⟨args, s.reg, s.patterns⟩ s.t m parents offset w
  | .error _ => none

/-- No delegation. -/
def noDeleg : Nat → List (Level (List Event)) → Nat → List Event → Int × List Event := fun _ _ _ w => (0, w)

/-- C90: the function of a pattern is called, and returns 7. If the pattern is not completing, `process()` returns false, and the exit status is lost. -/
theorem C90_nonzero_status_dropped :
    exampleCommand [] [⟨[120], 0, .func .nil⟩] [[112], [120]] (exampleApp noDeleg) [] 1 [] = some (false, none, [.called 0 .nil]) ∧
    exampleCommand [] [⟨[120], 1, .func .nil⟩] [[112], [120]] (exampleApp noDeleg) [] 1 [] = some (true, some 7, [.called 0 .nil]) := by
  decide +kernel

/-- C90: `p get -b -f 1 x --foo=2` is a match of `get [<a>]`. Options are acted on first. -/
example : exampleCommand [exampleF, exampleB'] [⟨[103, 101, 116, 32, 91, 60, 97, 62, 93], 1, .func (.cons (.optional .other) .nil)⟩]
    [[112], [103, 101, 116], [45, 98], [45, 102], [49], [120], [45, 45, 102, 111, 111, 61, 50]] (exampleApp noDeleg) [] 1 [] =
      some (true, some 7, [.acted 1 none, .acted 0 (some [49]), .acted 0 (some [50]), .called 0 (.cons (.present (.arg 5)) .nil)]) := by
  decide +kernel

/-- C90: in `p get !x --foo=!`, both arguments are bad. The errors are in the order of arguments. -/
example : exampleCommand [exampleF, exampleB'] [⟨[103, 101, 116, 32, 91, 60, 97, 62, 93], 1, .func (.cons (.optional .other) .nil)⟩]
    [[112], [103, 101, 116], [33, 120], [45, 45, 102, 111, 111, 61, 33]] (exampleApp noDeleg) [] 1 [] =
      some (true, some 1, [.acted 0 (some [33]), .logged (.badPatternArg [33, 120]), .logged (.badOptionArg [33] [45, 45, 102, 111, 111])]) := by
  decide +kernel

/-- A processor with the option `-f, --foo <x>`, which leaves everything after `get` to a processor with the option `-b`, and the pattern `[<a>]`. -/
def exampleTwo (args : List Str) : Option (Result (List Event)) :=
  exampleCommand [exampleF] [⟨[103, 101, 116], 0, .deleg⟩] args (exampleApp fun _ parents d w =>
    match exampleCommand [exampleB'] [⟨[91, 60, 97, 62, 93], 1, .func (.cons (.optional .other) .nil)⟩] args (exampleApp noDeleg) parents d w with
    | some (_, some x, w) => (x, w)
    | _ => (100, w)) [] 1 []

/-- C90: `p -f 1 get -b x`. -/
example : exampleTwo [[112], [45, 102], [49], [103, 101, 116], [45, 98], [120]] =
    some (true, some 7, [.acted 0 (some [49]), .acted 0 none, .called 0 (.cons (.present (.arg 5)) .nil)]) := by
  decide +kernel

/-- C90: `p -f ! get -b x y`, that is, a bad argument of an option of the first processor, which is found by the second one, and an argument that is
extraneous to the second one. -/
example : exampleTwo [[112], [45, 102], [33], [103, 101, 116], [45, 98], [120], [121]] =
    some (true, some 1, [.acted 0 (some [33]), .acted 0 none, .logged (.badOptionArg [33] [45, 102]), .logged (.extraneous [121] |> .processing)]) := by
  decide +kernel

end Verif.CliProc
