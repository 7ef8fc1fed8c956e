import Verif.StringMatcher.Dfa
/-!
Property theorems about the string matcher (claims C36 and C37).
-/
namespace Verif.StringMatcher
open Spec (Op held Matches FirstMatch Ambiguous)

variable {lo hi star : Int}

/-- The operations on a builder. -/
def step (star : Int) (b : Builder) : Op → Option Builder
  | .add p i => b.addPattern star p i
  | .clear => some b.clear

/-- A sequence of operations on a builder. -/
def steps (star : Int) : List Op → Builder → Option Builder
  | [], b => some b
  | op :: ops, b => do steps star ops (← step star b op)

theorem steps_spec (ops : List Op) :
    ∃ b, steps star ops Builder.init = some b ∧ Inv star ((held ops).map (·.1)) b ∧ b.patterns = (held ops).map (·.2) := by
  have key : ∀ (ops : List Op) (b : Builder) (ps : List (List Int × Nat)), Inv star (ps.map (·.1)) b → b.patterns = ps.map (·.2) →
      ∃ b', steps star ops b = some b' ∧ Inv star ((ops.foldl (fun ps op => match op with
        | .add p i => ps ++ [(p, i)]
        | .clear => []) ps).map (·.1)) b' ∧ b'.patterns = (ops.foldl (fun ps op => match op with
        | .add p i => ps ++ [(p, i)]
        | .clear => []) ps).map (·.2) := by
    intro ops
    induction ops with
    | nil => intro b ps h1 h2; exact ⟨b, rfl, h1, h2⟩
    | cons op ops ih =>
      intro b ps h1 h2
      cases op with
      | add p i =>
        obtain ⟨b1, h3, h4, h5⟩ := addPattern_spec h1 p i
        obtain ⟨b2, h6, h7⟩ := ih b1 (ps ++ [(p, i)]) (by simpa using h4) (by rw [h5, h2]; simp)
        exact ⟨b2, by simp only [steps, step, h3, Option.bind_eq_bind, Option.bind_some, h6], h7⟩
      | clear =>
        obtain ⟨b2, h6, h7⟩ := ih b.clear [] (inv_clear h1) rfl
        exact ⟨b2, by simp only [steps, step, Option.bind_eq_bind, Option.bind_some, h6], h7⟩
  exact key ops Builder.init [] inv_init rfl

theorem held_valid {ops : List Op} (h : ∀ op ∈ ops, op.Valid lo hi) : ∀ P ∈ (held ops).map (·.1), Str lo hi P := by
  have key : ∀ (ops : List Op) (ps : List (List Int × Nat)), (∀ op ∈ ops, op.Valid lo hi) → (∀ P ∈ ps.map (·.1), Str lo hi P) →
      ∀ P ∈ (ops.foldl (fun ps op => match op with
        | .add p i => ps ++ [(p, i)]
        | .clear => []) ps).map (·.1), Str lo hi P := by
    intro ops
    induction ops with
    | nil => intro ps _ h; exact h
    | cons op ops ih =>
      intro ps hv hp
      cases op with
      | add p i =>
        refine ih _ (fun o ho => hv o (List.mem_cons_of_mem _ ho)) ?_
        intro P hP
        rw [List.map_append, List.mem_append] at hP
        rcases hP with hP | hP
        · exact hp P hP
        · simp at hP; subst hP; exact hv _ List.mem_cons_self
      | clear => exact ih _ (fun o ho => hv o (List.mem_cons_of_mem _ ho)) (by simp)
  exact key ops [] h (by simp)

theorem firstMatch_iff {Ps : List (List Int)} {b : Builder} (h : Inv star Ps b) {w : List Int} {i : Nat} :
    (b.fin (b.run b.startPositions w)).head? = some i ↔ FirstMatch star Ps w i := by
  have hpw := fin_pairwise h (run_sorted h.wf h.startSorted w) (run_lt h w)
  have hm := fun j => mem_fin h (w := w) (i := j)
  generalize b.fin (b.run b.startPositions w) = l at hpw hm
  have hmem : ∀ j, j ∈ l ↔ ∃ hj : j < Ps.length, Matches star Ps[j] w := by
    intro j
    rw [hm]
    constructor
    · rintro ⟨P, h1, h2⟩
      obtain ⟨h3, rfl⟩ := List.getElem?_eq_some_iff.1 h1
      exact ⟨h3, h2⟩
    · rintro ⟨hj, h2⟩; exact ⟨_, List.getElem?_eq_getElem hj, h2⟩
  constructor
  · intro hh
    rcases l with _ | ⟨x, l⟩
    · simp at hh
    · simp at hh; subst hh
      obtain ⟨h1, h2⟩ := (hmem x).1 List.mem_cons_self
      refine ⟨h1, h2, fun j hj hmj => ?_⟩
      rcases List.mem_cons.1 ((hmem j).2 ⟨by omega, hmj⟩) with rfl | hin
      · omega
      · have := (List.pairwise_cons.1 hpw).1 j hin; omega
  · rintro ⟨h1, h2, h3⟩
    have hin := (hmem i).2 ⟨h1, h2⟩
    rcases l with _ | ⟨x, l⟩
    · simp at hin
    · obtain ⟨h4, h5⟩ := (hmem x).1 List.mem_cons_self
      rcases List.mem_cons.1 hin with rfl | hin
      · rfl
      · exact absurd h5 (h3 x ((List.pairwise_cons.1 hpw).1 i hin))

/-- C36. For every history of a builder (patterns added and removed): the operations succeed, and a matcher can be built if
ambiguity is allowed. For every matcher that is built, and for every string, the match succeeds without undefined behavior; if the
result is negative, then no pattern matches the string, and otherwise it is the identity of the first pattern (in order of
addition) that matches the string. -/
theorem C36_match (hlh : lo ≤ hi) (ops : List Op) (hv : ∀ op ∈ ops, op.Valid lo hi) :
    ∃ b, steps star ops Builder.init = some b ∧ (∃ m, b.build lo hi true = .ok m) ∧
      ∀ allow m, b.build lo hi allow = .ok m → ∀ w, (∀ c ∈ w, lo ≤ c ∧ c ≤ hi) →
        ∃ r, m.match w = some r ∧
          match r with
          | none => ∀ i, ¬ FirstMatch star ((held ops).map (·.1)) w i
          | some ident => ∃ i, FirstMatch star ((held ops).map (·.1)) w i ∧ ((held ops).map (·.2))[i]? = some ident := by
  obtain ⟨b, h1, h2, h3⟩ := steps_spec (star := star) ops
  have hr := held_valid hv
  refine ⟨b, h1, ?_, ?_⟩
  · rcases buildDfa_spec h2 hlh hr true with ⟨d, K, h4, _⟩ | ⟨h4, _⟩
    · exact ⟨_, by rw [Builder.build, h4]; rfl⟩
    · simp at h4
  · intro allow m hm w hw
    rcases buildDfa_spec h2 hlh hr allow with ⟨d, K, h4, h5, h6⟩ | ⟨_, _, p, p', _, _, _, h4⟩
    · rw [Builder.build, h4] at hm
      simp only [bind, Except.bind, Except.ok.injEq] at hm
      subst hm
      rw [Matcher.match]
      by_cases hp : b.patterns = []
      · simp only [hp, ne_eq, not_true_eq_false, if_false]
        refine ⟨none, rfl, fun i hf => ?_⟩
        obtain ⟨hlt, _⟩ := hf
        have := h2.count
        rw [hp] at this
        simp at hlt this
        omega
      · simp only [ne_eq, hp, not_false_eq_true, if_true]
        have hlt := (List.getElem?_eq_some_iff.1 h5.first).1
        obtain ⟨st, hst⟩ : ∃ s, d.states[0]? = some s := ⟨_, List.getElem?_eq_getElem (by omega)⟩
        obtain ⟨S, h7, h8⟩ := h5.states 0 st hst
        rw [h5.first] at h7
        injection h7 with h7; subst h7
        obtain ⟨r, h9, h10⟩ := matchLoop_spec h5 h6 b.patterns w hw h8
        simp only [hst, Option.bind_eq_bind, Option.bind_some, h9]
        rcases r with _ | st'
        · refine ⟨none, rfl, fun i hf => ?_⟩
          rw [← firstMatch_iff h2, ← h10] at hf
          simp at hf
        · simp only [Option.bind_some] at h10 ⊢
          cases hpi : st'.patternIndex with
          | none =>
            refine ⟨none, rfl, fun i hf => ?_⟩
            rw [← firstMatch_iff h2, ← h10, hpi] at hf
            simp at hf
          | some i =>
            rw [hpi] at h10
            have hf := (firstMatch_iff h2).1 h10.symm
            have hi' := hf.1
            rw [← h2.count] at hi'
            simp only [List.getElem?_eq_getElem hi', Option.bind_some]
            exact ⟨_, rfl, i, hf, by rw [← h3, List.getElem?_eq_getElem hi']⟩
    · rw [Builder.build, h4] at hm
      simp [bind, Except.bind] at hm

/-- Some pattern matches if there is a first one. -/
theorem firstMatch_exists {Ps : List (List Int)} {w : List Int} : (∃ i, FirstMatch star Ps w i) ↔ ∃ P ∈ Ps, Matches star P w := by
  constructor
  · rintro ⟨i, h1, h2, _⟩; exact ⟨_, List.getElem_mem h1, h2⟩
  · rintro ⟨P, h1, h2⟩
    obtain ⟨i, hi, rfl⟩ := List.mem_iff_getElem.1 h1
    induction i using Nat.strong_induction_on with
    | _ i ih =>
      by_cases hex : ∃ j, ∃ hj : j < i, Matches star (Ps[j]'(by omega)) w
      · obtain ⟨j, hj, hm⟩ := hex
        exact ih j hj (by omega) (List.getElem_mem _) hm
      · exact ⟨i, hi, h2, fun j hj hm => hex ⟨j, hj, hm⟩⟩

/-- C36. A matcher that is default constructed, or that is built from a builder without patterns, is degenerate, and no string is
matched by it. A matcher built from a builder with patterns is not degenerate. -/
theorem C36_degenerate (hlh : lo ≤ hi) (ops : List Op) (hv : ∀ op ∈ ops, op.Valid lo hi) :
    Matcher.init.isDegenerate = true ∧ (∀ w, Matcher.init.match w = some none) ∧
    ∀ b, steps star ops Builder.init = some b → (b.empty = true ↔ held ops = []) ∧
      ∀ m, b.build lo hi true = .ok m → (m.isDegenerate = true ↔ held ops = []) := by
  refine ⟨rfl, fun w => rfl, fun b hb => ?_⟩
  obtain ⟨b', h1, h2, h3⟩ := steps_spec (star := star) ops
  rw [hb] at h1
  injection h1 with h1; subst h1
  have hp : b.patterns = [] ↔ held ops = [] := by rw [h3]; simp
  refine ⟨by rw [Builder.empty, List.isEmpty_iff, hp], fun m hm => ?_⟩
  rcases buildDfa_spec h2 hlh (held_valid hv) true with ⟨d, K, h4, _⟩ | ⟨h4, _⟩
  · rw [Builder.build, h4] at hm
    simp only [bind, Except.bind, Except.ok.injEq] at hm
    subst hm
    rw [Matcher.isDegenerate, List.isEmpty_iff, hp]
  · simp at h4

/-- C37. For every history of a builder: when ambiguity is disallowed, building fails exactly if there is a string that is matched
by two patterns. It never fails for another reason, and two patterns that match a common string are identified. -/
theorem C37_ambiguity (hlh : lo ≤ hi) (ops : List Op) (hv : ∀ op ∈ ops, op.Valid lo hi) :
    ∃ b, steps star ops Builder.init = some b ∧
      ((∃ m, b.build lo hi false = .ok m) ↔ ¬ Ambiguous star lo hi ((held ops).map (·.1))) ∧
      ∀ e, b.build lo hi false = .error e → ∃ i j, e = .ambiguity i j ∧ i < j ∧ ∃ P Q w, ((held ops).map (·.1))[i]? = some P ∧
        ((held ops).map (·.1))[j]? = some Q ∧ (∀ c ∈ w, lo ≤ c ∧ c ≤ hi) ∧ Matches star P w ∧ Matches star Q w := by
  obtain ⟨b, h1, h2, h3⟩ := steps_spec (star := star) ops
  have hr := held_valid hv
  refine ⟨b, h1, ?_⟩
  rcases buildDfa_spec h2 hlh hr false with ⟨d, K, h4, h5, h6⟩ | ⟨_, w, p, p', l, hw, hfin, h4⟩
  · refine ⟨⟨fun _ hamb => ?_, fun _ => ⟨_, by rw [Builder.build, h4]; rfl⟩⟩, fun e he => ?_⟩
    · obtain ⟨w, i, j, hij, hj, hw, hm1, hm2⟩ := hamb
      have hpw := fin_pairwise h2 (run_sorted h2.wf h2.startSorted w) (run_lt h2 w)
      have m1 := (mem_fin h2 (w := w) (i := i)).2 ⟨_, List.getElem?_eq_getElem (by omega), hm1⟩
      have m2 := (mem_fin h2 (w := w) (i := j)).2 ⟨_, List.getElem?_eq_getElem hj, hm2⟩
      -- the run over `w` stays within the states
      have key : ∀ (w : List Int) S, S ∈ K → Str lo hi w → b.run S w ≠ [] → b.run S w ∈ K := by
        intro w
        induction w with
        | nil => intro S hS _ _; exact hS
        | cons c w ih =>
          intro S hS hw hne
          rw [Builder.run] at hne ⊢
          refine ih _ ?_ (fun x hx => hw x (List.mem_cons_of_mem _ hx)) hne
          obtain ⟨k, hk⟩ := List.mem_iff_getElem?.1 hS
          have hlt := (List.getElem?_eq_some_iff.1 hk).1
          obtain ⟨st, hst⟩ : ∃ s, d.states[k]? = some s := ⟨_, List.getElem?_eq_getElem (by omega)⟩
          obtain ⟨S', e1, _, _, _, A, e2, e3⟩ := h5.states k st hst
          rw [hk] at e1; injection e1 with e1; subst e1
          have hc := hw c List.mem_cons_self
          have hv := e3.val c hc.1 hc.2
          rcases lowerBound_spec e2 e3.wf c with ⟨t, _, _, v, g3, g4⟩ | ⟨g1, _⟩
          · rw [g4] at hv
            simp only [Option.getD_some] at hv
            rw [← hv]
            exact List.mem_of_getElem? g3
          · rw [g1] at hv
            simp only [Option.getD_none] at hv
            rw [← hv, run_nil] at hne
            exact absurd rfl hne
      have hK := key w b.startPositions (List.mem_of_getElem? h5.first) hw (by
        intro e
        rw [e] at m1; simp [Builder.fin] at m1)
      obtain ⟨k, hk⟩ := List.mem_iff_getElem?.1 hK
      have hlt := (List.getElem?_eq_some_iff.1 hk).1
      obtain ⟨st, hst⟩ : ∃ s, d.states[k]? = some s := ⟨_, List.getElem?_eq_getElem (by omega)⟩
      obtain ⟨S', e1, _, e2, _⟩ := h5.states k st hst
      rw [hk] at e1; injection e1 with e1; subst e1
      have e2' := e2.resolve_left (by simp)
      generalize b.fin (b.run b.startPositions w) = l at e2' m1 m2
      rcases l with _ | ⟨x, _ | ⟨y, l⟩⟩
      · simp at m1
      · simp at m1 m2; omega
      · simp at e2'
    · rw [Builder.build, h4] at he
      simp [bind, Except.bind] at he
  · have hpw := fin_pairwise h2 (run_sorted h2.wf h2.startSorted w) (run_lt h2 w)
    rw [hfin] at hpw
    have hpp : p < p' := (List.pairwise_cons.1 hpw).1 p' List.mem_cons_self
    obtain ⟨P, hP, mP⟩ := (mem_fin h2 (w := w) (i := p)).1 (by rw [hfin]; simp)
    obtain ⟨Q, hQ, mQ⟩ := (mem_fin h2 (w := w) (i := p')).1 (by rw [hfin]; simp)
    refine ⟨⟨?_, fun hna => absurd ?_ hna⟩, fun e he => ?_⟩
    · rintro ⟨m, hm⟩
      rw [Builder.build, h4] at hm
      simp [bind, Except.bind] at hm
    · obtain ⟨l1, rfl⟩ := List.getElem?_eq_some_iff.1 hP
      obtain ⟨l2, rfl⟩ := List.getElem?_eq_some_iff.1 hQ
      exact ⟨w, p, p', hpp, l2, hw, mP, mQ⟩
    · rw [Builder.build, h4] at he
      simp only [bind, Except.bind, Except.error.injEq] at he
      exact ⟨p, p', he.symm, hpp, P, Q, w, hP, hQ, hw, mP, mQ⟩

/-- `foo*`, `*bar` and `foo`, with identities 10, 20 and 30, after a pattern that is removed. -/
def exampleOps : List Op :=
  [.add [120] 5, .clear, .add [102, 111, 111, 42] 10, .add [42, 98, 97, 114] 20, .add [102, 111, 111] 30]

example : ∀ op ∈ exampleOps, op.Valid (-128) 127 := by
  simp [exampleOps, Op.Valid]

-- `foobar` is matched by the first two patterns.
example : FirstMatch 42 ((held exampleOps).map (·.1)) [102, 111, 111, 98, 97, 114] 0 :=
  ⟨by decide, ⟨_, rfl, _, rfl, _, rfl, _, _, (List.append_nil _).symm, rfl⟩, by simp⟩

example : ((steps 42 exampleOps Builder.init).bind fun b => (b.build (-128) 127 true).toOption.bind fun m =>
    some (m.match [102, 111, 111, 98, 97, 114], m.match [98, 97, 114], m.match [98, 97], m.match [120])) =
    some (some (some 10), some (some 20), some none, some none) := by decide +kernel

example : ((steps 42 exampleOps Builder.init).bind fun b => match b.build (-128) 127 false with
    | .error e => some e | .ok _ => none) = some (.ambiguity 0 2) := by decide +kernel

-- Patterns `a*b` and `b*a` are not ambiguous, but `a*` and `*a` are.
example : ((steps 42 [.add [97, 42, 98] 1, .add [98, 42, 97] 2] Builder.init).bind fun b =>
    some (b.build (-128) 127 false).toOption.isSome) = some true := by decide +kernel

example : Ambiguous 42 (-128) 127 [[97, 42], [42, 97]] :=
  ⟨[97], 0, 1, by omega, by decide, by simp, by simp [Matches], by simp [Matches]⟩

end Verif.StringMatcher
