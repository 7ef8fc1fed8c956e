import Verif.CliProc.TokLemmas
import Verif.CliProc.Walk
/-!
The steps of the processor.
-/
namespace Verif.CliProc

open Verif.CliPattern Verif.CliSpec

/-- `Ends c l s R`: From the label, the result is `R`, if the limit on the number of steps is high enough. -/
def Ends (c : Ctx) (l : Label) (s : St) (R : Outcome × St) : Prop := ∃ n, ∀ fuel, n ≤ fuel → run c fuel l s = some R

/-- If the result is known from `l'`, then it is known from `l`. -/
def Goes (c : Ctx) (l : Label) (s : St) (l' : Label) (s' : St) : Prop := ∀ R, Ends c l' s' R → Ends c l s R

section
variable {c : Ctx}

theorem Ends.unique {l : Label} {s : St} {R R' : Outcome × St} (h : Ends c l s R) (h' : Ends c l s R') : R = R' := by
  obtain ⟨n, h⟩ := h
  obtain ⟨n', h'⟩ := h'
  have := h (max n n') (by omega)
  rw [h' (max n n') (by omega)] at this
  exact (Option.some.inj this).symm

theorem Goes.refl (l : Label) (s : St) : Goes c l s l s := fun _ h => h

theorem Goes.trans {l l' l'' : Label} {s s' s'' : St} (h : Goes c l s l' s') (h' : Goes c l' s' l'' s'') : Goes c l s l'' s'' := fun R hR => h R (h' R hR)

theorem goes {l l' : Label} {s s' : St} (h : step c s l = some (.goto l' s')) : Goes c l s l' s' := by
  rintro R ⟨n, hn⟩
  refine ⟨n + 1, fun fuel hf => ?_⟩
  obtain ⟨fuel, rfl⟩ : ∃ f, fuel = f + 1 := ⟨fuel - 1, by omega⟩
  simp only [run, h, Option.bind_eq_bind, Option.bind_some]
  exact hn fuel (by omega)

theorem goes_back {l l' : Label} {s s' : St} (h : step c s l = some (.goto l' s')) : Goes c l' s' l s := by
  rintro R ⟨n, hn⟩
  refine ⟨n, fun fuel hf => ?_⟩
  have := hn (fuel + 1) (by omega)
  simpa only [run, h, Option.bind_eq_bind, Option.bind_some] using this

theorem ends {l : Label} {s s' : St} {o : Outcome} (h : step c s l = some (.ret o s')) : Ends c l s (o, s') := by
  refine ⟨1, fun fuel hf => ?_⟩
  obtain ⟨fuel, rfl⟩ : ∃ f, fuel = f + 1 := ⟨fuel - 1, by omega⟩
  simp only [run, h, Option.bind_eq_bind, Option.bind_some]

end

/-- The state of the processor is what it should be. -/
structure Rel (D : Cmd) (c : Ctx) (m : Matcher) (err : Bool) (errs : List (Nat × Message)) (invs : List Invocation) (s : St) (a : Progress) : Prop where
  tracks : Tracks c m a.toks s.matcher
  matching : s.hasMatchError = !a.matching
  errors : s.errors = errs ++ a.reports
  hasError : s.hasError = (err || !a.reports.isEmpty)
  given : ∃ l, s.invocations = invs ++ l ∧ List.Forall₂ (Shows c.args) l a.given
  off : a.matching = false → a.reports ≠ [] ∧ ¬ D.MayDelegate a.word

/-- Only parts of the state that are covered by `Rel` have been changed. -/
structure Frame (s s' : St) : Prop where
  argIndex : s'.argIndex = s.argIndex
  valuesOnly : s'.valuesOnly = s.valuesOnly
  offset : s'.offset = s.offset
  arg1 : s'.arg1 = s.arg1
  occ : s'.occ = s.occ

section
variable {D : Cmd} {c : Ctx} {m : Matcher} (hs : Serves D c m) {err : Bool} {errs : List (Nat × Message)} {invs : List Invocation}

theorem Rel.report {s : St} {a : Progress} (h : Rel D c m err errs invs s a) (i : Nat) (msg : Message) :
    Rel D c m err errs invs (s.error i msg) (a.report i msg) where
  tracks := h.tracks
  matching := h.matching
  errors := by simp [St.error, Progress.report, h.errors]
  hasError := by simp [St.error, Progress.report]
  given := h.given
  off := fun hm => ⟨by simp [Progress.report], (h.off hm).2⟩

theorem Rel.hasError_of {s : St} {a : Progress} (h : Rel D c m err errs invs s a) (ha : a.reports ≠ []) : s.hasError = true := by
  rw [h.hasError]
  cases hr : a.reports with
  | nil => exact absurd hr ha
  | cons => simp

include hs

/-- From label `pattern_match_error`, after the error has been reported. -/
theorem matchError_lemma {s : St} {a : Progress} (h : Rel D c m err errs invs s a) (ha : a.reports ≠ []) :
    (¬ D.MayDelegate a.word ∧ ∃ s', Goes c .matchError s .maybeShort s' ∧ Frame s s' ∧ Rel D c m err errs invs s' { a with matching := false }) ∨
    (D.MayDelegate a.word ∧ Ends c .matchError s (.failed, s)) := by
  obtain ⟨b, hb, hb'⟩ := hs.canDelegate _ _ h.tracks
  cases b with
  | false =>
    have hd : ¬ D.MayDelegate a.word := fun hd => by simpa using hb'.2 hd
    refine Or.inl ⟨hd, { s with hasMatchError := true }, goes (by simp [step, matchError, hb]), ⟨rfl, rfl, rfl, rfl, rfl⟩, ?_⟩
    exact ⟨h.tracks, rfl, h.errors, h.hasError, h.given, fun _ => ⟨ha, hd⟩⟩
  | true =>
    refine Or.inr ⟨hb'.1 rfl, goes (l' := .error) (s' := s) (by simp [step, matchError, hb]) _ (ends ?_)⟩
    simp [step, h.hasError_of ha]

/-- From label `rejected_pattern_arg`. -/
theorem rejected_lemma {s : St} {a : Progress} (h : Rel D c m err errs invs s a) (ha : a.matching = true) {t : Tok} (hb : ¬ D.Begins (a.word ++ [t])) :
    (∃ a' s', Goes c .rejected s .maybeShort s' ∧ Frame s s' ∧ Rel D c m err errs invs s' a' ∧ TokStep D s.argIndex s.arg1 t a none a') ∨
    ∃ a' s', Ends c .rejected s (.failed, s') ∧ Rel D c m err errs invs s' a' ∧ TokStep D s.argIndex s.arg1 t a (some .failed) a' := by
  obtain ⟨b, hb1, hb2⟩ := hs.canConsume _ _ h.tracks
  have hm : s.hasMatchError = false := by rw [h.matching, ha]; rfl
  obtain ⟨msg, hR, hG⟩ : ∃ msg, D.Rejection a.word s.arg1 msg ∧ Goes c .rejected s .matchError (s.error s.argIndex msg) := by
    cases b with
    | true => exact ⟨_, Or.inl ⟨hb2.1 rfl, rfl⟩, goes (by simp [step, rejected, hm, hb1])⟩
    | false => exact ⟨_, Or.inr ⟨fun hg => by simpa using hb2.2 hg, rfl⟩, goes (by simp [step, rejected, hm, hb1])⟩
  rcases matchError_lemma hs (h.report s.argIndex msg) (by simp [Progress.report]) with ⟨h1, s', h2, h3, h4⟩ | ⟨h1, h2⟩
  · exact Or.inl ⟨_, s', hG.trans h2, ⟨h3.1, h3.2, h3.3, h3.4, h3.5⟩, h4, .go hb hR h1⟩
  · exact Or.inr ⟨_, _, hG _ h2, h.report s.argIndex msg, .stop hb hR h1⟩

/-- The option was looked up. -/
structure Looked (D : Cmd) (c : Ctx) (n : OptName) (s : St) : Prop where
  proto : protoNamed c.reg n = some s.protoIndex
  inPattern : s.optInPattern = true ↔ D.InPattern n
  opt : (s.opt = none ∧ ∀ j, ¬ Has D.os j n) ∨ ∃ j o, s.opt = some (j, o) ∧ Has D.os j n ∧ (o.arg.allow = true ↔ D.Allows n) ∧
    (o.arg.require = true ↔ D.Requires n) ∧ (o.shortCircuit = true ↔ D.Shorts n) ∧ (o.furtherArgs = true ↔ D.EndsOptions n)

theorem unpack_lemma {n : OptName} {i : Nat} (hn : protoNamed c.reg n = some i) (s : St) :
    ∃ s', s.unpack c i = some s' ∧ Looked D c n s' ∧ Frame s s' ∧ ∀ a, Rel D c m err errs invs s a → Rel D c m err errs invs s' a := by
  obtain ⟨p, h1, h2, h3⟩ := hs.proto n i hn
  cases ho : p.optionIndex with
  | none =>
    refine ⟨{ s with protoIndex := i, optInPattern := p.patternIndex.isSome, opt := none }, ?_, ⟨hn, h2, Or.inl ⟨rfl, ?_⟩⟩, ⟨rfl, rfl, rfl, rfl, rfl⟩, ?_⟩
    · simp only [St.unpack, h1, Option.bind_eq_bind, Option.bind_some, ho]
    · intro j hj; rw [← h3 j, ho] at hj; cases hj
    · exact fun a h => ⟨h.1, h.2, h.3, h.4, h.5, h.6⟩
  | some j =>
    have hj := (h3 j).1 ho
    obtain ⟨o, h4, h5⟩ := hs.option n j hj
    refine ⟨{ s with protoIndex := i, optInPattern := p.patternIndex.isSome, opt := some (j, o) }, ?_, ⟨hn, h2, Or.inr ⟨j, o, rfl, hj, h5⟩⟩,
      ⟨rfl, rfl, rfl, rfl, rfl⟩, ?_⟩
    · simp only [St.unpack, h1, Option.bind_eq_bind, Option.bind_some, ho, h4]
    · exact fun a h => ⟨h.1, h.2, h.3, h.4, h.5, h.6⟩

omit hs in
theorem Looked.allow {n : OptName} {s : St} (hl : Looked D c n s) : s.allow = true ↔ D.Allows n := by
  rcases hl.opt with ⟨h1, h2⟩ | ⟨j, o, h1, h2, h3, _⟩
  · simp only [St.allow, h1, Bool.false_eq_true, false_iff]
    rintro ⟨j, _, h3, _⟩
    exact h2 j h3
  · simp only [St.allow, h1]; exact h3

omit hs in
theorem Looked.require {n : OptName} {s : St} (hl : Looked D c n s) : s.require = true ↔ D.Requires n := by
  rcases hl.opt with ⟨h1, h2⟩ | ⟨j, o, h1, h2, _, h3, _⟩
  · simp only [St.require, h1, Bool.false_eq_true, false_iff]
    rintro ⟨j, _, h3, _⟩
    exact h2 j h3
  · simp only [St.require, h1]; exact h3

theorem consumeOption_lemma {n : OptName} {l : Label} {s0 s : St} (hst : step c s0 l = consumeOption s) {a : Progress} (h : Rel D c m err errs invs s a)
    (hl : protoNamed c.reg n = some s.protoIndex) (hp : s.optInPattern = true ↔ D.InPattern n) (hi : s.argIndex < c.args.length) :
    (∃ a' s', Goes c l s0 .maybeShort s' ∧ Frame s s' ∧ Rel D c m err errs invs s' a' ∧
      ((¬ D.InPattern n ∨ a.matching = false) ∧ a' = a ∨ D.InPattern n ∧ a.matching = true ∧ TokStep D s.argIndex s.arg1 (.option n) a none a')) ∨
    ∃ a' s', Ends c l s0 (.failed, s') ∧ Rel D c m err errs invs s' a' ∧ D.InPattern n ∧ a.matching = true ∧
      TokStep D s.argIndex s.arg1 (.option n) a (some .failed) a' := by
  by_cases hin : D.InPattern n
  · have hin' := hp.2 hin
    cases ha : a.matching with
    | false =>
      refine Or.inl ⟨a, s, goes (by rw [hst]; simp [consumeOption, h.matching, ha]), ⟨rfl, rfl, rfl, rfl, rfl⟩, h, Or.inl ⟨Or.inr rfl, rfl⟩⟩
    | true =>
      have hm : s.hasMatchError = false := by rw [h.matching, ha]; rfl
      rcases hs.consume _ _ (.option n) ⟨.protoOption, s.protoIndex⟩ s.argIndex h.tracks hi (by simp [symOf, hl]) with ⟨h1, m', h2, h3⟩ | ⟨h1, h2⟩
      · refine Or.inl ⟨_, { s with matcher := m' }, goes (by rw [hst]; simp [consumeOption, hin', hm, h2]), ⟨rfl, rfl, rfl, rfl, rfl⟩, ?_,
          Or.inr ⟨hin, rfl, .take h1⟩⟩
        exact ⟨h3, h.matching, h.errors, h.hasError, h.given, fun h' => by simp [ha] at h'⟩
      · have hG : Goes c l s0 .rejected s := goes (by rw [hst]; simp [consumeOption, hin', hm, h2])
        rcases rejected_lemma hs h ha (t := .option n) h1 with ⟨a', s', h3, h4, h5, h6⟩ | ⟨a', s', h3, h5, h6⟩
        · exact Or.inl ⟨a', s', hG.trans h3, h4, h5, Or.inr ⟨hin, rfl, h6⟩⟩
        · exact Or.inr ⟨a', s', hG _ h3, h5, hin, rfl, h6⟩
  · have hin' : s.optInPattern = false := by cases hx : s.optInPattern <;> simp_all
    exact Or.inl ⟨a, s, goes (by rw [hst]; simp [consumeOption, hin']), ⟨rfl, rfl, rfl, rfl, rfl⟩, h, Or.inl ⟨Or.inl hin, rfl⟩⟩

omit hs in
theorem Rel.give {s : St} {a : Progress} (h : Rel D c m err errs invs s a) {x : Invocation} {g : Nat × Nat × OptName × Option Str}
    (hx : Shows c.args x g) {s' : St} (h1 : s'.matcher = s.matcher) (h2 : s'.hasMatchError = s.hasMatchError) (h3 : s'.errors = s.errors)
    (h4 : s'.hasError = s.hasError) (h5 : s'.invocations = s.invocations ++ [x]) :
    Rel D c m err errs invs s' { a with given := a.given ++ [g] } := by
  obtain ⟨l, h6, h7⟩ := h.given
  exact ⟨h1 ▸ h.tracks, h2 ▸ h.matching, h3 ▸ h.errors, h4 ▸ h.hasError,
    ⟨l ++ [x], by rw [h5, h6, List.append_assoc], List.rel_append h7 (.cons hx .nil)⟩, h.off⟩

/-- From label `option_without_arg`. -/
theorem withoutArg_lemma {n : OptName} {s : St} {a : Progress} (h : Rel D c m err errs invs s a) (hl : Looked D c n s) (hi : s.argIndex < c.args.length)
    (hocc : s.occ.argIndex = s.argIndex ∧ argOf c.args s.occ = some none ∧ c.args[s.argIndex]? = some s.arg1 ∧ optForm s.arg1 s.occ = some (form n))
    (further : Bool) :
    (∃ a' s', Goes c .withoutArg s .maybeShort s' ∧ (s'.argIndex = s.argIndex ∧ s'.offset = s.offset ∧ s'.arg1 = s.arg1 ∧ s'.occ = s.occ) ∧
      (s'.valuesOnly = true ↔ s.valuesOnly = true ∨ D.EndsOptions n) ∧ Rel D c m err errs invs s' a' ∧
      ItemStep D s.argIndex further s.arg1 a (.option n none) none a') ∨
    ∃ o a' s', Ends c .withoutArg s (o, s') ∧ Rel D c m err errs invs s' a' ∧ ItemStep D s.argIndex further s.arg1 a (.option n none) (some o) a' := by
  rcases hl.opt with ⟨h1, h2⟩ | ⟨j, o, h1, h2, h3, h4, h5, h6⟩
  · have hno : ¬ D.Shorts n := by rintro ⟨j, _, h3, _⟩; exact h2 j h3
    have hne : ¬ D.EndsOptions n := by rintro ⟨j, _, h3, _⟩; exact h2 j h3
    rcases consumeOption_lemma hs (l := .withoutArg) (s0 := s) (s := s) (n := n) (by simp [step, withoutArg, h1]) h hl.proto hl.inPattern hi with
      ⟨a', s', h3, h4, h5, h6⟩ | ⟨a', s', h3, h5, h6, h7, h8⟩
    · refine Or.inl ⟨a', s', h3, ⟨h4.1, h4.3, h4.4, h4.5⟩, by simp [h4.2, hne], h5, ?_⟩
      rcases h6 with ⟨h6, rfl⟩ | ⟨h6, h7, h8⟩
      · exact .apart hno (h6.imp id Or.inr) (.other h2)
      · exact .inPattern hno h6 h7 (.other h2) h8
    · exact Or.inr ⟨_, a', s', h3, h5, .inPattern hno h6 h7 (.other h2) h8⟩
  · by_cases hsh : D.Shorts n
    · exact Or.inr ⟨_, a, s, ends (by simp [step, withoutArg, h1, h5.2 hsh]), h, .shorts h2 hsh⟩
    · have hsc : o.shortCircuit = false := by cases hx : o.shortCircuit <;> simp_all
      let s1 : St := { s with invocations := s.invocations ++ [⟨j, s.occ⟩] }
      let s2 : St := if o.furtherArgs then { s1 with valuesOnly := true } else s1
      have hf1 : s2.argIndex = s.argIndex := by simp only [s2]; split <;> rfl
      have hf2 : s2.offset = s.offset := by simp only [s2]; split <;> rfl
      have hf3 : s2.arg1 = s.arg1 := by simp only [s2]; split <;> rfl
      have hf4 : s2.occ = s.occ := by simp only [s2]; split <;> rfl
      have hf5 : s2.protoIndex = s.protoIndex := by simp only [s2]; split <;> rfl
      have hf6 : s2.optInPattern = s.optInPattern := by simp only [s2]; split <;> rfl
      have hf7 : s2.valuesOnly = true ↔ s.valuesOnly = true ∨ D.EndsOptions n := by
        rw [← h6]; simp only [s2]; cases hx : o.furtherArgs <;> simp [s1]
      have hshow : Shows c.args ⟨j, s.occ⟩ (s.argIndex, j, n, none) := ⟨rfl, hocc.1, hocc.2.1, s.arg1, hocc.2.2.1, hocc.2.2.2⟩
      have hR : Rel D c m err errs invs s2 { a with given := a.given ++ [(s.argIndex, j, n, none)] } := by
        refine h.give hshow ?_ ?_ ?_ ?_ ?_ <;> (simp only [s2]; split <;> rfl)
      rcases consumeOption_lemma hs (l := .withoutArg) (s0 := s) (s := s2) (n := n) (by simp [step, withoutArg, h1, hsc, s2, s1]) hR
        (by rw [hf5]; exact hl.proto) (by rw [hf6]; exact hl.inPattern) (by rw [hf1]; exact hi) with
        ⟨a', s', h3, h4, h5, h6⟩ | ⟨a', s', h3, h5, h6, h7, h8⟩
      · refine Or.inl ⟨a', s', h3, ⟨h4.1.trans hf1, h4.3.trans hf2, h4.4.trans hf3, h4.5.trans hf4⟩, by rw [h4.2, hf7], h5, ?_⟩
        rcases h6 with ⟨h6, rfl⟩ | ⟨h6, h7, h8⟩
        · exact .apart hsh (h6.imp id Or.inr) (.declared h2)
        · rw [hf1, hf3] at h8
          exact .inPattern hsh h6 h7 (.declared h2) h8
      · rw [hf1, hf3] at h8
        exact Or.inr ⟨_, a', s', h3, h5, .inPattern hsh h6 h7 (.declared h2) h8⟩

/-- From label `option_with_arg`. -/
theorem withArg_lemma {n : OptName} {s : St} {a : Progress} (h : Rel D c m err errs invs s a) (hl : Looked D c n s) (hal : D.Allows n) {i : Nat} {v : Str}
    {arg : Str} (hocc : s.occ.argIndex = i ∧ argOf c.args s.occ = some (some v) ∧ c.args[i]? = some arg ∧ optForm arg s.occ = some (form n))
    (further : Bool) :
    ∃ a' s', Goes c .withArg s .nextArg1 s' ∧ Frame s s' ∧ Rel D c m err errs invs s' a' ∧
      ItemStep D i further arg a (.option n (some v)) none a' := by
  have hin : s.optInPattern = false := by
    cases hx : s.optInPattern with
    | false => rfl
    | true => exact absurd hal (hs.plain n (hl.inPattern.1 hx)).1
  rcases hl.opt with ⟨h1, h2⟩ | ⟨j, o, h1, h2, _⟩
  · obtain ⟨j, _, h3, _⟩ := hal
    exact absurd h3 (h2 j)
  · refine ⟨_, { s with invocations := s.invocations ++ [⟨j, s.occ⟩] }, goes (by simp [step, withArg, h1, hin]), ⟨rfl, rfl, rfl, rfl, rfl⟩,
      h.give (x := ⟨j, s.occ⟩) (g := (i, j, n, some v)) ⟨rfl, hocc.1, hocc.2.1, arg, hocc.2.2.1, hocc.2.2.2⟩ rfl rfl rfl rfl rfl, ?_⟩
    exact .apart (hs.allows n hal).1 (Or.inr (Or.inl (by simp))) (.declared h2)

/-- From label `unknown_option`. -/
theorem unknown_lemma {n : OptName} {s : St} {a : Progress} (h : Rel D c m err errs invs s a) (hform : optForm s.arg1 s.occ = some (form n))
    (further : Bool) :
    (∃ a' s', Goes c .unknown s .nextArg1 s' ∧ (s'.argIndex = s.argIndex ∧ s'.valuesOnly = s.valuesOnly) ∧ Rel D c m err errs invs s' a' ∧
      ItemStep D s.argIndex further s.arg1 a (.unknown n (decide (s.occ.nameBegin = s.occ.leadEnd))) none a') ∨
    ∃ o a' s', Ends c .unknown s (o, s') ∧ Rel D c m err errs invs s' a' ∧
      ItemStep D s.argIndex further s.arg1 a (.unknown n (decide (s.occ.nameBegin = s.occ.leadEnd))) (some o) a' := by
  let s1 : St := { s with offset := s.arg1.length }
  have h1 : Rel D c m err errs invs s1 a := ⟨h.1, h.2, h.3, h.4, h.5, h.6⟩
  have hG : Goes c .unknown s .matchError (s1.error s.argIndex (unknownMessage n (decide (s.occ.nameBegin = s.occ.leadEnd)) s.arg1)) := by
    apply goes
    by_cases hx : s.occ.nameBegin = s.occ.leadEnd
    · simp [step, unknownOption, hform, hx, unknownMessage, s1]
    · simp [step, unknownOption, hform, hx, unknownMessage, s1]
  rcases matchError_lemma hs (h1.report s.argIndex (unknownMessage n (decide (s.occ.nameBegin = s.occ.leadEnd)) s.arg1)) (by simp [Progress.report]) with
    ⟨h2, s', h3, h4, h5⟩ | ⟨h2, h3⟩
  · have hG2 : Goes c .maybeShort s' .nextArg1 s' := by
      apply goes
      have : s'.offset = s'.arg1.length := by rw [h4.offset, h4.arg1]; rfl
      simp [step, this]
    exact Or.inl ⟨_, s', (hG.trans h3).trans hG2, ⟨h4.argIndex, h4.valuesOnly⟩, h5, .unknownGo h2⟩
  · exact Or.inr ⟨_, _, _, hG _ h3, h1.report _ _, .unknownStop h2⟩

omit hs

/-- From label `missing_option_arg`. -/
theorem missing_lemma {n : OptName} {s : St} {a : Progress} (h : Rel D c m err errs invs s a) (hform : optForm s.arg1 s.occ = some (form n))
    (hoff : s.offset = s.arg1.length) (further : Bool) :
    ∃ a' s', Goes c .missing s .nextArg1 s' ∧ (s'.argIndex = s.argIndex ∧ s'.valuesOnly = s.valuesOnly) ∧ Rel D c m err errs invs s' a' ∧
      ItemStep D s.argIndex further s.arg1 a (.missing n (decide (s.occ.nameBegin = s.occ.leadEnd))) none a' := by
  refine ⟨_, s.error s.argIndex (missingMessage n (decide (s.occ.nameBegin = s.occ.leadEnd)) s.arg1), goes ?_, ⟨rfl, rfl⟩, h.report _ _, .missing⟩
  by_cases hx : s.occ.nameBegin = s.occ.leadEnd
  · simp [step, missingArg, hform, hx, missingMessage, hoff]
  · simp [step, missingArg, hform, hx, missingMessage]

/-- From label `no_option_arg_allowed`. -/
theorem notAllowed_lemma {n : OptName} {s : St} {a : Progress} (h : Rel D c m err errs invs s a) (hform : optForm s.arg1 s.occ = some (form n))
    {v : Str} (hv : substr s.arg1 s.offset s.arg1.length = some v) (further : Bool) :
    ∃ a' s', Goes c .notAllowed s .nextArg1 s' ∧ (s'.argIndex = s.argIndex ∧ s'.valuesOnly = s.valuesOnly) ∧ Rel D c m err errs invs s' a' ∧
      ItemStep D s.argIndex further s.arg1 a (.unexpected n v) none a' :=
  ⟨_, s.error s.argIndex (.notAllowed v (form n) s.arg1), goes (by simp [step, notAllowed, hform, hv]), ⟨rfl, rfl⟩, h.report _ _, .unexpected⟩

end

end Verif.CliProc
