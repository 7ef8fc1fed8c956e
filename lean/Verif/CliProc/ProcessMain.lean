import Verif.CliProc.ArgLemmas
/-!
The result of the processor, and what happens item by item, are determined by the command-line arguments.
-/
namespace Verif.CliProc

open Verif.CliPattern Verif.CliSpec

theorem indexOf_eq {D : Cmd} {further : Bool} {i : Nat} {args : List Str} {gs : List Group} (h : ReadsAll D further i (args.drop i) gs) (hi : i ≤ args.length) :
    indexOf args gs = i := by
  generalize hl : args.drop i = l at h
  cases h with
  | done =>
    have : args.length ≤ i := by simpa using hl
    simp only [indexOf]
    omega
  | one => rfl
  | two => rfl

/-- What is known about the state of the processor at the end. -/
structure Fin (c : Ctx) (m : Matcher) (err : Bool) (errs : List (Nat × Message)) (invs : List Invocation) (s : St) (a : Progress) : Prop where
  tracks : Tracks c m a.toks s.matcher
  errors : s.errors = errs ++ a.reports
  hasError : s.hasError = (err || !a.reports.isEmpty)
  given : ∃ l, s.invocations = invs ++ l ∧ List.Forall₂ (Shows c.args) l a.given

theorem Rel.fin {D : Cmd} {c : Ctx} {m : Matcher} {err : Bool} {errs : List (Nat × Message)} {invs : List Invocation} {s : St} {a : Progress}
    (h : Rel D c m err errs invs s a) : Fin c m err errs invs s a := ⟨h.1, h.3, h.4, h.5⟩

section
variable {D : Cmd} {c : Ctx} {m : Matcher} (hs : Serves D c m) {err : Bool} {errs : List (Nat × Message)} {invs : List Invocation}
include hs

/-- From label `next_arg_2`. -/
theorem next_lemma {s : St} {a : Progress} (h : Rel D c m err errs invs s a) (hi : s.argIndex ≤ c.args.length) :
    (∃ k s', a.matching = true ∧ D.First k a.word ∧ D.IsDeleg k ∧ Ends c .nextArg2 s (.deleg k s.argIndex, s') ∧ Fin c m err errs invs s' a) ∨
    (s.argIndex = c.args.length ∧ ∃ o a' s', Ends c .nextArg2 s (o, s') ∧ Walk D c.args err a [] o a' ∧ Fin c m err errs invs s' a') ∨
    (s.argIndex < c.args.length ∧ (a.matching = true → ∀ k, D.First k a.word → ¬ D.IsDeleg k) ∧ ∃ s', step c s .nextArg2 = readArg c s' ∧
      s'.argIndex = s.argIndex ∧ s'.valuesOnly = s.valuesOnly ∧ Rel D c m err errs invs s' a) := by
  have first_unique : ∀ k k' u, D.First k u → D.First k' u → k = k' := by
    intro k k' u h h'
    rcases Nat.lt_trichotomy k k' with h1 | h1 | h1
    · exact absurd h.1 (h'.2 _ h1)
    · exact h1
    · exact absurd h'.1 (h.2 _ h1)
  cases ha : a.matching with
  | true =>
    have hm : s.hasMatchError = false := by rw [h.matching, ha]; rfl
    rcases hs.isMatch _ _ h.tracks with ⟨k, h1, h2⟩ | ⟨h1, h2⟩
    · obtain ⟨p, h3, h4⟩ := hs.deleg _ _ h2.1
      have hR : Rel D c m err errs invs { s with pat := some k } a := ⟨h.1, h.2, h.3, h.4, h.5, h.6⟩
      by_cases hd : D.IsDeleg k
      · refine Or.inl ⟨k, { s with pat := some k }, rfl, h2, hd, goes (l' := .deleg) (s' := { s with pat := some k }) ?_ _ (ends ?_), hR.fin⟩
        · simp [step, nextArg2, hm, h1, h3, h4.2 hd]
        · simp [step, hm]
      · have hd' : p.action.isDeleg = false := by
          cases hx : p.action.isDeleg with
          | false => rfl
          | true => exact absurd (h4.1 hx) hd
        refine Or.inr ?_
        by_cases hl : s.argIndex = c.args.length
        · refine Or.inl ⟨hl, ?_⟩
          by_cases he : err = false ∧ a.reports = []
          · have hE : s.hasError = false := by rw [h.hasError, he.1, he.2]; rfl
            refine ⟨.invoke k, a, { s with pat := some k }, goes (l' := .invoke) (s' := { s with pat := some k }) ?_ _ (ends ?_), .invoke ha h2 hd he.1 he.2, hR.fin⟩
            · simp [step, nextArg2, hm, h1, h3, hd', hl, hE]
            · simp [step, hm]
          · have he' : err = true ∨ a.reports ≠ [] := by
              cases err
              · exact Or.inr fun hx => he ⟨rfl, hx⟩
              · exact Or.inl rfl
            have hE : s.hasError = true := by
              rcases he' with rfl | he'
              · rw [h.hasError]; rfl
              · exact h.hasError_of he'
            refine ⟨.failed, a, { s with pat := some k }, goes (l' := .error) (s' := { s with pat := some k }) ?_ _ (ends ?_), .error ha h2 hd he', hR.fin⟩
            · simp [step, nextArg2, hm, h1, h3, hd', hl, hE]
            · simp [step, hE]
        · refine Or.inr ⟨by omega, fun _ k' h5 => (first_unique _ _ _ h2 h5) ▸ hd, { s with pat := some k }, ?_, rfl, rfl, hR⟩
          simp [step, nextArg2, hm, h1, h3, hd', hl]
    · refine Or.inr ?_
      by_cases hl : s.argIndex = c.args.length
      · refine Or.inl ⟨hl, .failed, a.report c.args.length .tooFew, { s.error s.argIndex .tooFew with hasMatchError := true },
          goes (l' := .error) (s' := { s.error s.argIndex .tooFew with hasMatchError := true }) ?_ _ (ends ?_), .tooFew ha h2, ?_⟩
        · simp [step, nextArg2, hm, h1, hl]
        · simp [step, St.error]
        · have := h.report s.argIndex .tooFew
          rw [← hl]
          exact ⟨this.1, this.3, this.4, this.5⟩
      · exact Or.inr ⟨by omega, fun _ k' h5 => absurd h5.1 (h2 k'), s, by simp [step, nextArg2, hm, h1, hl], rfl, rfl, h⟩
  | false =>
    have hm : s.hasMatchError = true := by rw [h.matching, ha]; rfl
    have hE := h.hasError_of (h.off ha).1
    refine Or.inr ?_
    by_cases hl : s.argIndex = c.args.length
    · refine Or.inl ⟨hl, .failed, a, s, goes (l' := .error) (s' := s) ?_ _ (ends ?_), .ended ha, h.fin⟩
      · simp [step, nextArg2, hm, hl, hE]
      · simp [step, hE]
    · exact Or.inr ⟨by omega, by simp, s, by simp [step, nextArg2, hm, hl, hE], rfl, rfl, h⟩

/-- From label `next_arg_2` to the end. -/
theorem walk_lemma {further : Bool} {i : Nat} {l : List Str} {gs : List Group} (hR : ReadsAll D further i l gs) :
    l = c.args.drop i → i ≤ c.args.length → ∀ s a, s.argIndex = i → s.valuesOnly = further → Rel D c m err errs invs s a →
    ∃ o a' s', Ends c .nextArg2 s (o, s') ∧ Walk D c.args err a gs o a' ∧ Fin c m err errs invs s' a' := by
  have head : ∀ {further : Bool} {i : Nat} {gs : List Group}, ReadsAll D further i (c.args.drop i) gs → i ≤ c.args.length → ∀ s a, s.argIndex = i →
      Rel D c m err errs invs s a → ∀ {items : List Item}, gs.head?.map Group.items = some items →
      (∃ o a' s', Ends c .nextArg2 s (o, s') ∧ Walk D c.args err a gs o a' ∧ Fin c m err errs invs s' a') ∨
      ((a.matching = true → ∀ k, D.First k a.word → ¬ D.IsDeleg k) ∧ ∃ s', step c s .nextArg2 = readArg c s' ∧ s'.argIndex = i ∧
        s'.valuesOnly = s.valuesOnly ∧ Rel D c m err errs invs s' a) := by
    intro further i gs hR hi s a h1 h items hg
    rcases next_lemma hs h (by omega) with ⟨k, s', h2, h3, h4, h5, h6⟩ | ⟨h2, _⟩ | ⟨_, h2, s', h3, h4, h5, h6⟩
    · have h7 := Walk.deleg (args := c.args) (err := err) (gs := gs) h2 h3 h4
      rw [indexOf_eq hR hi, ← h1] at h7
      exact Or.inl ⟨_, _, _, h5, h7, h6⟩
    · exfalso
      rw [show c.args.drop i = [] by rw [List.drop_eq_nil_iff]; omega] at hR
      cases hR
      cases hg
    · exact Or.inr ⟨h2, s', h3, h4.trans h1, h5, h6⟩
  have glue : ∀ {further further' : Bool} {i : Nat} {arg : Str} {items : List Item} {two : Bool} {gs : List Group},
      ReadsAll D further i (c.args.drop i) (⟨i, further, items⟩ :: gs) → i < c.args.length →
      c.args[i]? = some arg → Reads D further arg c.args[i + 1]? items two →
      (further' = true ↔ further = true ∨ ∃ n v, .option n v ∈ items ∧ D.EndsOptions n) →
      (∀ s a, s.argIndex = i + (if two then 1 else 0) + 1 → s.valuesOnly = further' → Rel D c m err errs invs s a →
        ∃ o a' s', Ends c .nextArg2 s (o, s') ∧ Walk D c.args err a gs o a' ∧ Fin c m err errs invs s' a') →
      ∀ s a, s.argIndex = i → s.valuesOnly = further → Rel D c m err errs invs s a →
      ∃ o a' s', Ends c .nextArg2 s (o, s') ∧ Walk D c.args err a (⟨i, further, items⟩ :: gs) o a' ∧ Fin c m err errs invs s' a' := by
    intro further further' i arg items two gs hRA hi harg hr hf ih s a h1 h2 h
    rcases head hRA (by omega) s a h1 h (items := items) rfl with hd | ⟨hnd, s1, h3, h4, h5, h6⟩
    · exact hd
    · rcases reads_lemma hs h3 harg h4 h5.symm h6 (by rw [h5, h2]; exact hr) with ⟨a', s', h7, h8, h9, h10, h11⟩ | ⟨o, a', s', h7, h8, h9⟩
      · rw [h5, h2] at h11
        have hv : s'.valuesOnly = further' := by
          rw [Bool.eq_iff_iff, h9, hf, h2]
        obtain ⟨o, a'', s'', h12, h13, h14⟩ := ih { s' with argIndex := s'.argIndex + 1 } a' (by simp [h8]) hv ⟨h10.1, h10.2, h10.3, h10.4, h10.5, h10.6⟩
        exact ⟨o, a'', s'', (h7.trans (goes (by simp [step]))) _ h12, .next hnd harg h11 h13, h14⟩
      · rw [h5, h2] at h9
        exact ⟨o, a', s', h7, .stop hnd harg h9, h8.fin⟩
  induction hR with
  | @done further i =>
    intro hl hi s a h1 h2 h
    have hlen : i = c.args.length := by
      have : c.args.length ≤ i := by simpa using hl.symm
      omega
    rcases next_lemma hs h (by omega) with ⟨k, s', h2, h3, h4, h5, h6⟩ | ⟨h2, h3⟩ | ⟨h2, _⟩
    · have h7 := Walk.deleg (args := c.args) (err := err) (gs := []) h2 h3 h4
      rw [indexOf, ← hlen, ← h1] at h7
      exact ⟨_, _, _, h5, h7, h6⟩
    · exact h3
    · omega
  | @one further further' i arg args items gs hr hf hRA ih =>
    intro hl hi
    obtain ⟨hlt, harg, htl⟩ : i < c.args.length ∧ c.args[i]? = some arg ∧ args = c.args.drop (i + 1) := by
      have h1 : (arg :: args)[0]? = (c.args.drop i)[0]? := by rw [hl]
      rw [List.getElem?_drop] at h1
      simp only [List.getElem?_cons_zero, Nat.add_zero] at h1
      have h3 : (arg :: args).drop 1 = (c.args.drop i).drop 1 := by rw [hl]
      rw [List.drop_drop] at h3
      exact ⟨(List.getElem?_eq_some_iff.1 h1.symm).1, h1.symm, h3⟩
    refine glue (two := false) (by rw [← hl]; exact .one hr hf hRA) hlt harg ?_ hf ?_
    · rw [htl] at hr
      simpa [List.head?_drop] using hr
    · intro s a h1 h2 h
      exact ih htl (by omega) s a (by simpa using h1) h2 h
  | @two further further' i arg v args items gs hr hf hRA ih =>
    intro hl hi
    obtain ⟨hlt, harg, hv, htl⟩ : i + 1 < c.args.length ∧ c.args[i]? = some arg ∧ c.args[i + 1]? = some v ∧ args = c.args.drop (i + 2) := by
      have h1 : (arg :: v :: args)[0]? = (c.args.drop i)[0]? := by rw [hl]
      have h2 : (arg :: v :: args)[1]? = (c.args.drop i)[1]? := by rw [hl]
      have h3 : (arg :: v :: args).drop 2 = (c.args.drop i).drop 2 := by rw [hl]
      rw [List.getElem?_drop] at h1 h2
      rw [List.drop_drop] at h3
      exact ⟨(List.getElem?_eq_some_iff.1 h2.symm).1, h1.symm, h2.symm, h3⟩
    refine glue (two := true) (by rw [← hl]; exact .two hr hf hRA) (by omega) harg (by rw [hv]; exact hr) hf ?_
    intro s a h1 h2 h
    exact ih htl (by omega) s a (by simpa using h1) h2 h

end

end Verif.CliProc
