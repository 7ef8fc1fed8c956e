import Verif.TestRunner.Plan

/-!
# Consequences of the invariants
-/

namespace Verif.TestRunner

/-! ## Counting -/

theorem total_fst (tr : List Ev) (p : Ev → Bool) :
    (total tr p).1 = tr.countP (fun ev => p ev && ev.isCheck) := by
  unfold total
  have : ∀ l : List Ev, ((l.filter p).map (weight tr)).sum.1 = l.countP (fun ev => p ev && ev.isCheck) := by
    intro l
    induction l with
    | nil => rfl
    | cons x xs ih =>
      by_cases hp : p x = true
      · rw [List.filter_cons_of_pos hp, List.map_cons, List.sum_cons, Prod.fst_add, ih,
          List.countP_cons]
        cases x <;> simp [weight, Ev.isCheck, hp, Nat.add_comm]
        split <;> rfl
      · rw [List.filter_cons_of_neg hp, ih, List.countP_cons]
        simp [hp]
  exact this tr

theorem total_snd (tr : List Ev) (p : Ev → Bool) :
    (total tr p).2.1 = tr.countP (fun ev => p ev && ev.isFailedCheck) := by
  unfold total
  have : ∀ l : List Ev, ((l.filter p).map (weight tr)).sum.2.1 =
      l.countP (fun ev => p ev && ev.isFailedCheck) := by
    intro l
    induction l with
    | nil => rfl
    | cons x xs ih =>
      by_cases hp : p x = true
      · rw [List.filter_cons_of_pos hp, List.map_cons, List.sum_cons, Prod.snd_add, Prod.fst_add, ih,
          List.countP_cons]
        cases x <;> simp [weight, Ev.isFailedCheck, hp, Nat.add_comm]
        split <;> rfl
      · rw [List.filter_cons_of_neg hp, ih, List.countP_cons]
        simp [hp]
  exact this tr

theorem total_trd (tr : List Ev) (p : Ev → Bool) :
    (total tr p).2.2 = (ends tr).countP (fun x => p (.testEnd x.1 x.2) && failed tr x.2) := by
  unfold total
  have : ∀ l : List Ev, ((l.filter p).map (weight tr)).sum.2.2 =
      (ends l).countP (fun x => p (.testEnd x.1 x.2) && failed tr x.2) := by
    intro l
    induction l with
    | nil => rfl
    | cons x xs ih =>
      have hends : ends (x :: xs) = ends [x] ++ ends xs := ends_append [x] xs
      rw [hends, List.countP_append, ← ih]
      by_cases hp : p x = true
      · rw [List.filter_cons_of_pos hp, List.map_cons, List.sum_cons, Prod.snd_add, Prod.snd_add]
        congr 1
        cases x <;> simp [weight, ends]
        rename_i i e
        rw [hp]
        by_cases hf : failed tr e = true <;> simp [hf]
      · rw [List.filter_cons_of_neg hp]
        have : (ends [x]).countP (fun x => p (.testEnd x.1 x.2) && failed tr x.2) = 0 := by
          cases x <;> simp [ends]
          rename_i i e
          simp [hp]
        omega
  exact this tr

/-! ## Events and what precedes them -/

theorem evs_length {env : Env} {s s' : St} {a : Act} {evs : List Ev} (hs : Shape env s s' evs a) :
    evs = [] ∨ ∃ ev, evs = [ev] := by
  cases hs with
  | start h1 h2 h3 h4 h5 h6 => exact Or.inr ⟨_, h6⟩
  | concurBegin h1 h2 h3 h4 h5 => exact Or.inr ⟨_, h5⟩
  | concurDefer h1 h2 h3 h4 h5 h6 h7 => exact Or.inl h7
  | concurEnd h1 h2 h3 h4 h5 h6 => exact Or.inr ⟨_, h6⟩
  | nonBegin h1 h2 h3 h4 => exact Or.inr ⟨_, h4⟩
  | nonEnd h1 h2 h3 h4 => exact Or.inr ⟨_, h4⟩
  | checkOk h1 h2 h3 h4 => exact Or.inr ⟨_, h4⟩
  | checkFail t h1 h2 h3 ht ht1 ht2 ht3 h4 h5 => exact Or.inr ⟨_, h5⟩
  | throw h1 h2 h3 h4 h5 => exact Or.inr ⟨_, h5⟩
  | finish h1 h2 h3 h4 h5 => exact Or.inr ⟨_, h5⟩
  | joinRun h1 h2 h3 h4 h5 => exact Or.inl h5
  | joinNone h1 h2 h3 h4 h5 h6 => exact Or.inl h6
  | summarize h1 h2 h3 => exact Or.inr ⟨_, h3⟩

/-- To show something about every event and what precedes it, show it about every step. -/
theorem event_induct {env : Env} {P : List Ev → Ev → Prop} (h0 : P [] .rootBegin)
    (hstep : ∀ tr s s' a ev, Reach env tr s → Shape env s s' [ev] a → P tr ev)
    {tr : List Ev} {s : St} (h : Reach env tr s) :
    ∀ x ev y, tr = x ++ ev :: y → P x ev := by
  induction h with
  | init =>
    intro x ev y hx
    cases x with
    | nil => simp only [List.nil_append, List.cons.injEq] at hx; rw [← hx.1]; exact h0
    | cons z zs => simp at hx
  | step hr hs ih =>
    rename_i tr s s' a evs
    have hsh := shape hs
    intro x ev y hx
    rcases evs_length hsh with rfl | ⟨ev', rfl⟩
    · rw [List.append_nil] at hx; exact ih x ev y hx
    · rcases List.eq_nil_or_concat y with rfl | ⟨y', z, rfl⟩
      · have := List.append_inj' hx rfl
        rw [← this.1]
        have h2 := this.2
        simp only [List.cons.injEq, and_true] at h2
        rw [← h2]
        exact hstep _ _ _ _ _ hr hsh
      · have : tr ++ [ev'] = (x ++ ev :: y') ++ [z] := by rw [hx]; simp
        exact ih x ev y' (List.append_inj' this rfl).1

/-- An event of a thread is preceded by the beginning of the thread. -/
theorem threadBegin_before {env : Env} (hwf : WF env) {tr : List Ev} {s : St} (h : Reach env tr s)
    (i : Nat) : ∀ x ev y, tr = x ++ ev :: y → ev.thread? = some i → ev ≠ .threadBegin i →
      .threadBegin i ∈ x := by
  refine event_induct (P := fun x ev => ev.thread? = some i → ev ≠ .threadBegin i →
    .threadBegin i ∈ x) (by simp [Ev.thread?]) ?_ h
  intro tr s s' a ev hr hs ht hne
  obtain ⟨hb, hst⟩ := inv hwf hr
  have hmem : tr.count (.threadBegin i) = 1 → .threadBegin i ∈ tr := by
    intro hc
    rw [← List.count_pos_iff]; omega
  have hcon : s.stage = .concur → (s.thr i).phase ≠ .idle → .threadBegin i ∈ tr := by
    intro h1 h2
    simp only [StageInv, h1] at hst
    exact hmem (by rw [hst.tb, if_neg h2])
  have hnon : ∀ k rest, s.stage = .nonconcur k rest → (s.thr i).phase ≠ .idle → .threadBegin i ∈ tr := by
    intro k rest h1 h2
    simp only [StageInv, h1] at hst
    exact hmem (hst.tb i (lt_of_phase hb h2))
  have hrun : s.stage.running = true → (s.thr i).phase ≠ .idle → .threadBegin i ∈ tr := by
    intro h1 h2
    cases hs' : s.stage with
    | concur => exact hcon hs' h2
    | nonconcur k rest => exact hnon k rest hs' h2
    | _ => rw [hs'] at h1; cases h1
  cases hs with
  | start h1 h2 h3 h4 h5 h6 =>
    simp only [List.cons.injEq, and_true] at h6
    subst h6
    simp only [Ev.thread?, Option.some.injEq] at ht
    subst ht
    exact absurd rfl hne
  | concurBegin h1 h2 h3 h4 h5 =>
    simp only [List.cons.injEq, and_true] at h5
    subst h5
    simp only [Ev.thread?, Option.some.injEq] at ht
    subst ht
    exact hcon h1 (by rw [h2]; simp)
  | concurDefer h1 h2 h3 h4 h5 h6 h7 => simp at h7
  | concurEnd h1 h2 h3 h4 h5 h6 =>
    simp only [List.cons.injEq, and_true] at h6
    subst h6
    simp only [Ev.thread?, Option.some.injEq] at ht
    subst ht
    exact hcon h1 (by rw [h2]; simp)
  | nonBegin h1 h2 h3 h4 =>
    simp only [List.cons.injEq, and_true] at h4
    subst h4
    simp only [Ev.thread?, Option.some.injEq] at ht
    subst ht
    exact hnon _ _ h1 (by rw [h2]; simp)
  | nonEnd h1 h2 h3 h4 =>
    simp only [List.cons.injEq, and_true] at h4
    subst h4
    simp only [Ev.thread?, Option.some.injEq] at ht
    subst ht
    exact hnon _ _ h1 (by rw [h2]; simp)
  | checkOk h1 h2 h3 h4 =>
    simp only [List.cons.injEq, and_true] at h4
    subst h4
    simp only [Ev.thread?, Option.some.injEq] at ht
    subst ht
    exact hrun h1 (by rw [h2]; simp)
  | checkFail t h1 h2 h3 ht' ht1 ht2 ht3 h4 h5 =>
    simp only [List.cons.injEq, and_true] at h5
    subst h5
    simp only [Ev.thread?, Option.some.injEq] at ht
    subst ht
    exact hrun h1 (by rw [h2]; simp)
  | throw h1 h2 h3 h4 h5 =>
    simp only [List.cons.injEq, and_true] at h5
    subst h5
    simp only [Ev.thread?, Option.some.injEq] at ht
    subst ht
    exact hrun h1 (by rw [h2]; simp)
  | finish h1 h2 h3 h4 h5 =>
    simp only [List.cons.injEq, and_true] at h5
    subst h5
    simp only [Ev.thread?, Option.some.injEq] at ht
    subst ht
    exact hrun h1 (by rw [h2]; simp)
  | joinRun h1 h2 h3 h4 h5 => simp at h5
  | joinNone h1 h2 h3 h4 h5 h6 => simp at h6
  | summarize h1 h2 h3 =>
    simp only [List.cons.injEq, and_true] at h3
    subst h3
    simp [Ev.thread?] at ht

/-- No event of a thread is preceded by the end of the thread, unless there is only one test
execution. -/
theorem threadEnd_not_before {env : Env} (hwf : WF env) (hx : env.nonconcur = [] → env.numThreads ≠ 1)
    {tr : List Ev} {s : St} (h : Reach env tr s)
    (i : Nat) : ∀ x ev y, tr = x ++ ev :: y → ev.thread? = some i → .threadEnd i ∉ x := by
  refine event_induct (P := fun x ev => ev.thread? = some i → .threadEnd i ∉ x)
    (by simp [Ev.thread?]) ?_ h
  intro tr s s' a ev hr hs ht
  obtain ⟨hb, hst⟩ := inv hwf hr
  have hmem : tr.count (.threadEnd i) = 0 → .threadEnd i ∉ tr := by
    intro hc
    rw [← List.count_eq_zero]; exact hc
  have hcon : s.stage = .concur → (s.thr i).phase ≠ .ended → .threadEnd i ∉ tr := by
    intro h1 h2
    simp only [StageInv, h1] at hst
    exact hmem (by rw [hst.te, if_neg h2])
  have hnon : ∀ k rest, s.stage = .nonconcur k rest → (s.thr i).phase ≠ .idle →
      (s.thr i).phase ≠ .ended → .threadEnd i ∉ tr := by
    intro k rest h1 h2 h3
    simp only [StageInv, h1] at hst
    have hlt := lt_of_phase hb h2
    have hik : i = k := by
      by_contra hc
      exact h3 (hst.others i hlt hc)
    have hne : env.nonconcur ≠ [] := fun hc => hx hc (hst.one hc)
    exact hmem (by rw [hst.te i hlt, if_pos ⟨hik, hne⟩])
  have hrun : s.stage.running = true → (s.thr i).phase ≠ .idle → (s.thr i).phase ≠ .ended →
      .threadEnd i ∉ tr := by
    intro h1 h2 h3
    cases hs' : s.stage with
    | concur => exact hcon hs' h3
    | nonconcur k rest => exact hnon k rest hs' h2 h3
    | _ => rw [hs'] at h1; cases h1
  cases hs with
  | start h1 h2 h3 h4 h5 h6 =>
    simp only [List.cons.injEq, and_true] at h6
    subst h6
    simp only [Ev.thread?, Option.some.injEq] at ht
    subst ht
    exact hcon h1 (by rw [h3]; simp)
  | concurBegin h1 h2 h3 h4 h5 =>
    simp only [List.cons.injEq, and_true] at h5
    subst h5
    simp only [Ev.thread?, Option.some.injEq] at ht
    subst ht
    exact hcon h1 (by rw [h2]; simp)
  | concurDefer h1 h2 h3 h4 h5 h6 h7 => simp at h7
  | concurEnd h1 h2 h3 h4 h5 h6 =>
    simp only [List.cons.injEq, and_true] at h6
    subst h6
    simp only [Ev.thread?, Option.some.injEq] at ht
    subst ht
    exact hcon h1 (by rw [h2]; simp)
  | nonBegin h1 h2 h3 h4 =>
    simp only [List.cons.injEq, and_true] at h4
    subst h4
    simp only [Ev.thread?, Option.some.injEq] at ht
    subst ht
    exact hnon _ _ h1 (by rw [h2]; simp) (by rw [h2]; simp)
  | nonEnd h1 h2 h3 h4 =>
    simp only [List.cons.injEq, and_true] at h4
    subst h4
    simp only [Ev.thread?, Option.some.injEq] at ht
    subst ht
    exact hnon _ _ h1 (by rw [h2]; simp) (by rw [h2]; simp)
  | checkOk h1 h2 h3 h4 =>
    simp only [List.cons.injEq, and_true] at h4
    subst h4
    simp only [Ev.thread?, Option.some.injEq] at ht
    subst ht
    exact hrun h1 (by rw [h2]; simp) (by rw [h2]; simp)
  | checkFail t h1 h2 h3 ht' ht1 ht2 ht3 h4 h5 =>
    simp only [List.cons.injEq, and_true] at h5
    subst h5
    simp only [Ev.thread?, Option.some.injEq] at ht
    subst ht
    exact hrun h1 (by rw [h2]; simp) (by rw [h2]; simp)
  | throw h1 h2 h3 h4 h5 =>
    simp only [List.cons.injEq, and_true] at h5
    subst h5
    simp only [Ev.thread?, Option.some.injEq] at ht
    subst ht
    exact hrun h1 (by rw [h2]; simp) (by rw [h2]; simp)
  | finish h1 h2 h3 h4 h5 =>
    simp only [List.cons.injEq, and_true] at h5
    subst h5
    simp only [Ev.thread?, Option.some.injEq] at ht
    subst ht
    exact hrun h1 (by rw [h2]; simp) (by rw [h2]; simp)
  | joinRun h1 h2 h3 h4 h5 => simp at h5
  | joinNone h1 h2 h3 h4 h5 h6 => simp at h6
  | summarize h1 h2 h3 =>
    simp only [List.cons.injEq, and_true] at h3
    subst h3
    simp [Ev.thread?] at ht

/-! ## Seeds and locations -/

/-- The cache of mapped paths. -/
theorem cache_inv {env : Env} {tr : List Ev} {s : St} (h : Reach env tr s) (i : Nat) :
    (s.thr i).cacheValue = env.mapPath (s.thr i).cacheKey ∨
      ((s.thr i).cacheKey = "" ∧ (s.thr i).cacheValue = "") := by
  induction h with
  | init => exact Or.inr ⟨rfl, rfl⟩
  | step hr hs ih =>
    rename_i tr s s' a evs
    have hsame : (s'.thr i).cacheKey = (s.thr i).cacheKey →
        (s'.thr i).cacheValue = (s.thr i).cacheValue →
        ((s'.thr i).cacheValue = env.mapPath (s'.thr i).cacheKey ∨
          ((s'.thr i).cacheKey = "" ∧ (s'.thr i).cacheValue = "")) := by
      intro h1 h2; rw [h1, h2]; exact ih
    have hset : ∀ j : Nat, (∀ i, i ≠ j → s'.thr i = s.thr i) →
        (s'.thr j).cacheKey = (s.thr j).cacheKey → (s'.thr j).cacheValue = (s.thr j).cacheValue →
        ((s'.thr i).cacheValue = env.mapPath (s'.thr i).cacheKey ∨
          ((s'.thr i).cacheKey = "" ∧ (s'.thr i).cacheValue = "")) := by
      intro j h3 h1 h2
      by_cases hij : i = j
      · subst hij
        exact hsame h1 h2
      · exact hsame (by rw [h3 i hij]) (by rw [h3 i hij])
    cases shape hs with
    | start h1 h2 h3 h4 h5 h6 =>
      rename_i j
      exact hset j (fun i h => by rw [h5]; simp [St.set, h]) (by rw [h5]; simp [St.set])
        (by rw [h5]; simp [St.set])
    | concurBegin h1 h2 h3 h4 h5 =>
      rename_i j e
      exact hset j (fun i h => by rw [h4]; simp [St.set, h]) (by rw [h4]; simp [St.set])
        (by rw [h4]; simp [St.set])
    | concurDefer h1 h2 h3 h4 h5 h6 h7 =>
      rename_i j
      exact hset j (fun i h => by rw [h6]; simp [St.set, h]) (by rw [h6]; simp [St.set])
        (by rw [h6]; simp [St.set])
    | concurEnd h1 h2 h3 h4 h5 h6 =>
      rename_i j
      exact hset j (fun i h => by rw [h5]; simp [St.set, h]) (by rw [h5]; simp [St.set])
        (by rw [h5]; simp [St.set])
    | nonBegin h1 h2 h3 h4 =>
      rename_i j e rest
      exact hset j (fun i h => by rw [h3]; simp [St.set, h]) (by rw [h3]; simp [St.set])
        (by rw [h3]; simp [St.set])
    | nonEnd h1 h2 h3 h4 =>
      rename_i j
      exact hset j (fun i h => by rw [h3]; simp [St.set, h]) (by rw [h3]; simp [St.set])
        (by rw [h3]; simp [St.set])
    | checkOk h1 h2 h3 h4 =>
      rename_i j e
      exact hset j (fun i h => by rw [h3]; simp [St.set, h]) (by rw [h3]; simp [St.set])
        (by rw [h3]; simp [St.set])
    | checkFail t h1 h2 h3 ht ht1 ht2 ht3 h4 h5 =>
      rename_i j e file line
      by_cases hij : i = j
      · subst hij
        have : s'.thr i = t := by rw [h4]; simp
        rw [this, ht]
        unfold mapCheckPath
        split
        · exact ih
        · split
          · exact ih
          · exact Or.inl rfl
      · exact hsame (by rw [h4]; simp [set_thr_ne s t hij]) (by rw [h4]; simp [set_thr_ne s t hij])
    | throw h1 h2 h3 h4 h5 =>
      rename_i j e
      exact hset j (fun i h => by rw [h4]; simp [St.set, h]) (by rw [h4]; simp [St.set])
        (by rw [h4]; simp [St.set])
    | finish h1 h2 h3 h4 h5 =>
      rename_i j e b
      exact hset j (fun i h => by rw [h4]; simp [St.set, h]) (by rw [h4]; simp [St.set])
        (by rw [h4]; simp [St.set])
    | joinRun h1 h2 h3 h4 h5 =>
      rename_i j
      exact hset j (fun i h => by rw [h4]; simp [St.set, h]) (by rw [h4]; simp [St.set])
        (by rw [h4]; simp [St.set])
    | joinNone h1 h2 h3 h4 h5 h6 => exact hsame (by rw [h5]) (by rw [h5])
    | summarize h1 h2 h3 => exact hsame (by rw [h2]) (by rw [h2])

/-! ## Aborting -/

theorem abort_inv {env : Env} {tr : List Ev} {s : St} (h : Reach env tr s) :
    (s.stage ≠ .aborted → env.abortOnFailure = true → ∀ ev ∈ tr, ev.isFailure = false) ∧
    (s.stage = .aborted → env.abortOnFailure = true ∧ ∃ x ev, tr = x ++ [ev] ∧ ev.isFailure = true ∧
      ∀ ev' ∈ x, ev'.isFailure = false) := by
  induction h with
  | init =>
    refine ⟨fun _ _ ev hev => ?_, fun h => by cases h⟩
    simp only [List.mem_singleton] at hev
    subst hev; rfl
  | step hr hs ih =>
    rename_i tr s s' a evs
    have hquiet : s.stage ≠ .aborted → s'.stage ≠ .aborted → (∀ ev ∈ evs, ev.isFailure = false) →
        ((s'.stage ≠ .aborted → env.abortOnFailure = true → ∀ ev ∈ tr ++ evs, ev.isFailure = false) ∧
        (s'.stage = .aborted → env.abortOnFailure = true ∧ ∃ x ev, tr ++ evs = x ++ [ev] ∧
          ev.isFailure = true ∧ ∀ ev' ∈ x, ev'.isFailure = false)) := by
      intro h1 h2 h3
      refine ⟨fun _ ha ev hev => ?_, fun h => absurd h h2⟩
      rcases List.mem_append.1 hev with h | h
      · exact ih.1 h1 ha ev h
      · exact h3 ev h
    have hloud : ∀ x : St, s' = abortIf env x → s.stage ≠ .aborted → x.stage ≠ .aborted →
        (∃ ev, evs = [ev] ∧ ev.isFailure = true) →
        ((s'.stage ≠ .aborted → env.abortOnFailure = true → ∀ ev ∈ tr ++ evs, ev.isFailure = false) ∧
        (s'.stage = .aborted → env.abortOnFailure = true ∧ ∃ x ev, tr ++ evs = x ++ [ev] ∧
          ev.isFailure = true ∧ ∀ ev' ∈ x, ev'.isFailure = false)) := by
      rintro x h3 h1 h2 ⟨ev, rfl, h4⟩
      subst h3
      unfold abortIf
      by_cases ha : env.abortOnFailure = true
      · rw [if_pos ha]
        exact ⟨fun h => absurd rfl h, fun _ => ⟨ha, tr, ev, rfl, h4, ih.1 h1 ha⟩⟩
      · rw [if_neg ha]
        exact ⟨fun _ h => absurd h ha, fun h => absurd h h2⟩
    have hra : s.stage.running = true → s.stage ≠ .aborted := by
      intro h hc; rw [hc] at h; cases h
    cases shape hs with
    | start h1 h2 h3 h4 h5 h6 =>
      exact hquiet (by rw [h1]; simp) (by rw [h5]; simp [St.set, h1]) (by rw [h6]; simp [Ev.isFailure])
    | concurBegin h1 h2 h3 h4 h5 =>
      exact hquiet (by rw [h1]; simp) (by rw [h4]; simp [St.set, h1]) (by rw [h5]; simp [Ev.isFailure])
    | concurDefer h1 h2 h3 h4 h5 h6 h7 =>
      exact hquiet (by rw [h1]; simp) (by rw [h6]; simp [St.set, h1]) (by rw [h7]; simp)
    | concurEnd h1 h2 h3 h4 h5 h6 =>
      exact hquiet (by rw [h1]; simp) (by rw [h5]; simp [St.set, h1]) (by rw [h6]; simp [Ev.isFailure])
    | nonBegin h1 h2 h3 h4 =>
      exact hquiet (by rw [h1]; simp) (by rw [h3]; simp) (by rw [h4]; simp [Ev.isFailure])
    | nonEnd h1 h2 h3 h4 =>
      exact hquiet (by rw [h1]; simp) (by rw [h3]; simp) (by rw [h4]; simp [Ev.isFailure])
    | checkOk h1 h2 h3 h4 =>
      exact hquiet (hra h1) (by rw [h3]; exact hra h1) (by rw [h4]; simp [Ev.isFailure])
    | checkFail t h1 h2 h3 ht ht1 ht2 ht3 h4 h5 =>
      exact hloud _ h4 (hra h1) (hra h1) ⟨_, h5, rfl⟩
    | throw h1 h2 h3 h4 h5 => exact hloud _ h4 (hra h1) (hra h1) ⟨_, h5, rfl⟩
    | finish h1 h2 h3 h4 h5 =>
      exact hquiet (hra h1) (by rw [h4]; exact hra h1) (by rw [h5]; simp [Ev.isFailure])
    | joinRun h1 h2 h3 h4 h5 =>
      exact hquiet (by rw [h1]; simp) (by rw [h4]; simp) (by rw [h5]; simp)
    | joinNone h1 h2 h3 h4 h5 h6 =>
      exact hquiet (by rw [h1]; simp) (by rw [h5]; simp) (by rw [h6]; simp)
    | summarize h1 h2 h3 =>
      exact hquiet (by rw [h1]; simp) (by rw [h2]; simp) (by rw [h3]; simp [Ev.isFailure])

/-! ## Progress -/

/-- Actions of the harness, as opposed to actions of a test that is still running. -/
def Act.ofHarness : Act → Bool
  | .checkOk _ => false
  | .checkFail _ _ _ => false
  | .throw _ => false
  | _ => true

theorem progress {env : Env} (hwf : WF env) {tr : List Ev} {s : St} (h : Reach env tr s)
    (h1 : s.stage ≠ .aborted) (h2 : ∀ b, s.stage ≠ .done b) :
    ∃ a, a.ofHarness = true ∧ (step env s a).isSome = true := by
  obtain ⟨hb, hst⟩ := inv hwf h
  cases hs : s.stage with
  | aborted => exact absurd hs h1
  | done b => exact absurd hs (h2 b)
  | summarize => exact ⟨.summarize, rfl, by simp only [step, stepSummarize, if_pos hs, Option.isSome_some]⟩
  | nonconcur k rest =>
    simp only [StageInv, hs] at hst
    rcases hst.self with hp | ⟨e, b, hp, _⟩
    · exact ⟨.next k, rfl, by
        simp only [step, stepNext, if_pos hp, hs, if_true, Option.isSome_some]⟩
    · have hl : s.lock = none := by
        cases hl : s.lock with
        | none => rfl
        | some j =>
          exfalso
          have hj := (hb.lock j).1 hl
          by_cases hjk : j = k
          · subst hjk; rw [hp] at hj; cases hj
          · have := hst.others j (lt_of_phase hb (by rw [hj]; simp)) hjk
            rw [hj] at this; cases this
      exact ⟨.finish k, rfl, by
        simp only [step, stepFinish, hp, hs, hl, Stage.running, and_self, if_true, Option.isSome_some]⟩
  | concur =>
    cases hl : s.lock with
    | some j =>
      have hj := (hb.lock j).1 hl
      exact ⟨.next j, rfl, by simp only [step, stepNext, if_pos hj, hs, Option.isSome_some]⟩
    | none =>
      by_cases hall : (List.range env.numThreads).all (fun i => (s.thr i).phase.returned) = true
      · by_cases hn : env.numThreads = 1
        · exact ⟨.join, rfl, by
            simp only [step, stepJoin, if_pos (And.intro hs hall), if_pos hn, Option.isSome_some]⟩
        · cases hla : s.last with
          | some k => exact ⟨.join, rfl, by
              simp only [step, stepJoin, hs, hall, hn, hla, and_self, if_true, if_false, Option.isSome_some]⟩
          | none => exact ⟨.join, rfl, by
              simp only [step, stepJoin, hs, hall, hn, hla, and_self, if_true, if_false, Option.isSome_some]⟩
      · simp only [List.all_eq_true, List.mem_range, not_forall] at hall
        obtain ⟨i, hi, hr⟩ := hall
        cases hp : (s.thr i).phase with
        | idle => exact ⟨.start i, rfl, by
            simp only [step, stepStart, hs, hi, hp, hl, and_self, if_true, Option.isSome_some]⟩
        | atLoop => have := (hb.lock i).2 hp; rw [hl] at this; cases this
        | body e b => exact ⟨.finish i, rfl, by
            simp only [step, stepFinish, hp, hs, hl, Stage.running, and_self, if_true, Option.isSome_some]⟩
        | deferred => rw [hp] at hr; exact absurd rfl hr
        | ended => rw [hp] at hr; exact absurd rfl hr

/-- How much remains to be done by a thread. -/
def Phase.remaining : Phase → Nat
  | .idle => 4
  | .body _ _ => 3
  | .atLoop => 2
  | .deferred => 0
  | .ended => 0

/-- How much remains to be done by the main thread. -/
def Stage.remaining (env : Env) : Stage → Nat
  | .concur => 6 + 2 * env.nonconcur.length
  | .nonconcur _ rest => 2 + 2 * rest.length
  | .summarize => 1
  | .done _ => 0
  | .aborted => 0

/-- How much remains to be done. -/
def St.remaining (env : Env) (s : St) : Nat :=
  s.stage.remaining env + 2 * (env.concur.length - s.next) +
    ((List.range env.numThreads).map fun i => (s.thr i).phase.remaining).sum

theorem sum_update (n i : Nat) (hi : i < n) (f g : Nat → Nat) (h : ∀ j, j ≠ i → g j = f j) :
    ((List.range n).map g).sum + f i = ((List.range n).map f).sum + g i := by
  induction n with
  | zero => omega
  | succ n ih =>
    simp only [List.range_succ, List.map_append, List.map_cons, List.map_nil, List.sum_append,
      List.sum_cons, List.sum_nil, Nat.add_zero]
    by_cases hin : i = n
    · subst hin
      have : (List.range i).map g = (List.range i).map f := by
        apply List.map_congr_left
        intro j hj
        exact h j (by have := List.mem_range.1 hj; omega)
      rw [this]; omega
    · have := ih (by omega)
      have hgn := h n (by omega)
      omega

theorem remaining_lt {env : Env} {s s' : St} {i : Nat} (hi : i < env.numThreads)
    (hother : ∀ j, j ≠ i → s'.thr j = s.thr j)
    (hlt : s'.stage.remaining env + 2 * (env.concur.length - s'.next) + (s'.thr i).phase.remaining <
      s.stage.remaining env + 2 * (env.concur.length - s.next) + (s.thr i).phase.remaining) :
    s'.remaining env < s.remaining env := by
  have := sum_update env.numThreads i hi (fun j => (s.thr j).phase.remaining)
    (fun j => (s'.thr j).phase.remaining) (by intro j hj; simp only [hother j hj])
  unfold St.remaining
  omega

/-- Every action of the harness brings the run closer to its end. -/
theorem harness_decreases {env : Env} (hwf : WF env) {tr : List Ev} {s s' : St} {a : Act}
    {evs : List Ev} (hr : Reach env tr s) (ha : a.ofHarness = true)
    (hs : step env s a = some (s', evs)) : s'.remaining env < s.remaining env := by
  obtain ⟨hb, hst⟩ := inv hwf hr
  cases shape hs with
  | start h1 h2 h3 h4 h5 h6 =>
    refine remaining_lt h2 (fun j hj => by rw [h5]; simp [St.set, hj]) ?_
    rw [h3, h5]
    simp [St.set, h1, Phase.remaining]
  | concurBegin h1 h2 h3 h4 h5 =>
    have hlt : s.next < env.concur.length := by
      by_contra hc
      rw [List.getElem?_eq_none (by omega)] at h3
      cases h3
    refine remaining_lt (lt_of_phase hb (by rw [h2]; simp)) (fun j hj => by rw [h4]; simp [St.set, hj]) ?_
    rw [h2, h4]
    simp only [St.set, h1, Phase.remaining, if_true]
    omega
  | concurDefer h1 h2 h3 h4 h5 h6 h7 =>
    refine remaining_lt (lt_of_phase hb (by rw [h2]; simp)) (fun j hj => by rw [h6]; simp [St.set, hj]) ?_
    rw [h2, h6]
    simp only [St.set, h1, Phase.remaining, if_true]
    omega
  | concurEnd h1 h2 h3 h4 h5 h6 =>
    refine remaining_lt (lt_of_phase hb (by rw [h2]; simp)) (fun j hj => by rw [h5]; simp [St.set, hj]) ?_
    rw [h2, h5]
    simp only [St.set, h1, Phase.remaining, if_true]
    omega
  | nonBegin h1 h2 h3 h4 =>
    refine remaining_lt (lt_of_phase hb (by rw [h2]; simp)) (fun j hj => by rw [h3]; simp [St.set, hj]) ?_
    rw [h2, h3, h1]
    simp only [St.set, Phase.remaining, if_true, Stage.remaining, List.length_cons]
    omega
  | nonEnd h1 h2 h3 h4 =>
    refine remaining_lt (lt_of_phase hb (by rw [h2]; simp)) (fun j hj => by rw [h3]; simp [St.set, hj]) ?_
    rw [h2, h3, h1]
    simp only [St.set, Phase.remaining, if_true, Stage.remaining, List.length_nil]
    omega
  | checkOk => cases ha
  | checkFail => cases ha
  | throw => cases ha
  | finish h1 h2 h3 h4 h5 =>
    refine remaining_lt (lt_of_phase hb (by rw [h2]; simp)) (fun j hj => by rw [h4]; simp [St.set, hj]) ?_
    rw [h2, h4]
    simp only [St.set, Phase.remaining, if_true]
    omega
  | joinRun h1 h2 h3 h4 h5 =>
    rename_i k
    have hk : k < env.numThreads := by
      rcases h3 with ⟨h3, rfl⟩ | ⟨_, h3⟩
      · omega
      · exact hb.lastLt k h3
    refine remaining_lt hk (fun j hj => by rw [h4]; simp [St.set, hj]) ?_
    rw [h4, h1]
    simp only [St.set, Phase.remaining, Stage.remaining, if_true]
    omega
  | joinNone h1 h2 h3 h4 h5 h6 =>
    unfold St.remaining
    rw [h5, h1]
    simp only [Stage.remaining]
    omega
  | summarize h1 h2 h3 =>
    unfold St.remaining
    rw [h2, h1]
    simp only [Stage.remaining]
    omega

end Verif.TestRunner
