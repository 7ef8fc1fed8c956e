import Verif.TestRunner.Lemmas

/-!
# Invariants that hold in every state
-/

namespace Verif.TestRunner

/-- What is assumed of the preparation. -/
structure WF (env : Env) : Prop where
  nodup : (env.concur ++ env.nonconcur).Nodup
  zero : env.numThreads = 0 → env.concur = [] ∧ env.nonconcur = []

/-- Invariants that hold in every state. -/
structure Base (env : Env) (tr : List Ev) (s : St) : Prop where
  lock : ∀ i, s.lock = some i ↔ (s.thr i).phase = .atLoop
  out : ∀ i, env.numThreads ≤ i → (s.thr i).phase = .idle
  body : ∀ i e, (∃ b, (s.thr i).phase = .body e b) ↔ (i, e) ∈ running tr
  endsSub : ∀ p ∈ ends tr, p ∈ begins tr
  endsNodup : (ends tr).Nodup
  beginsNodup : ((begins tr).map Prod.snd).Nodup
  errs : ∀ i e b, (s.thr i).phase = .body e b → (s.thr i).errorsSeen = failed tr e
  events : ∀ ev ∈ tr, ∀ p, ev.test? = some p → p ∈ begins tr
  lastLt : ∀ k, s.last = some k → k < env.numThreads

/-- What a step does to the trace and to the threads. -/
inductive Shape (env : Env) (s s' : St) (evs : List Ev) : Act → Prop where
  | start {i} (h1 : s.stage = .concur) (h2 : i < env.numThreads) (h3 : (s.thr i).phase = .idle)
      (h4 : s.lock = none)
      (h5 : s' = { s.set i { s.thr i with phase := .atLoop, counters := (0, 0, 0) } with
        lock := some i })
      (h6 : evs = [.threadBegin i]) : Shape env s s' evs (.start i)
  | concurBegin {i e} (h1 : s.stage = .concur) (h2 : (s.thr i).phase = .atLoop)
      (h3 : env.concur[s.next]? = some e)
      (h4 : s' = { s.set i { s.thr i with phase := .body e false, errorsSeen := false } with
        lock := none, next := s.next + 1 })
      (h5 : evs = [.testBegin i e (seedExtra env e)]) : Shape env s s' evs (.next i)
  | concurDefer {i} (h1 : s.stage = .concur) (h2 : (s.thr i).phase = .atLoop)
      (h3 : env.concur.length ≤ s.next) (h4 : env.nonconcur ≠ [])
      (h5 : env.numThreads - s.numEnded = 1)
      (h6 : s' = { s.set i { s.thr i with phase := .deferred } with last := some i, lock := none })
      (h7 : evs = []) : Shape env s s' evs (.next i)
  | concurEnd {i} (h1 : s.stage = .concur) (h2 : (s.thr i).phase = .atLoop)
      (h3 : env.concur.length ≤ s.next)
      (h4 : ¬ (env.nonconcur ≠ [] ∧ env.numThreads - s.numEnded = 1))
      (h5 : s' = { s.set i { s.thr i with phase := .ended } with
        numEnded := s.numEnded + 1, counters := s.counters + (s.thr i).counters, lock := none })
      (h6 : evs = [.threadEnd i]) : Shape env s s' evs (.next i)
  | nonBegin {i e rest} (h1 : s.stage = .nonconcur i (e :: rest)) (h2 : (s.thr i).phase = .atLoop)
      (h3 : s' = { s.set i { s.thr i with phase := .body e false, errorsSeen := false } with
        lock := none, stage := .nonconcur i rest })
      (h4 : evs = [.testBegin i e (seedExtra env e)]) : Shape env s s' evs (.next i)
  | nonEnd {i} (h1 : s.stage = .nonconcur i []) (h2 : (s.thr i).phase = .atLoop)
      (h3 : s' = { s.set i { s.thr i with phase := .ended } with
        stage := .summarize, counters := s.counters + (s.thr i).counters, lock := none })
      (h4 : evs = [.threadEnd i]) : Shape env s s' evs (.next i)
  | checkOk {i e} (h1 : s.stage.running = true) (h2 : (s.thr i).phase = .body e false)
      (h3 : s' = s.set i { s.thr i with counters := (s.thr i).counters + (1, 0, 0) })
      (h4 : evs = [.checkOk i e]) : Shape env s s' evs (.checkOk i)
  | checkFail {i e file line} (t : Thr) (h1 : s.stage.running = true)
      (h2 : (s.thr i).phase = .body e false) (h3 : s.lock = none)
      (ht : t = (mapCheckPath env { s.thr i with
        counters := (s.thr i).counters + (1, 1, 0), errorsSeen := true } e file).2)
      (ht1 : t.phase = .body e false) (ht2 : t.counters = (s.thr i).counters + (1, 1, 0))
      (ht3 : t.errorsSeen = true)
      (h4 : s' = abortIf env (s.set i t))
      (h5 : evs = [.checkFail i e file line (mapCheckPath env { s.thr i with
        counters := (s.thr i).counters + (1, 1, 0), errorsSeen := true } e file).1]) :
      Shape env s s' evs (.checkFail i file line)
  | throw {i e} (h1 : s.stage.running = true) (h2 : (s.thr i).phase = .body e false)
      (h3 : s.lock = none)
      (h4 : s' = abortIf env (s.set i { s.thr i with phase := .body e true, errorsSeen := true }))
      (h5 : evs = [.testFail i e (detailsOf env e).file (detailsOf env e).line
        (env.mapPath (detailsOf env e).file)]) : Shape env s s' evs (.throw i)
  | finish {i e b} (h1 : s.stage.running = true) (h2 : (s.thr i).phase = .body e b)
      (h3 : s.lock = none)
      (h4 : s' = { s.set i { s.thr i with phase := .atLoop, counters := (s.thr i).counters +
        (if (s.thr i).errorsSeen then (0, 0, 1) else (0, 0, 0)) } with lock := some i })
      (h5 : evs = [.testEnd i e]) : Shape env s s' evs (.finish i)
  | joinRun {k} (h1 : s.stage = .concur)
      (h2 : ∀ i, i < env.numThreads → (s.thr i).phase.returned = true)
      (h3 : (env.numThreads = 1 ∧ k = 0) ∨ (env.numThreads ≠ 1 ∧ s.last = some k))
      (h4 : s' = { s.set k { s.thr k with phase := .atLoop, counters := (0, 0, 0) } with
        lock := some k, stage := .nonconcur k env.nonconcur })
      (h5 : evs = []) : Shape env s s' evs .join
  | joinNone (h1 : s.stage = .concur)
      (h2 : ∀ i, i < env.numThreads → (s.thr i).phase.returned = true)
      (h3 : env.numThreads ≠ 1) (h4 : s.last = none)
      (h5 : s' = { s with stage := .summarize })
      (h6 : evs = []) : Shape env s s' evs .join
  | summarize (h1 : s.stage = .summarize)
      (h2 : s' = { s with stage := .done (s.counters.2.2 == 0) })
      (h3 : evs = [.rootEnd (summaryOf env s)]) : Shape env s s' evs .summarize

theorem shape {env : Env} {s s' : St} {a : Act} {evs : List Ev}
    (h : step env s a = some (s', evs)) : Shape env s s' evs a := by
  cases a with
  | start i =>
    simp only [step, stepStart] at h
    split at h
    · rename_i hc
      obtain ⟨h1, h2, h3, h4⟩ := hc
      simp only [Option.some.injEq, Prod.mk.injEq] at h
      exact .start h1 h2 h3 h4 h.1.symm h.2.symm
    · simp at h
  | next i =>
    simp only [step, stepNext] at h
    split at h
    · rename_i h2
      split at h
      · rename_i h1
        simp only [Option.some.injEq, nextConcur] at h
        split at h
        · rename_i e h3
          simp only [beginTest, Prod.mk.injEq] at h
          exact .concurBegin h1 h2 h3 h.1.symm h.2.symm
        · rename_i h3
          rw [List.getElem?_eq_none_iff] at h3
          split at h
          · rename_i h4
            simp only [Prod.mk.injEq] at h
            exact .concurDefer h1 h2 h3 h4.1 h4.2 h.1.symm h.2.symm
          · rename_i h4
            simp only [finalize, Prod.mk.injEq] at h
            exact .concurEnd h1 h2 h3 h4 h.1.symm h.2.symm
      · rename_i k rest h1
        split at h
        · rename_i hk
          subst hk
          simp only [Option.some.injEq, nextNonconcur] at h
          split at h
          · simp only [beginTest, Prod.mk.injEq] at h
            exact .nonBegin h1 h2 h.1.symm h.2.symm
          · simp only [finalize, Prod.mk.injEq] at h
            exact .nonEnd h1 h2 h.1.symm h.2.symm
        · simp at h
      · simp at h
    · simp at h
  | checkOk i =>
    simp only [step, stepCheckOk] at h
    split at h
    · rename_i e h2
      split at h
      · rename_i h1
        simp only [Option.some.injEq, Prod.mk.injEq] at h
        exact .checkOk h1 h2 h.1.symm h.2.symm
      · simp at h
    · simp at h
  | checkFail i file line =>
    simp only [step, stepCheckFail] at h
    split at h
    · rename_i e h2
      split at h
      · rename_i h1
        simp only [Option.some.injEq, Prod.mk.injEq] at h
        refine .checkFail _ h1.1 h2 h1.2 rfl ?_ ?_ ?_ h.1.symm h.2.symm
        · unfold mapCheckPath; split
          · exact h2
          · split <;> exact h2
        · unfold mapCheckPath; split
          · rfl
          · split <;> rfl
        · unfold mapCheckPath; split
          · rfl
          · split <;> rfl
      · simp at h
    · simp at h
  | throw i =>
    simp only [step, stepThrow] at h
    split at h
    · rename_i e h2
      split at h
      · rename_i h1
        simp only [Option.some.injEq, Prod.mk.injEq] at h
        exact .throw h1.1 h2 h1.2 h.1.symm h.2.symm
      · simp at h
    · simp at h
  | finish i =>
    simp only [step, stepFinish] at h
    split at h
    · rename_i e b h2
      split at h
      · rename_i h1
        simp only [Option.some.injEq, Prod.mk.injEq] at h
        refine .finish h1.1 h2 h1.2 ?_ h.2.symm
        have hc : (if (s.thr i).errorsSeen then (s.thr i).counters + (0, 0, 1)
            else (s.thr i).counters) = (s.thr i).counters +
              (if (s.thr i).errorsSeen then (0, 0, 1) else (0, 0, 0)) := by
          split <;> rfl
        rw [hc] at h
        exact h.1.symm
      · simp at h
    · simp at h
  | join =>
    simp only [step, stepJoin] at h
    split at h
    · rename_i hc
      obtain ⟨h1, h2⟩ := hc
      have h2' : ∀ i, i < env.numThreads → (s.thr i).phase.returned = true := by
        simpa using h2
      split at h
      · rename_i h3
        simp only [Option.some.injEq, nonconcurRun, Prod.mk.injEq] at h
        exact .joinRun h1 h2' (Or.inl ⟨h3, rfl⟩) h.1.symm h.2.symm
      · rename_i h3
        split at h
        · rename_i k h4
          simp only [Option.some.injEq, nonconcurRun, Prod.mk.injEq] at h
          exact .joinRun h1 h2' (Or.inr ⟨h3, h4⟩) h.1.symm h.2.symm
        · rename_i h4
          simp only [Option.some.injEq, Prod.mk.injEq] at h
          exact .joinNone h1 h2' h3 h4 h.1.symm h.2.symm
    · simp at h
  | summarize =>
    simp only [step, stepSummarize] at h
    split at h
    · rename_i h1
      simp only [Option.some.injEq, Prod.mk.injEq] at h
      exact .summarize h1 h.1.symm h.2.symm
    · simp at h

@[simp] theorem abortIf_thr (env : Env) (s : St) : (abortIf env s).thr = s.thr := by
  unfold abortIf; split <;> rfl

@[simp] theorem abortIf_lock (env : Env) (s : St) : (abortIf env s).lock = s.lock := by
  unfold abortIf; split <;> rfl

@[simp] theorem abortIf_last (env : Env) (s : St) : (abortIf env s).last = s.last := by
  unfold abortIf; split <;> rfl

@[simp] theorem set_lock (s : St) (i : Nat) (t : Thr) : (s.set i t).lock = s.lock := rfl

@[simp] theorem set_last (s : St) (i : Nat) (t : Thr) : (s.set i t).last = s.last := rfl

theorem base_init (env : Env) : Base env [.rootBegin] {} where
  lock := by simp
  out := by simp
  body := by simp [running, begins]
  endsSub := by simp [ends]
  endsNodup := by simp [ends]
  beginsNodup := by simp [begins]
  errs := by simp
  events := by simp [Ev.test?]
  lastLt := by simp

/-- A step that begins and ends no test execution, and in which no thread enters or leaves a test. -/
theorem base_quiet {env : Env} {tr : List Ev} {s s' : St} {evs : List Ev} (hb : Base env tr s)
    (h1 : begins evs = []) (h2 : ends evs = [])
    (h3 : ∀ e, (∃ i, (i, e) ∈ running tr) → failed evs e = true → ∃ i b, (s.thr i).phase = .body e b ∧
      (s'.thr i).errorsSeen = true)
    (h4 : ∀ ev ∈ evs, ∀ p, ev.test? = some p → p ∈ begins tr)
    (hlock : ∀ i, s'.lock = some i ↔ (s'.thr i).phase = .atLoop)
    (hout : ∀ i, env.numThreads ≤ i → (s'.thr i).phase = .idle)
    (hbody : ∀ i e, (∃ b, (s'.thr i).phase = .body e b) ↔ (∃ b, (s.thr i).phase = .body e b))
    (herr : ∀ i e b, (s'.thr i).phase = .body e b →
      (s'.thr i).errorsSeen = ((s.thr i).errorsSeen || failed evs e))
    (hlast : ∀ k, s'.last = some k → k < env.numThreads) : Base env (tr ++ evs) s' := by
  have hbe : begins (tr ++ evs) = begins tr := by rw [begins_append, h1, List.append_nil]
  have hen : ends (tr ++ evs) = ends tr := by rw [ends_append, h2, List.append_nil]
  have hru : running (tr ++ evs) = running tr := by unfold running; rw [hbe, hen]
  refine ⟨hlock, hout, ?_, ?_, ?_, ?_, ?_, ?_, hlast⟩
  · intro i e; rw [hru, ← hb.body]; exact hbody i e
  · rw [hbe, hen]; exact hb.endsSub
  · rw [hen]; exact hb.endsNodup
  · rw [hbe]; exact hb.beginsNodup
  · intro i e b hp
    rw [herr i e b hp, failed_append]
    obtain ⟨b', hb'⟩ := (hbody i e).1 ⟨b, hp⟩
    rw [hb.errs i e b' hb']
  · intro ev hev p hp
    rw [hbe]
    rcases List.mem_append.1 hev with h | h
    · exact hb.events ev h p hp
    · exact h4 ev h p hp

theorem base_step {env : Env} {tr : List Ev} {s s' : St} {a : Act} {evs : List Ev}
    (hb : Base env tr s) (hs : Shape env s s' evs a)
    (hf : ∀ i e sd, evs = [.testBegin i e sd] → e ∉ (begins tr).map Prod.snd) :
    Base env (tr ++ evs) s' := by
  have hbegin : ∀ (i : Nat) (e : Exec) (sd), evs = [.testBegin i e sd] →
      (s.thr i).phase = .atLoop →
      (∀ j, s'.thr j = if j = i then { s.thr i with phase := .body e false, errorsSeen := false }
        else s.thr j) → s'.lock = none → s'.last = s.last → Base env (tr ++ evs) s' := by
    intro i e sd he hp ht hl hla
    have hfr := hf i e sd he
    subst he
    have hbe : begins (tr ++ [.testBegin i e sd]) = begins tr ++ [(i, e)] := by
      rw [begins_append]; rfl
    have hen : ends (tr ++ [.testBegin i e sd]) = ends tr := by
      rw [ends_append]; simp [ends]
    have hnb : ∀ j, (j, e) ∉ begins tr := fun j hj => hfr (List.mem_map.2 ⟨(j, e), hj, rfl⟩)
    have hne : ∀ j, (j, e) ∉ ends tr := fun j hj => hnb j (hb.endsSub _ hj)
    have hnf : failed tr e = false := by
      by_contra hc
      simp only [failed, Bool.not_eq_false, List.any_eq_true, Bool.and_eq_true,
        decide_eq_true_eq, Option.map_eq_some_iff] at hc
      obtain ⟨ev, hev, _, ⟨⟨j, e'⟩, hj, rfl⟩⟩ := hc
      exact hnb j (hb.events ev hev _ hj)
    refine ⟨?_, ?_, ?_, ?_, ?_, ?_, ?_, ?_, ?_⟩
    · intro j
      rw [hl, ht]
      by_cases hj : j = i
      · simp [hj]
      · rw [if_neg hj]
        have := (hb.lock j)
        have h2 := (hb.lock i).2 hp
        rw [h2] at this
        constructor
        · simp
        · intro h; exact absurd (Option.some.inj (this.2 h)).symm hj
    · intro j hj
      have h0 := hb.out j hj
      rw [ht]
      by_cases hji : j = i
      · subst hji; rw [hp] at h0; cases h0
      · rw [if_neg hji]; exact h0
    · intro j e'
      rw [mem_running, hbe, hen, ht]
      by_cases hji : j = i
      · subst hji
        rw [if_pos rfl]
        have hno : ¬ ∃ b, (s.thr j).phase = .body e' b := by
          rintro ⟨b, hb'⟩; rw [hp] at hb'; cases hb'
        rw [hb.body, mem_running] at hno
        constructor
        · rintro ⟨b, h⟩
          injection h with h1 h2
          subst h1
          exact ⟨by simp, hne j⟩
        · rintro ⟨h1, h2⟩
          rcases List.mem_append.1 h1 with h | h
          · exact absurd ⟨h, h2⟩ hno
          · simp only [List.mem_singleton, Prod.mk.injEq, true_and] at h
            subst h
            exact ⟨false, rfl⟩
      · rw [if_neg hji, hb.body, mem_running]
        simp [hji]
    · rw [hbe, hen]
      intro p hp'
      exact List.mem_append.2 (Or.inl (hb.endsSub p hp'))
    · rw [hen]; exact hb.endsNodup
    · rw [hbe, List.map_append, List.nodup_append]
      refine ⟨hb.beginsNodup, by simp, ?_⟩
      intro x hx y hy hxy
      simp only [List.map_cons, List.map_nil, List.mem_singleton] at hy
      subst hy; subst hxy
      exact hfr hx
    · intro j e' b hp'
      rw [failed_append]
      have h0 : failed [.testBegin i e sd] e' = false := by simp [failed, Ev.isFailure]
      rw [h0, Bool.or_false]
      rw [ht] at hp' ⊢
      by_cases hji : j = i
      · rw [if_pos hji] at hp' ⊢
        injection hp' with h1 h2
        subst h1
        exact hnf.symm
      · rw [if_neg hji] at hp' ⊢
        exact hb.errs j e' b hp'
    · intro ev hev p hp'
      rw [hbe]
      rcases List.mem_append.1 hev with h | h
      · exact List.mem_append.2 (Or.inl (hb.events ev h p hp'))
      · simp only [List.mem_singleton] at h
        subst h
        simp only [Ev.test?, Option.some.injEq] at hp'
        subst hp'
        simp
    · rw [hla]; exact hb.lastLt
  -- a thread that holds the lock is the only one
  have honly : ∀ i j, (s.thr i).phase = .atLoop → (s.thr j).phase = .atLoop → j = i := by
    intro i j h1 h2
    have h3 := (hb.lock i).2 h1
    have h4 := (hb.lock j).2 h2
    rw [h3] at h4
    exact (Option.some.inj h4).symm
  have hfree : ∀ j, s.lock = none → (s.thr j).phase ≠ .atLoop := by
    intro j h1 h2
    rw [(hb.lock j).2 h2] at h1
    cases h1
  have hmem : ∀ i e b, (s.thr i).phase = .body e b → (i, e) ∈ begins tr := by
    intro i e b h
    exact ((mem_running tr _).1 ((hb.body i e).1 ⟨b, h⟩)).1
  cases hs with
  | start h1 h2 h3 h4 h5 h6 =>
    rename_i i
    subst h5 h6
    refine base_quiet hb rfl rfl (by simp [failed, Ev.isFailure]) (by simp [Ev.test?]) ?_ ?_ ?_ ?_
      hb.lastLt
    · intro j
      by_cases hj : j = i
      · subst hj; simp
      · have := hfree j h4
        simp [set_thr, hj, this, Ne.symm hj]
    · intro j hj
      have : j ≠ i := by omega
      simp only [set_thr_ne s _ this]
      exact hb.out j hj
    · intro j e
      by_cases hj : j = i
      · subst hj; simp [h3]
      · simp [set_thr, hj]
    · intro j e b
      by_cases hj : j = i
      · subst hj; simp
      · simp [set_thr, hj, failed, Ev.isFailure]
  | concurBegin h1 h2 h3 h4 h5 =>
    rename_i i e
    subst h4
    exact hbegin i e _ h5 h2 (fun j => rfl) rfl rfl
  | concurDefer h1 h2 h3 h4 h5 h6 h7 =>
    rename_i i
    subst h6 h7
    have hi : i < env.numThreads := by
      by_contra hc
      have := hb.out i (by omega)
      rw [h2] at this; cases this
    refine base_quiet hb rfl rfl (by simp [failed]) (by simp) ?_ ?_ ?_ ?_ ?_
    · intro j
      by_cases hj : j = i
      · subst hj; simp
      · have : (s.thr j).phase ≠ .atLoop := fun h => hj (honly i j h2 h)
        simp [set_thr, hj, this]
    · intro j hj
      have : j ≠ i := by omega
      simp only [set_thr_ne s _ this]
      exact hb.out j hj
    · intro j e
      by_cases hj : j = i
      · subst hj; simp [h2]
      · simp [set_thr, hj]
    · intro j e b
      by_cases hj : j = i
      · subst hj; simp
      · simp [set_thr, hj, failed]
    · intro k hk
      simp only [Option.some.injEq] at hk
      omega
  | concurEnd h1 h2 h3 h4 h5 h6 =>
    rename_i i
    subst h5 h6
    have hi : i < env.numThreads := by
      by_contra hc
      have := hb.out i (by omega)
      rw [h2] at this; cases this
    refine base_quiet hb rfl rfl (by simp [failed, Ev.isFailure]) (by simp [Ev.test?]) ?_ ?_ ?_ ?_
      hb.lastLt
    · intro j
      by_cases hj : j = i
      · subst hj; simp
      · have : (s.thr j).phase ≠ .atLoop := fun h => hj (honly i j h2 h)
        simp [set_thr, hj, this]
    · intro j hj
      have : j ≠ i := by omega
      simp only [set_thr_ne s _ this]
      exact hb.out j hj
    · intro j e
      by_cases hj : j = i
      · subst hj; simp [h2]
      · simp [set_thr, hj]
    · intro j e b
      by_cases hj : j = i
      · subst hj; simp
      · simp [set_thr, hj, failed, Ev.isFailure]
  | nonBegin h1 h2 h3 h4 =>
    rename_i i e rest
    subst h3
    exact hbegin i e _ h4 h2 (fun j => rfl) rfl rfl
  | nonEnd h1 h2 h3 h4 =>
    rename_i i
    subst h3 h4
    have hi : i < env.numThreads := by
      by_contra hc
      have := hb.out i (by omega)
      rw [h2] at this; cases this
    refine base_quiet hb rfl rfl (by simp [failed, Ev.isFailure]) (by simp [Ev.test?]) ?_ ?_ ?_ ?_
      hb.lastLt
    · intro j
      by_cases hj : j = i
      · subst hj; simp
      · have : (s.thr j).phase ≠ .atLoop := fun h => hj (honly i j h2 h)
        simp [set_thr, hj, this]
    · intro j hj
      have : j ≠ i := by omega
      simp only [set_thr_ne s _ this]
      exact hb.out j hj
    · intro j e
      by_cases hj : j = i
      · subst hj; simp [h2]
      · simp [set_thr, hj]
    · intro j e b
      by_cases hj : j = i
      · subst hj; simp
      · simp [set_thr, hj, failed, Ev.isFailure]
  | checkOk h1 h2 h3 h4 =>
    rename_i i e
    subst h3 h4
    have hi : i < env.numThreads := by
      by_contra hc
      have := hb.out i (by omega)
      rw [h2] at this; cases this
    refine base_quiet hb rfl rfl (by simp [failed, Ev.isFailure]) ?_ ?_ ?_ ?_ ?_ hb.lastLt
    · simp only [List.mem_singleton, Ev.test?]
      rintro ev rfl p hp
      simp only [Ev.test?, Option.some.injEq] at hp
      subst hp
      exact hmem i e _ h2
    · intro j
      by_cases hj : j = i
      · subst hj; simp [hb.lock, h2]
      · simp [set_thr, hj, hb.lock]
    · intro j hj
      have : j ≠ i := by omega
      simp only [set_thr_ne s _ this]
      exact hb.out j hj
    · intro j e
      by_cases hj : j = i
      · subst hj; simp
      · simp [set_thr, hj]
    · intro j e b
      by_cases hj : j = i
      · subst hj; simp [failed, Ev.isFailure]
      · simp [set_thr, hj, failed, Ev.isFailure]
  | checkFail t h1 h2 h3 ht ht1 ht2 ht3 h4 h5 =>
    rename_i i e file line
    subst h4 h5
    have hi : i < env.numThreads := by
      by_contra hc
      have := hb.out i (by omega)
      rw [h2] at this; cases this
    refine base_quiet hb rfl rfl ?_ ?_ ?_ ?_ ?_ ?_ (by simpa using hb.lastLt)
    · intro e' _ he'
      have : e = e' := by simpa [failed, Ev.isFailure, Ev.test?] using he'
      subst this
      exact ⟨i, false, h2, by simp [ht3]⟩
    · rintro ev hev p hp
      simp only [List.mem_singleton] at hev
      subst hev
      simp only [Ev.test?, Option.some.injEq] at hp
      subst hp
      exact hmem i e _ h2
    · intro j
      by_cases hj : j = i
      · subst hj; simp [h3, ht1]
      · simp [set_thr, hj, hb.lock]
    · intro j hj
      have : j ≠ i := by omega
      simp only [abortIf_thr, set_thr_ne s _ this]
      exact hb.out j hj
    · intro j e
      by_cases hj : j = i
      · subst hj; simp [ht1, h2]
      · simp [set_thr, hj]
    · intro j e' b
      by_cases hj : j = i
      · subst hj
        intro hp
        simp only [abortIf_thr, set_thr_self, ht1] at hp
        injection hp with hp1 hp2
        subst hp1
        simp [ht3, failed, Ev.isFailure, Ev.test?]
      · intro hp
        have hp' : (s.thr j).phase = .body e' b := by simpa [set_thr, hj] using hp
        have hne : e ≠ e' := by
          intro he; subst he
          have a1 := hmem i e _ h2
          have a2 := hmem j e _ hp'
          exact hj (congrArg Prod.fst
            (List.inj_on_of_nodup_map hb.beginsNodup a2 a1 rfl))
        simp [set_thr, hj, failed, Ev.isFailure, Ev.test?, hne]
  | throw h1 h2 h3 h4 h5 =>
    rename_i i e
    subst h4 h5
    have hi : i < env.numThreads := by
      by_contra hc
      have := hb.out i (by omega)
      rw [h2] at this; cases this
    refine base_quiet hb rfl rfl ?_ ?_ ?_ ?_ ?_ ?_ (by simpa using hb.lastLt)
    · intro e' _ he'
      have : e = e' := by simpa [failed, Ev.isFailure, Ev.test?] using he'
      subst this
      exact ⟨i, false, h2, by simp⟩
    · rintro ev hev p hp
      simp only [List.mem_singleton] at hev
      subst hev
      simp only [Ev.test?, Option.some.injEq] at hp
      subst hp
      exact hmem i e _ h2
    · intro j
      by_cases hj : j = i
      · subst hj; simp [h3]
      · simp [set_thr, hj, hb.lock]
    · intro j hj
      have : j ≠ i := by omega
      simp only [abortIf_thr, set_thr_ne s _ this]
      exact hb.out j hj
    · intro j e
      by_cases hj : j = i
      · subst hj; simp [h2]
      · simp [set_thr, hj]
    · intro j e' b
      by_cases hj : j = i
      · subst hj
        intro hp
        simp only [abortIf_thr, set_thr_self] at hp
        injection hp with hp1 hp2
        subst hp1
        simp [failed, Ev.isFailure, Ev.test?]
      · intro hp
        have hp' : (s.thr j).phase = .body e' b := by simpa [set_thr, hj] using hp
        have hne : e ≠ e' := by
          intro he; subst he
          have a1 := hmem i e _ h2
          have a2 := hmem j e _ hp'
          exact hj (congrArg Prod.fst
            (List.inj_on_of_nodup_map hb.beginsNodup a2 a1 rfl))
        simp [set_thr, hj, failed, Ev.isFailure, Ev.test?, hne]
  | finish h1 h2 h3 h4 h5 =>
    rename_i i e b
    subst h4 h5
    have hi : i < env.numThreads := by
      by_contra hc
      have := hb.out i (by omega)
      rw [h2] at this; cases this
    have hrun : (i, e) ∈ running tr := (hb.body i e).1 ⟨b, h2⟩
    have hrun' := (mem_running tr _).1 hrun
    have hbe : begins (tr ++ [.testEnd i e]) = begins tr := by
      rw [begins_append]; simp [begins]
    have hen : ends (tr ++ [.testEnd i e]) = ends tr ++ [(i, e)] := by
      rw [ends_append]; rfl
    refine ⟨?_, ?_, ?_, ?_, ?_, ?_, ?_, ?_, hb.lastLt⟩
    · intro j
      by_cases hj : j = i
      · subst hj; simp
      · have := hfree j h3
        simp [set_thr, hj, this, Ne.symm hj]
    · intro j hj
      have : j ≠ i := by omega
      simp only [set_thr_ne s _ this]
      exact hb.out j hj
    · intro j e'
      rw [mem_running, hbe, hen]
      by_cases hj : j = i
      · subst hj
        simp only [set_thr_self, reduceCtorEq, exists_const, false_iff]
        rintro ⟨h1', h2'⟩
        simp only [List.mem_append, List.mem_singleton, Prod.mk.injEq, true_and, not_or] at h2'
        have : (j, e') ∈ running tr := (mem_running tr _).2 ⟨h1', h2'.1⟩
        rw [← hb.body, h2] at this
        obtain ⟨b', hb'⟩ := this
        injection hb' with hb1 hb2
        exact h2'.2 hb1.symm
      · simp only [set_thr, if_neg hj]
        rw [hb.body, mem_running]
        simp [hj]
    · rw [hbe, hen]
      intro p hp
      rcases List.mem_append.1 hp with h | h
      · exact hb.endsSub p h
      · simp only [List.mem_singleton] at h
        subst h
        exact hrun'.1
    · rw [hen, List.nodup_append]
      refine ⟨hb.endsNodup, by simp, ?_⟩
      intro x hx y hy hxy
      simp only [List.mem_singleton] at hy
      subst hy; subst hxy
      exact hrun'.2 hx
    · rw [hbe]; exact hb.beginsNodup
    · intro j e' b' hp
      rw [failed_append]
      have h0 : failed [.testEnd i e] e' = false := by simp [failed, Ev.isFailure]
      rw [h0, Bool.or_false]
      by_cases hj : j = i
      · subst hj; simp at hp
      · simp only [set_thr, if_neg hj] at hp ⊢
        exact hb.errs j e' b' hp
    · intro ev hev p hp
      rw [hbe]
      rcases List.mem_append.1 hev with h | h
      · exact hb.events ev h p hp
      · simp only [List.mem_singleton] at h
        subst h
        simp only [Ev.test?, Option.some.injEq] at hp
        subst hp
        exact hrun'.1
  | joinRun h1 h2 h3 h4 h5 =>
    rename_i k
    subst h4 h5
    have hk : k < env.numThreads := by
      rcases h3 with ⟨h3, rfl⟩ | ⟨_, h3⟩
      · omega
      · exact hb.lastLt k h3
    have hnl : ∀ j, (s.thr j).phase ≠ .atLoop := by
      intro j hj
      by_cases hjn : j < env.numThreads
      · have := h2 j hjn; rw [hj] at this; cases this
      · have := hb.out j (by omega); rw [hj] at this; cases this
    refine base_quiet hb rfl rfl (by simp [failed]) (by simp) ?_ ?_ ?_ ?_ hb.lastLt
    · intro j
      by_cases hj : j = k
      · subst hj; simp
      · simp [set_thr, hj, hnl, Ne.symm hj]
    · intro j hj
      have : j ≠ k := by omega
      simp only [set_thr_ne s _ this]
      exact hb.out j hj
    · intro j e
      by_cases hj : j = k
      · subst hj
        simp only [set_thr_self, reduceCtorEq, exists_const, false_iff]
        rintro ⟨b, hb'⟩
        have := h2 j hk
        rw [hb'] at this; cases this
      · simp [set_thr, hj]
    · intro j e b
      by_cases hj : j = k
      · subst hj; simp
      · simp [set_thr, hj, failed]
  | joinNone h1 h2 h3 h4 h5 h6 =>
    subst h5 h6
    refine base_quiet hb rfl rfl (by simp [failed]) (by simp) hb.lock hb.out (fun _ _ => Iff.rfl) ?_
      hb.lastLt
    intro j e b _
    simp [failed]
  | summarize h1 h2 h3 =>
    subst h2 h3
    refine base_quiet hb rfl rfl (by simp [failed, Ev.isFailure]) (by simp [Ev.test?]) hb.lock hb.out
      (fun _ _ => Iff.rfl) ?_ hb.lastLt
    intro j e b _
    simp [failed, Ev.isFailure]

end Verif.TestRunner
