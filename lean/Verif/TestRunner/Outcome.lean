import Verif.TestRunner.Runs

/-!
# Lemmas about what has happened when `run()` returns, and at any other time
-/

namespace Verif.TestRunner

theorem begins_rootEnd (tr : List Ev) (x : Summary) : begins (tr ++ [.rootEnd x]) = begins tr := by
  rw [begins_append]; simp [begins]

theorem ends_rootEnd (tr : List Ev) (x : Summary) : ends (tr ++ [.rootEnd x]) = ends tr := by
  rw [ends_append]; simp [ends]

theorem failed_rootEnd (tr : List Ev) (x : Summary) (e : Exec) :
    failed (tr ++ [.rootEnd x]) e = failed tr e := by
  rw [failed_append]; simp [failed, Ev.isFailure]

/-- If a run is cut short, the event that caused it changed neither the executions that were begun
nor those that were ended. -/
theorem before_abort {env : Env} {tr : List Ev} {s : St} (h : Reach env tr s) :
    ∃ tr0 s0, Reach env tr0 s0 ∧ s0.stage ≠ .aborted ∧ begins tr = begins tr0 ∧
      ends tr = ends tr0 := by
  by_cases ha : s.stage = .aborted
  · cases h with
    | init => cases ha
    | step hr hs =>
      rename_i tr0 s0 a evs
      have hra : s0.stage.running = true → s0.stage ≠ .aborted := by
        intro h hc; rw [hc] at h; cases h
      cases shape hs with
      | start h1 h2 h3 h4 h5 h6 => rw [h5] at ha; simp [St.set, h1] at ha
      | concurBegin h1 h2 h3 h4 h5 => rw [h4] at ha; simp [St.set, h1] at ha
      | concurDefer h1 h2 h3 h4 h5 h6 h7 => rw [h6] at ha; simp [St.set, h1] at ha
      | concurEnd h1 h2 h3 h4 h5 h6 => rw [h5] at ha; simp [St.set, h1] at ha
      | nonBegin h1 h2 h3 h4 => rw [h3] at ha; simp at ha
      | nonEnd h1 h2 h3 h4 => rw [h3] at ha; simp at ha
      | checkOk h1 h2 h3 h4 => rw [h3] at ha; exact absurd ha (hra h1)
      | checkFail t h1 h2 h3 ht ht1 ht2 ht3 h4 h5 =>
        exact ⟨tr0, s0, hr, hra h1, by rw [h5, begins_append]; simp [begins],
          by rw [h5, ends_append]; simp [ends]⟩
      | throw h1 h2 h3 h4 h5 =>
        exact ⟨tr0, s0, hr, hra h1, by rw [h5, begins_append]; simp [begins],
          by rw [h5, ends_append]; simp [ends]⟩
      | finish h1 h2 h3 h4 h5 => rw [h4] at ha; exact absurd ha (hra h1)
      | joinRun h1 h2 h3 h4 h5 => rw [h4] at ha; simp at ha
      | joinNone h1 h2 h3 h4 h5 h6 => rw [h5] at ha; simp at ha
      | summarize h1 h2 h3 => rw [h2] at ha; simp at ha
  · exact ⟨tr, s, h, ha, rfl, rfl⟩

theorem begins_prefix {env : Env} (hwf : WF env) {tr : List Ev} {s : St} (h : Reach env tr s) :
    (begins tr).map Prod.snd <+: env.concur ++ env.nonconcur := by
  obtain ⟨tr0, s0, hr, hna, hb, he⟩ := before_abort h
  rw [hb]
  clear hb he h s tr
  have hst := (inv hwf hr).2
  cases hs : s0.stage with
  | concur =>
    simp only [StageInv, hs] at hst
    rw [hst.begins_eq]
    exact (List.take_prefix _ _).trans (List.prefix_append _ _)
  | nonconcur k rest =>
    simp only [StageInv, hs] at hst
    obtain ⟨pre, h1, h2⟩ := hst.pre
    rw [h2, h1, ← List.append_assoc]
    exact List.prefix_append _ _
  | summarize =>
    simp only [StageInv, hs] at hst
    rw [hst.begins_eq]
    exact List.prefix_rfl
  | done b =>
    simp only [StageInv, hs] at hst
    obtain ⟨tr1, h1, h2, _⟩ := hst
    rw [h1, begins_rootEnd, h2.begins_eq]
    exact List.prefix_rfl
  | aborted => exact absurd hs hna

theorem begins_nodup {env : Env} (hwf : WF env) {tr : List Ev} {s : St} (h : Reach env tr s) :
    (begins tr).Nodup := List.Nodup.of_map _ (inv hwf h).1.beginsNodup

theorem running_nodup {env : Env} (hwf : WF env) {tr : List Ev} {s : St} (h : Reach env tr s) :
    (running tr).Nodup := (begins_nodup hwf h).filter _

theorem running_fst_nodup {env : Env} (hwf : WF env) {tr : List Ev} {s : St} (h : Reach env tr s) :
    ((running tr).map Prod.fst).Nodup := by
  have hb := (inv hwf h).1
  refine List.Nodup.map_on ?_ (running_nodup hwf h)
  rintro ⟨i, e⟩ h1 ⟨j, e'⟩ h2 hij
  simp only at hij
  subst hij
  obtain ⟨b, hb1⟩ := (hb.body i e).2 h1
  obtain ⟨b', hb2⟩ := (hb.body i e').2 h2
  rw [hb1] at hb2
  injection hb2 with h3 _
  rw [h3]

theorem running_lt {env : Env} (hwf : WF env) {tr : List Ev} {s : St} (h : Reach env tr s)
    {p : Nat × Exec} (hp : p ∈ running tr) : p.1 < env.numThreads := by
  have hb := (inv hwf h).1
  obtain ⟨b, hb1⟩ := (hb.body p.1 p.2).2 hp
  exact lt_of_phase hb (by rw [hb1]; simp)

theorem running_length {env : Env} (hwf : WF env) {tr : List Ev} {s : St} (h : Reach env tr s) :
    (running tr).length ≤ env.numThreads := by
  have h1 := running_fst_nodup hwf h
  have h2 : (running tr).map Prod.fst ⊆ List.range env.numThreads := by
    intro i hi
    obtain ⟨p, hp, rfl⟩ := List.mem_map.1 hi
    exact List.mem_range.2 (running_lt hwf h hp)
  have := (List.subperm_of_subset h1 h2).length_le
  simpa using this

/-- A nonconcurrent execution is alone. -/
theorem running_nonconcur {env : Env} (hwf : WF env) {tr : List Ev} {s : St} (h : Reach env tr s)
    {p : Nat × Exec} (hp : p ∈ running tr) (hn : p.2 ∉ env.concur) : running tr = [p] := by
  obtain ⟨tr0, s0, hr, hna, hb, he⟩ := before_abort h
  have hrun : running tr = running tr0 := by unfold running; rw [hb, he]
  rw [hrun] at hp ⊢
  clear hrun he hb h s tr
  obtain ⟨hb, hst⟩ := inv hwf hr
  have hbody := (hb.body p.1 p.2).2 hp
  obtain ⟨b, hbody⟩ := hbody
  have hmem : p.2 ∈ (begins tr0).map Prod.snd :=
    List.mem_map.2 ⟨p, ((mem_running _ _).1 hp).1, rfl⟩
  cases hs : s0.stage with
  | concur =>
    simp only [StageInv, hs] at hst
    rw [hst.begins_eq] at hmem
    exact absurd (List.mem_of_mem_take hmem) hn
  | nonconcur k rest =>
    simp only [StageInv, hs] at hst
    have hk : ∀ q ∈ running tr0, q = p := by
      have hone : ∀ q ∈ running tr0, q.1 = k := by
        intro q hq
        obtain ⟨b, hq'⟩ := (hb.body q.1 q.2).2 hq
        by_contra hc
        have := hst.others q.1 (lt_of_phase hb (by rw [hq']; simp)) hc
        rw [hq'] at this; cases this
      intro q hq
      exact List.inj_on_of_nodup_map (running_fst_nodup hwf hr) hq hp
        ((hone q hq).trans (hone p hp).symm)
    have hnd := running_nodup hwf hr
    rcases hl : running tr0 with _ | ⟨x, xs⟩
    · rw [hl] at hp; cases hp
    · have hx : x = p := hk x (by rw [hl]; simp)
      rcases xs with _ | ⟨y, ys⟩
      · rw [hx]
      · have hy : y = p := hk y (by rw [hl]; simp)
        rw [hl, hx, hy] at hnd
        simp at hnd
  | summarize =>
    simp only [StageInv, hs] at hst
    have := hst.phases p.1 (lt_of_phase hb (by rw [hbody]; simp))
    rw [hbody] at this; cases this
  | done b =>
    simp only [StageInv, hs] at hst
    obtain ⟨tr1, h1, h2, _⟩ := hst
    have := h2.phases p.1 (lt_of_phase hb (by rw [hbody]; simp))
    rw [hbody] at this; cases this
  | aborted => exact absurd hs hna

/-- Facts about a completed run. -/
theorem done_facts {env : Env} (hwf : WF env) {tr : List Ev} {s : St} {b : Bool}
    (h : Reach env tr s) (hd : s.stage = .done b) :
    ∃ tr0, tr = tr0 ++ [.rootEnd (summaryOf env s)] ∧ SumInv env tr0 s ∧
      b = (s.counters.2.2 == 0) ∧ running tr = [] ∧ (ends tr).Perm (begins tr) := by
  obtain ⟨hb, hst⟩ := inv hwf h
  simp only [StageInv, hd] at hst
  obtain ⟨tr0, h1, h2, h3⟩ := hst
  have hrun : running tr = [] := by
    rw [List.eq_nil_iff_forall_not_mem]
    intro p hp
    obtain ⟨b, hbody⟩ := (hb.body p.1 p.2).2 hp
    have := h2.phases p.1 (lt_of_phase hb (by rw [hbody]; simp))
    rw [hbody] at this; cases this
  refine ⟨tr0, h1, h2, h3, hrun, ?_⟩
  rw [List.perm_ext_iff_of_nodup hb.endsNodup (begins_nodup hwf h)]
  intro p
  constructor
  · exact hb.endsSub p
  · intro hp
    by_contra hc
    have : p ∈ running tr := (mem_running _ _).2 ⟨hp, hc⟩
    rw [hrun] at this; cases this

theorem weight_test' {tr : List Ev} {ev : Ev} (h : weight tr ev ≠ (0, 0, 0)) :
    ∃ p, ev.test? = some p ∧ ev.thread? = some p.1 := by
  cases ev <;> simp [weight, Ev.test?, Ev.thread?] at h ⊢

theorem isFailure_test {ev : Ev} (h : ev.isFailure = true) : ∃ p, ev.test? = some p := by
  cases ev <;> simp [Ev.isFailure, Ev.test?] at h ⊢

/-- The counters reported at the end of a run, in terms of the events that were counted. -/
theorem done_counts {env : Env} (hwf : WF env) {tr : List Ev} {s : St} {b : Bool}
    (h : Reach env tr s) (hd : s.stage = .done b) :
    ∃ k, (env.nonconcur ≠ [] → k < env.numThreads) ∧ s.counters = total tr
      (fun ev => decide (env.nonconcur = []) || (inExecs env.nonconcur ev || !onThread k ev)) := by
  obtain ⟨tr0, h1, h2, _⟩ := done_facts hwf h hd
  obtain ⟨k, hk, hc⟩ := h2.tot
  refine ⟨k, hk, ?_⟩
  rw [hc, h1, total_append (by intro i e _; simp [failed, Ev.isFailure])]
  have : (([Ev.rootEnd (summaryOf env s)].filter (fun ev => decide (env.nonconcur = []) ||
      (inExecs env.nonconcur ev || !onThread k ev))).map
      (weight (tr0 ++ [Ev.rootEnd (summaryOf env s)]))).sum = (0, 0, 0) := by
    rw [List.filter_cons]
    split
    · simp [weight]
    · rfl
  rw [this]
  simp

/-- If every execution is counted. -/
theorem done_counts_all {env : Env} (hwf : WF env) {tr : List Ev} {s : St} {b : Bool}
    (h : Reach env tr s) (hd : s.stage = .done b) (hall : env.concur = [] ∨ env.nonconcur = []) :
    s.counters = total tr (fun _ => true) := by
  obtain ⟨k, _, hc⟩ := done_counts hwf h hd
  rw [hc]
  apply total_congr
  intro ev hev hw
  rcases hall with hall | hall
  · obtain ⟨p, hp, _⟩ := weight_test' hw
    have hb := (inv hwf h).1.events ev hev p hp
    have : p.2 ∈ env.concur ++ env.nonconcur :=
      (begins_prefix hwf h).subset (List.mem_map.2 ⟨p, hb, rfl⟩)
    rw [hall, List.nil_append] at this
    simp [inExecs, hp, this]
  · simp [hall]

/-- What happens in a test happens between its beginning and its end. -/
theorem test_events {env : Env} (hwf : WF env) {tr : List Ev} {s : St} (h : Reach env tr s) :
    ∀ x ev y, tr = x ++ ev :: y → ∀ p, ev.test? = some p → begins [ev] = [] → p ∈ running x := by
  refine event_induct (P := fun x ev => ∀ p, ev.test? = some p → begins [ev] = [] →
    p ∈ running x) (by simp [Ev.test?]) ?_ h
  intro tr s s' a ev hr hs p hp hbe
  obtain ⟨hb, hst⟩ := inv hwf hr
  cases hs with
  | start h1 h2 h3 h4 h5 h6 =>
    simp only [List.cons.injEq, and_true] at h6
    subst h6; simp [Ev.test?] at hp
  | concurBegin h1 h2 h3 h4 h5 =>
    simp only [List.cons.injEq, and_true] at h5
    subst h5; simp [begins] at hbe
  | concurDefer h1 h2 h3 h4 h5 h6 h7 => simp at h7
  | concurEnd h1 h2 h3 h4 h5 h6 =>
    simp only [List.cons.injEq, and_true] at h6
    subst h6; simp [Ev.test?] at hp
  | nonBegin h1 h2 h3 h4 =>
    simp only [List.cons.injEq, and_true] at h4
    subst h4; simp [begins] at hbe
  | nonEnd h1 h2 h3 h4 =>
    simp only [List.cons.injEq, and_true] at h4
    subst h4; simp [Ev.test?] at hp
  | checkOk h1 h2 h3 h4 =>
    simp only [List.cons.injEq, and_true] at h4
    subst h4
    simp only [Ev.test?, Option.some.injEq] at hp
    subst hp
    exact (hb.body _ _).1 ⟨_, h2⟩
  | checkFail t h1 h2 h3 ht ht1 ht2 ht3 h4 h5 =>
    simp only [List.cons.injEq, and_true] at h5
    subst h5
    simp only [Ev.test?, Option.some.injEq] at hp
    subst hp
    exact (hb.body _ _).1 ⟨_, h2⟩
  | throw h1 h2 h3 h4 h5 =>
    simp only [List.cons.injEq, and_true] at h5
    subst h5
    simp only [Ev.test?, Option.some.injEq] at hp
    subst hp
    exact (hb.body _ _).1 ⟨_, h2⟩
  | finish h1 h2 h3 h4 h5 =>
    simp only [List.cons.injEq, and_true] at h5
    subst h5
    simp only [Ev.test?, Option.some.injEq] at hp
    subst hp
    exact (hb.body _ _).1 ⟨_, h2⟩
  | joinRun h1 h2 h3 h4 h5 => simp at h5
  | joinNone h1 h2 h3 h4 h5 h6 => simp at h6
  | summarize h1 h2 h3 =>
    simp only [List.cons.injEq, and_true] at h3
    subst h3; simp [Ev.test?] at hp

/-- The contents of the events. -/
def Good (env : Env) : Ev → Prop
  | .testBegin _ e seed => seed = seedExtra env e
  | .checkFail _ _ file _ mapped => file ≠ "" → mapped = env.mapPath file
  | .testFail _ e file line mapped => file = (detailsOf env e).file ∧
      line = (detailsOf env e).line ∧ mapped = env.mapPath file
  | _ => True

theorem good {env : Env} {tr : List Ev} {s : St} (h : Reach env tr s) : ∀ ev ∈ tr, Good env ev := by
  have key : ∀ x ev y, tr = x ++ ev :: y → Good env ev := by
    refine event_induct (P := fun _ ev => Good env ev) trivial ?_ h
    intro tr s s' a ev hr hs
    cases hs with
    | start h1 h2 h3 h4 h5 h6 =>
      simp only [List.cons.injEq, and_true] at h6
      subst h6; trivial
    | concurBegin h1 h2 h3 h4 h5 =>
      simp only [List.cons.injEq, and_true] at h5
      subst h5; rfl
    | concurDefer h1 h2 h3 h4 h5 h6 h7 => simp at h7
    | concurEnd h1 h2 h3 h4 h5 h6 =>
      simp only [List.cons.injEq, and_true] at h6
      subst h6; trivial
    | nonBegin h1 h2 h3 h4 =>
      simp only [List.cons.injEq, and_true] at h4
      subst h4; rfl
    | nonEnd h1 h2 h3 h4 =>
      simp only [List.cons.injEq, and_true] at h4
      subst h4; trivial
    | checkOk h1 h2 h3 h4 =>
      simp only [List.cons.injEq, and_true] at h4
      subst h4; trivial
    | checkFail t h1 h2 h3 ht ht1 ht2 ht3 h4 h5 =>
      rename_i j e file line
      simp only [List.cons.injEq, and_true] at h5
      subst h5
      intro hne
      unfold mapCheckPath
      by_cases hf : file = (detailsOf env e).file
      · rw [if_pos hf, hf]
      · rw [if_neg hf]
        by_cases hk : file = (s.thr j).cacheKey
        · rw [if_pos hk]
          rcases cache_inv hr j with hc | ⟨hc, _⟩
          · rw [hc, hk]
          · exact absurd (hk.trans hc) hne
        · rw [if_neg hk]
    | throw h1 h2 h3 h4 h5 =>
      simp only [List.cons.injEq, and_true] at h5
      subst h5; exact ⟨rfl, rfl, rfl⟩
    | finish h1 h2 h3 h4 h5 =>
      simp only [List.cons.injEq, and_true] at h5
      subst h5; trivial
    | joinRun h1 h2 h3 h4 h5 => simp at h5
    | joinNone h1 h2 h3 h4 h5 h6 => simp at h6
    | summarize h1 h2 h3 =>
      simp only [List.cons.injEq, and_true] at h3
      subst h3; trivial
  intro ev hev
  obtain ⟨x, y, hxy⟩ := List.append_of_mem hev
  exact key x ev y hxy

/-- The beginning and the end of the whole run. -/
theorem root_events {env : Env} {tr : List Ev} {s : St} (h : Reach env tr s) :
    (∃ y, tr = .rootBegin :: y ∧ .rootBegin ∉ y) ∧
    (∀ x sm y, tr = x ++ .rootEnd sm :: y → y = []) := by
  constructor
  · induction h with
    | init => exact ⟨[], rfl, by simp⟩
    | step hr hs ih =>
      obtain ⟨y, hy, hn⟩ := ih
      rename_i evs
      refine ⟨y ++ evs, by rw [hy]; rfl, ?_⟩
      rw [List.mem_append]
      rintro (hc | hc)
      · exact hn hc
      · cases shape hs <;> simp_all
  · have hx : ∀ x ev y, tr = x ++ ev :: y → ∀ sm, .rootEnd sm ∉ x := by
      refine event_induct (P := fun x _ => ∀ sm, .rootEnd sm ∉ x) (by simp) ?_ h
      intro tr s s' a ev hr hs sm hsm
      have key : ∀ {tr s}, Reach env tr s → .rootEnd sm ∈ tr → ∃ b, s.stage = .done b := by
        clear hs hsm hr
        intro tr s hr
        induction hr with
        | init => simp
        | step hr hs ih =>
          intro hm
          rcases List.mem_append.1 hm with hm | hm
          · obtain ⟨b, hb⟩ := ih hm
            exfalso
            cases shape hs <;> simp_all [Stage.running]
          · cases shape hs <;> simp_all
      obtain ⟨b, hb⟩ := key hr hsm
      cases hs <;> simp_all [Stage.running]
    intro x sm y hxy
    rcases y with _ | ⟨z, zs⟩
    · rfl
    · exfalso
      exact hx (x ++ [.rootEnd sm]) z zs (by rw [hxy]; simp) sm (by simp)

/-! ## Sequences of actions -/

theorem exec_reach {env : Env} (acts : List Act) {x y : List Ev × St} (hx : Reach env x.1 x.2)
    (h : exec env x acts = some y) : Reach env y.1 y.2 := by
  induction acts generalizing x with
  | nil =>
    obtain ⟨tr, s⟩ := x
    simp only [exec, Option.some.injEq] at h
    rw [← h]; exact hx
  | cons a rest ih =>
    obtain ⟨tr, s⟩ := x
    simp only [exec] at h
    cases hs : step env s a with
    | none => rw [hs] at h; cases h
    | some r =>
      obtain ⟨s', evs⟩ := r
      rw [hs] at h
      exact ih (Reach.step hx hs) h

/-- A run can always be completed. -/
theorem can_complete {env : Env} (hwf : WF env) : ∀ (n : Nat) {tr : List Ev} {s : St},
    Reach env tr s → s.stage ≠ .aborted → s.remaining env = n →
    ∃ acts tr' s' b, (∀ a ∈ acts, a.ofHarness = true) ∧ exec env (tr, s) acts = some (tr', s') ∧
      s'.stage = .done b := by
  intro n
  induction n using Nat.strongRecOn with
  | ind n ih =>
    intro tr s hr hna hn
    by_cases hd : ∃ b, s.stage = .done b
    · obtain ⟨b, hb⟩ := hd
      exact ⟨[], tr, s, b, by simp, rfl, hb⟩
    · obtain ⟨a, ha, hsome⟩ := progress hwf hr hna (fun b hb => hd ⟨b, hb⟩)
      obtain ⟨⟨s', evs⟩, hstep⟩ := Option.isSome_iff_exists.1 hsome
      have hlt := harness_decreases hwf hr ha hstep
      have hna' : s'.stage ≠ .aborted := by
        intro hc
        have hq := abort_inv (Reach.step hr hstep)
        obtain ⟨habort, x, ev, hx, hev, _⟩ := hq.2 hc
        have hall := (abort_inv hr).1 hna habort
        have hra : s.stage.running = true → s.stage ≠ .aborted := by
          intro h hc; rw [hc] at h; cases h
        cases shape hstep with
        | start h1 h2 h3 h4 h5 h6 => rw [h5] at hc; simp [St.set, h1] at hc
        | concurBegin h1 h2 h3 h4 h5 => rw [h4] at hc; simp [St.set, h1] at hc
        | concurDefer h1 h2 h3 h4 h5 h6 h7 => rw [h6] at hc; simp [St.set, h1] at hc
        | concurEnd h1 h2 h3 h4 h5 h6 => rw [h5] at hc; simp [St.set, h1] at hc
        | nonBegin h1 h2 h3 h4 => rw [h3] at hc; simp at hc
        | nonEnd h1 h2 h3 h4 => rw [h3] at hc; simp at hc
        | checkOk => cases ha
        | checkFail => cases ha
        | throw => cases ha
        | finish h1 h2 h3 h4 h5 => rw [h4] at hc; exact absurd hc (hra h1)
        | joinRun h1 h2 h3 h4 h5 => rw [h4] at hc; simp at hc
        | joinNone h1 h2 h3 h4 h5 h6 => rw [h5] at hc; simp at hc
        | summarize h1 h2 h3 => rw [h2] at hc; simp at hc
      obtain ⟨acts, tr', s'', b, h1, h2, h3⟩ := ih _ (hn ▸ hlt) (Reach.step hr hstep) hna' rfl
      refine ⟨a :: acts, tr', s'', b, ?_, ?_, h3⟩
      · intro a' ha'
        rcases List.mem_cons.1 ha' with rfl | ha'
        · exact ha
        · exact h1 a' ha'
      · simp only [exec, hstep]; exact h2

theorem test_remaining {env : Env} {s s' : St} {a : Act} {evs : List Ev}
    (ha : a.ofHarness = false) (hs : step env s a = some (s', evs)) :
    s'.remaining env ≤ s.remaining env := by
  have key : ∀ i, (∀ j, j ≠ i → s'.thr j = s.thr j) →
      (s'.thr i).phase.remaining = (s.thr i).phase.remaining → s'.next = s.next →
      s'.stage.remaining env ≤ s.stage.remaining env → s'.remaining env ≤ s.remaining env := by
    intro i h1 h2 h3 h4
    unfold St.remaining
    have : (List.range env.numThreads).map (fun i => (s'.thr i).phase.remaining) =
        (List.range env.numThreads).map (fun i => (s.thr i).phase.remaining) := by
      apply List.map_congr_left
      intro j _
      by_cases hj : j = i
      · rw [hj, h2]
      · rw [h1 j hj]
    rw [this, h3]
    omega
  have habort : ∀ x : St, x.stage = s.stage → x.next = s.next →
      (abortIf env x).next = s.next ∧ (abortIf env x).stage.remaining env ≤ s.stage.remaining env := by
    intro x h1 h2
    unfold abortIf
    split
    · exact ⟨h2, Nat.zero_le _⟩
    · rw [h1, h2]; exact ⟨rfl, Nat.le_refl _⟩
  cases shape hs with
  | checkOk h1 h2 h3 h4 =>
    rename_i i e
    refine key i (fun j hj => by rw [h3]; exact set_thr_ne s _ hj) (by rw [h3]; simp) ?_ ?_
    · rw [h3]; rfl
    · rw [h3]; exact Nat.le_refl _
  | checkFail t h1 h2 h3 ht ht1 ht2 ht3 h4 h5 =>
    rename_i i e file line
    have := habort (s.set i t) rfl rfl
    rw [← h4] at this
    refine key i (fun j hj => by rw [h4]; simp [set_thr_ne s _ hj]) ?_ this.1 this.2
    rw [h4, abortIf_thr, set_thr_self, ht1, h2]
  | throw h1 h2 h3 h4 h5 =>
    rename_i i e
    refine key i (fun j hj => by rw [h4]; simp [set_thr_ne s _ hj]) ?_ ?_ ?_
    · rw [h4, abortIf_thr, set_thr_self, h2]; rfl
    · rw [h4]; apply (habort _ _ _).1 <;> rfl
    · rw [h4]; apply (habort _ _ _).2 <;> rfl
  | _ => cases ha

/-- The number of steps of the harness is bounded. -/
theorem harness_bound {env : Env} (hwf : WF env) (acts : List Act) {x y : List Ev × St}
    (hx : Reach env x.1 x.2) (h : exec env x acts = some y) :
    (acts.countP (·.ofHarness)) + y.2.remaining env ≤ x.2.remaining env := by
  induction acts generalizing x with
  | nil =>
    obtain ⟨tr, s⟩ := x
    simp only [exec, Option.some.injEq] at h
    rw [← h]; simp
  | cons a rest ih =>
    obtain ⟨tr, s⟩ := x
    simp only [exec] at h
    cases hs : step env s a with
    | none => rw [hs] at h; cases h
    | some r =>
      obtain ⟨s', evs⟩ := r
      rw [hs] at h
      have := ih (Reach.step hx hs) h
      rw [List.countP_cons]
      simp only at this ⊢
      by_cases ha : a.ofHarness = true
      · have hlt := harness_decreases hwf hx ha hs
        simp only [ha, if_true]
        simp only at hlt
        omega
      · have hle := test_remaining (by simpa using ha) hs
        simp only [ha]
        simp only [Bool.false_eq_true, if_false]
        omega

end Verif.TestRunner
