import Verif.TestRunner.Outcome

/-!
# Properties of the test runner (C164 - C173)
-/

namespace Verif.TestRunner

/-- What has happened at some point during the execution of tests. -/
def Occurs (env : Env) (tr : List Ev) : Prop := ∃ s, Reach env tr s

/-- What has happened when `run()` returns the specified value. -/
def Returns (env : Env) (tr : List Ev) (result : Bool) : Prop :=
  ∃ s, Reach env tr s ∧ s.stage = .done result

/-- What has happened when the program is terminated by `std::abort()`. -/
def Aborts (env : Env) (tr : List Ev) : Prop := ∃ s, Reach env tr s ∧ s.stage = .aborted

/-- The test does not allow concurrent execution. -/
def Lonely (env : Env) (e : Exec) : Prop := ∃ t, env.tests[e.test]? = some t ∧ t.allowConcur = false

/-! ## A concrete test suite -/

/-- A test that may run concurrently with others, a test that may not, a disabled test, and another
test that may run concurrently with others. -/
def suite : List Entry := [⟨⟨"a", "x.cpp", 1⟩, true, true⟩, ⟨⟨"b", "x.cpp", 2⟩, true, false⟩,
  ⟨⟨"c", "y.cpp", 3⟩, false, true⟩, ⟨⟨"d", "y.cpp", 4⟩, true, true⟩]

def ta : Entry := ⟨⟨"a", "x.cpp", 1⟩, true, true⟩
def tb : Entry := ⟨⟨"b", "x.cpp", 2⟩, true, false⟩
def td : Entry := ⟨⟨"d", "y.cpp", 4⟩, true, true⟩

/-- Run a plan with a list of actions. -/
def runWith (config : Config) (list : List Entry) (acts : List Act) : Option (List Ev × St) :=
  match plan config list with
  | .ok env => exec env ([.rootBegin], {}) acts
  | .error _ => none

theorem runWith_reach {config : Config} {list : List Entry} {acts : List Act} {y : List Ev × St}
    {env : Env} (hp : plan config list = .ok env) (h : runWith config list acts = some y) :
    Reach env y.1 y.2 := by
  unfold runWith at h
  rw [hp] at h
  exact exec_reach acts (x := ([.rootBegin], {})) Reach.init h

/-! ## C164: selection -/

theorem sortTests_perm (order : Option (Details → Details → Bool)) (l : List Entry) :
    (sortTests order l).Perm l := by
  unfold sortTests
  cases order with
  | none => exact List.Perm.refl _
  | some less => exact List.mergeSort_perm _ _

/-- With distinct names and a valid configuration, the run takes place, and the tests that will be
executed are exactly those that are enabled and that pass the filter. -/
theorem C164_selection (config : Config) (list : List Entry) (hn : NamesDistinct list)
    (hr : 0 ≤ config.numRepetitions) (ht : 0 ≤ config.numThreads) :
    ∃ env, plan config list = .ok env ∧
      env.tests.Perm (selected (config.filter.getD fun _ => true) list) ∧
      (config.testOrder = none → env.tests = selected (config.filter.getD fun _ => true) list) := by
  have hsel := select_ok (filter := config.filter) list {} (by simp) hn
  unfold plan
  rw [if_neg (by omega), if_neg (by omega), hsel]
  refine ⟨_, rfl, ?_, ?_⟩
  · simp only [List.nil_append]
    exact sortTests_perm _ _
  · intro h
    simp only [h, sortTests, List.nil_append]

/-- With an order, the tests are sorted, and tests that need not be swapped are not swapped. -/
theorem C164_sorted (config : Config) (list : List Entry) (env : Env)
    (h : plan config list = .ok env) (hs : ShuffleOk config) (less : Details → Details → Bool)
    (ho : config.testOrder = some less) (hl : StrictWeak less) :
    env.tests.Pairwise (fun a b => less b.details a.details = false) ∧
    (∀ a b, less b.details a.details = false →
      List.Sublist [a, b] (selected (config.filter.getD fun _ => true) list) →
        List.Sublist [a, b] env.tests) := by
  have htests := (plan_ok hs h).2.2.2.1
  rw [ho] at htests
  simp only [sortTests] at htests
  have htrans : ∀ a b c : Entry, (!less b.details a.details) = true →
      (!less c.details b.details) = true → (!less c.details a.details) = true := by
    intro a b c h1 h2
    simp only [Bool.not_eq_true'] at h1 h2 ⊢
    exact hl.negTrans _ _ _ h2 h1
  have htot : ∀ a b : Entry, ((!less b.details a.details) || !less a.details b.details) = true := by
    intro a b
    cases h1 : less b.details a.details with
    | false => rfl
    | true => rw [hl.asymm _ _ h1]; rfl
  rw [htests]
  constructor
  · refine (List.pairwise_mergeSort htrans htot _).imp ?_
    intro a b hab
    simpa using hab
  · intro a b hab hsub
    exact List.pair_sublist_mergeSort htrans htot (by simpa using hab) hsub

/-- If two tests have the same name, the first clash is reported, and no test is executed. -/
theorem C164_duplicate (config : Config) (list : List Entry) (hn : ¬ NamesDistinct list)
    (hr : 0 ≤ config.numRepetitions) (ht : 0 ≤ config.numThreads) :
    ∃ a b pre post, plan config list = .error (.duplicate a b) ∧ list = pre ++ b :: post ∧
      NamesDistinct pre ∧ a ∈ pre ∧ a.details.name = b.details.name := by
  obtain ⟨a, b, pre, post, h1, h2, h3, h4, h5⟩ :=
    select_dup (filter := config.filter) list {} (by simp) (by simpa using hn)
  refine ⟨a, b, pre, post, ?_, h2, by simpa using h3, by simpa using h4, h5⟩
  unfold plan
  rw [if_neg (by omega), if_neg (by omega), h1]

/-- A negative number of repetitions or threads is rejected. -/
theorem C164_negative (config : Config) (list : List Entry)
    (h : config.numRepetitions < 0 ∨ config.numThreads < 0) :
    plan config list = .error .badRepetitions ∨ plan config list = .error .badThreads := by
  unfold plan
  by_cases h1 : config.numRepetitions < 0
  · rw [if_pos h1]; exact Or.inl rfl
  · rw [if_neg h1, if_pos (h.resolve_left h1)]; exact Or.inr rfl

/-- The summary accounts for every test in the list. -/
theorem C164_accounting (config : Config) (list : List Entry) (env : Env) (hs : ShuffleOk config)
    (h : plan config list = .ok env) (tr : List Ev) (b : Bool) (hret : Returns env tr b) :
    ∃ sm, .rootEnd sm ∈ tr ∧
      sm.numSelected = (selected (config.filter.getD fun _ => true) list).length ∧
      sm.numDisabled = list.countP (fun t => !t.enabled) ∧
      sm.numExcluded =
        list.countP (fun t => t.enabled && !(config.filter.getD fun _ => true) t.details) ∧
      sm.numDisabled + sm.numExcluded + sm.numSelected = list.length := by
  obtain ⟨hwf, _⟩ := plan_wf hs h
  obtain ⟨_, _, _, ht, hne, hnd, _⟩ := plan_ok hs h
  obtain ⟨s, hr, hd⟩ := hret
  obtain ⟨tr0, h1, _⟩ := done_facts hwf hr hd
  have hlen : env.tests.length = (selected (config.filter.getD fun _ => true) list).length := by
    rw [ht]; exact (sortTests_perm _ _).length_eq
  have hsplit : ∀ l : List Entry, l.countP (·.enabled) =
      (selected (config.filter.getD fun _ => true) l).length +
      l.countP (fun t => t.enabled && !(config.filter.getD fun _ => true) t.details) := by
    intro l
    induction l with
    | nil => rfl
    | cons x xs ih =>
      have e1 : selected (config.filter.getD fun _ => true) (x :: xs) =
        if x.enabled && (config.filter.getD fun _ => true) x.details then
          x :: selected (config.filter.getD fun _ => true) xs
        else selected (config.filter.getD fun _ => true) xs := by
          simp only [selected, List.filter_cons]
      rw [e1, List.countP_cons, List.countP_cons, ih]
      cases x.enabled <;> cases (config.filter.getD fun _ => true) x.details <;> simp <;> omega
  have hall : ∀ l : List Entry,
      l.length = l.countP (·.enabled) + l.countP (fun t => !t.enabled) := by
    intro l
    induction l with
    | nil => rfl
    | cons x xs ih =>
      rw [List.length_cons, List.countP_cons, List.countP_cons, ih]
      cases x.enabled <;> simp <;> omega
  have hal := hall list
  have hsp := hsplit list
  refine ⟨summaryOf env s, by rw [h1]; simp, hlen, hnd, ?_, ?_⟩
  · simp only [summaryOf]; omega
  · simp only [summaryOf]; omega

example : NamesDistinct suite ∧ (∃ env, plan { numRepetitions := 1, numThreads := 2 } suite = .ok env ∧
    env.tests = [ta, tb, td]) := by
  have hn : NamesDistinct suite := by unfold NamesDistinct; decide
  obtain ⟨env, h1, _, h2⟩ := C164_selection { numRepetitions := 1, numThreads := 2 } suite hn
    (by decide) (by decide)
  exact ⟨hn, env, h1, (h2 rfl).trans rfl⟩

example : ¬ NamesDistinct [ta, tb, ta] := by unfold NamesDistinct; decide

example : StrictWeak (fun a b => decide (a.line < b.line)) where
  asymm a b h := by
    simp only [decide_eq_true_eq, decide_eq_false_iff_not] at h ⊢
    omega
  negTrans a b c h1 h2 := by
    simp only [decide_eq_false_iff_not] at h1 h2 ⊢
    omega

/-! ## C165: exactly once -/

/-- When `run()` returns, every selected test has been executed exactly once per repetition: it was
begun exactly once, it ended exactly once, and nothing else was executed. -/
theorem C165_exactly_once (config : Config) (list : List Entry) (env : Env) (hs : ShuffleOk config)
    (h : plan config list = .ok env) (tr : List Ev) (b : Bool) (hret : Returns env tr b) :
    ((begins tr).map Prod.snd).Perm (allExecs env.tests.length config.numRepetitions.toNat) ∧
    (ends tr).Perm (begins tr) ∧
    ∃ sm, .rootEnd sm ∈ tr ∧
      sm.numExecutions = env.tests.length * config.numRepetitions.toNat := by
  obtain ⟨hwf, hperm, _, _⟩ := plan_wf hs h
  obtain ⟨_, _, _, _, _, _, hrep, _⟩ := plan_ok hs h
  obtain ⟨s, hr, hd⟩ := hret
  obtain ⟨tr0, h1, h2, _, _, h3⟩ := done_facts hwf hr hd
  rw [hrep] at hperm
  refine ⟨?_, h3, summaryOf env s, by rw [h1]; simp, ?_⟩
  · rw [h1, begins_rootEnd, h2.begins_eq]; exact hperm
  · have := hperm.length_eq
    rw [List.length_append, allExecs_length] at this
    exact this

/-- At any time, no test execution has been begun twice, and only selected tests are executed. -/
theorem C165_at_most_once (config : Config) (list : List Entry) (env : Env) (hs : ShuffleOk config)
    (h : plan config list = .ok env) (tr : List Ev) (hoc : Occurs env tr) :
    ((begins tr).map Prod.snd).Nodup ∧
    ∀ p ∈ begins tr, p.2.test < env.tests.length ∧ 1 ≤ p.2.rep ∧
      p.2.rep ≤ config.numRepetitions.toNat := by
  obtain ⟨hwf, hperm, _, _⟩ := plan_wf hs h
  obtain ⟨_, _, _, _, _, _, hrep, _⟩ := plan_ok hs h
  obtain ⟨s, hr⟩ := hoc
  refine ⟨(inv hwf hr).1.beginsNodup, ?_⟩
  intro p hp
  have : p.2 ∈ env.concur ++ env.nonconcur :=
    (begins_prefix hwf hr).subset (List.mem_map.2 ⟨p, hp, rfl⟩)
  have := hperm.subset this
  rw [hrep] at this
  have := (mem_allExecs _ _ _).1 this
  omega

/-- A testing thread executes one test at a time, and everything that happens in a test, including
its end, happens on its testing thread between its beginning and its end. -/
theorem C165_one_at_a_time (config : Config) (list : List Entry) (env : Env) (hs : ShuffleOk config)
    (h : plan config list = .ok env) (tr : List Ev) (hoc : Occurs env tr) :
    ((running tr).map Prod.fst).Nodup ∧
    ∀ x ev y, tr = x ++ ev :: y → ∀ p, ev.test? = some p → begins [ev] = [] → p ∈ running x := by
  obtain ⟨hwf, _⟩ := plan_wf hs h
  obtain ⟨s, hr⟩ := hoc
  exact ⟨running_fst_nodup hwf hr, test_events hwf hr⟩

example : allExecs 2 2 = [⟨0, 1⟩, ⟨1, 1⟩, ⟨0, 2⟩, ⟨1, 2⟩] := rfl

/-! ## C166: tests that do not allow concurrency -/

/-- While a test that does not allow concurrency is running, no other test is running. -/
theorem C166_exclusive (config : Config) (list : List Entry) (env : Env) (hs : ShuffleOk config)
    (h : plan config list = .ok env) (tr : List Ev) (hoc : Occurs env tr) (p : Nat × Exec)
    (hp : p ∈ running tr) (hl : Lonely env p.2) : running tr = [p] := by
  obtain ⟨hwf, _, hc, _⟩ := plan_wf hs h
  obtain ⟨s, hr⟩ := hoc
  refine running_nonconcur hwf hr hp ?_
  intro hmem
  have := hc _ hmem
  obtain ⟨t, h1, h2⟩ := hl
  simp [isConcur, h1, h2] at this

/-- The number of tests that are running never exceeds the configured number of threads, which is
the number of hardware threads if it is specified as zero. -/
theorem C166_bounded (config : Config) (list : List Entry) (env : Env) (hs : ShuffleOk config)
    (h : plan config list = .ok env) (tr : List Ev) (hoc : Occurs env tr) :
    (0 < config.numThreads → ((running tr).length : Int) ≤ config.numThreads) ∧
    (config.numThreads = 0 → (running tr).length ≤ max 1 config.hardware) ∧
    (∀ ev ∈ tr, ∀ i, ev.thread? = some i → i < env.numThreads) := by
  obtain ⟨hwf, _⟩ := plan_wf hs h
  obtain ⟨_, _, _, _, _, _, _, _, _, _, _, hn⟩ := plan_ok hs h
  obtain ⟨s, hr⟩ := hoc
  have hlen := running_length hwf hr
  have hle : env.numThreads ≤ configuredThreads config.numThreads config.hardware := by
    rw [hn]; unfold limitThreads; split <;> simp only <;> split <;> omega
  refine ⟨?_, ?_, ?_⟩
  · intro h1
    unfold configuredThreads at hle
    rw [if_neg (by omega)] at hle
    omega
  · intro h1
    unfold configuredThreads at hle
    rw [if_pos (by omega)] at hle
    split at hle
    · split at hle <;> omega
    · omega
  · intro ev hev i hi
    obtain ⟨x, y, hxy⟩ := List.append_of_mem hev
    have hbeg : .threadBegin i ∈ tr := by
      by_cases hc : ev = .threadBegin i
      · rw [← hc]; exact hev
      · rw [hxy]
        exact List.mem_append_left _ (threadBegin_before hwf hr i x ev y hxy hi hc)
    obtain ⟨x, y, hxy⟩ := List.append_of_mem hbeg
    have key : ∀ x ev y, tr = x ++ ev :: y → ev = .threadBegin i → i < env.numThreads := by
      refine event_induct (P := fun _ ev => ev = .threadBegin i → i < env.numThreads) (by simp) ?_ hr
      intro tr s s' a ev hr hs hev
      subst hev
      cases hs <;> simp_all
    exact key x _ y hxy rfl

/-! ## C167: order -/

/-- The executions in the order in which they are begun: concurrent ones first. -/
theorem C167_order_partial (config : Config) (list : List Entry) (env : Env)
    (h : plan config list = .ok env) (hsh : config.shuffle = none) (tr : List Ev)
    (hoc : Occurs env tr) :
    (begins tr).map Prod.snd <+:
      (allExecs env.tests.length config.numRepetitions.toNat).filter
        (isConcur (configuredThreads config.numThreads config.hardware) env.tests) ++
      (allExecs env.tests.length config.numRepetitions.toNat).filter
        (fun e => !isConcur (configuredThreads config.numThreads config.hardware) env.tests e) := by
  have hs : ShuffleOk config := by intro f hf; rw [hsh] at hf; cases hf
  obtain ⟨hwf, _⟩ := plan_wf hs h
  obtain ⟨_, _, _, _, _, _, hrep, _, _, _, ⟨fc, fn, _, _, hid, h1, h2⟩, _⟩ := plan_ok hs h
  obtain ⟨s, hr⟩ := hoc
  obtain ⟨rfl, rfl⟩ := hid hsh
  have := begins_prefix hwf hr
  rw [h1, h2, hrep] at this
  exact this

/-- With one thread, or if all selected tests allow concurrency, the executions are begun in the
documented order. -/
theorem C167_documented_order_partial (config : Config) (list : List Entry) (env : Env)
    (h : plan config list = .ok env) (hsh : config.shuffle = none)
    (hc : config.numThreads = 1 ∨ ∀ t ∈ env.tests, t.allowConcur = true) (tr : List Ev)
    (hoc : Occurs env tr) :
    (begins tr).map Prod.snd <+: allExecs env.tests.length config.numRepetitions.toNat := by
  have hp := C167_order_partial config list env h hsh tr hoc
  by_cases h1 : configuredThreads config.numThreads config.hardware > 1
  · have hall : ∀ e ∈ allExecs env.tests.length config.numRepetitions.toNat,
        isConcur (configuredThreads config.numThreads config.hardware) env.tests e = true := by
      intro e he
      rcases hc with hc | hc
      · rw [hc] at h1; simp [configuredThreads] at h1
      · have hlt := ((mem_allExecs _ _ _).1 he).1
        simp only [isConcur, List.getElem?_eq_getElem hlt, hc _ (List.getElem_mem hlt), h1,
          decide_true, Bool.and_self]
    rw [List.filter_eq_self.2 hall, List.filter_eq_nil_iff.2 (by intro e he; simp [hall e he]),
      List.append_nil] at hp
    exact hp
  · have hall : ∀ e, isConcur (configuredThreads config.numThreads config.hardware) env.tests e
        = false := by
      intro e; simp [isConcur, h1]
    rw [List.filter_eq_nil_iff.2 (by intro e _; simp [hall e]),
      List.filter_eq_self.2 (by intro e _; simp [hall e]), List.nil_append] at hp
    exact hp

/-- The claim: without shuffling, executions are begun in the documented order. -/
def OrderClaim : Prop :=
  ∀ (config : Config) (list : List Entry) (env : Env), plan config list = .ok env →
    config.shuffle = none → ∀ tr, Occurs env tr →
    (begins tr).map Prod.snd <+: allExecs env.tests.length config.numRepetitions.toNat

/-- Tests `b` and `a`, where `b` does not allow concurrency: `a` is begun first. -/
theorem C167_order_violated : ¬ OrderClaim := by
  intro hc
  have hrun : ∃ env, plan { numRepetitions := 1, numThreads := 2 } [tb, ta] = .ok env ∧
      ∃ y, runWith { numRepetitions := 1, numThreads := 2 } [tb, ta] [.start 0, .next 0] = some y ∧
        (begins y.1).map Prod.snd = [⟨1, 1⟩] ∧ env.tests.length = 2 :=
    ⟨_, rfl, _, rfl, by decide, rfl⟩
  obtain ⟨env, hp, y, hy, hb, hl⟩ := hrun
  have := hc _ _ env hp rfl y.1 ⟨_, runWith_reach hp hy⟩
  rw [hb, hl] at this
  revert this
  decide

/-! ## C168: the summary and the return value -/

theorem countP_true_and (l : List Ev) (p : Ev → Bool) :
    l.countP (fun ev => true && p ev) = l.countP p := by simp

/-- Which condition makes the executions counted complete. -/
theorem all_counted {config : Config} {list : List Entry} {env : Env} (hs : ShuffleOk config)
    (h : plan config list = .ok env)
    (hc : config.numThreads = 1 ∨ ∀ t ∈ env.tests, t.allowConcur = true) :
    env.concur = [] ∨ env.nonconcur = [] := by
  obtain ⟨_, hperm, h1, h2⟩ := plan_wf hs h
  by_cases hn : configuredThreads config.numThreads config.hardware > 1
  · right
    rw [List.eq_nil_iff_forall_not_mem]
    intro e he
    have hmem := hperm.subset (List.mem_append_right _ he)
    have hlt := ((mem_allExecs _ _ _).1 hmem).1
    have := h2 e he
    rcases hc with hc | hc
    · rw [hc] at hn; simp [configuredThreads] at hn
    · simp [isConcur, List.getElem?_eq_getElem hlt, hc _ (List.getElem_mem hlt), hn] at this
  · left
    rw [List.eq_nil_iff_forall_not_mem]
    intro e he
    have := h1 e he
    simp [isConcur, hn] at this

/-- With one thread, or if all selected tests allow concurrency, the summary counts all the checks,
all the failed checks, and all the failed test executions, and the return value tells whether
something failed. -/
theorem C168_summary_partial (config : Config) (list : List Entry) (env : Env) (hs : ShuffleOk config)
    (h : plan config list = .ok env)
    (hc : config.numThreads = 1 ∨ ∀ t ∈ env.tests, t.allowConcur = true) (tr : List Ev) (b : Bool)
    (hret : Returns env tr b) :
    (∃ sm, .rootEnd sm ∈ tr ∧ sm.numChecks = tr.countP Ev.isCheck ∧
      sm.numFailedChecks = tr.countP Ev.isFailedCheck ∧
      sm.numFailedExecutions =
        (allExecs env.tests.length config.numRepetitions.toNat).countP (failed tr)) ∧
    (b = true ↔ ∀ ev ∈ tr, ev.isFailure = false) := by
  have honce := C165_exactly_once config list env hs h tr b hret
  obtain ⟨hwf, _⟩ := plan_wf hs h
  obtain ⟨s, hr, hd⟩ := hret
  obtain ⟨tr0, h1, h2, h3, h4, h5⟩ := done_facts hwf hr hd
  have hcount := done_counts_all hwf hr hd (all_counted hs h hc)
  have hc1 := total_fst tr (fun _ => true)
  have hc2 := total_snd tr (fun _ => true)
  have hc3 := total_trd tr (fun _ => true)
  rw [← hcount] at hc1 hc2 hc3
  simp only [Bool.true_and] at hc1 hc2 hc3
  have hc3' : s.counters.2.2 =
      (allExecs env.tests.length config.numRepetitions.toNat).countP (failed tr) := by
    rw [hc3, h5.countP_eq, ← honce.1.countP_eq, List.countP_map]
    rfl
  refine ⟨⟨summaryOf env s, by rw [h1]; simp, hc1, hc2, hc3'⟩, ?_⟩
  rw [h3]
  simp only [beq_iff_eq]
  rw [hc3, List.countP_eq_zero]
  constructor
  · intro hz ev hev
    by_contra hf
    simp only [Bool.not_eq_false] at hf
    obtain ⟨p, hp⟩ := isFailure_test hf
    have hbeg := (inv hwf hr).1.events ev hev p hp
    refine hz p (h5.symm.subset hbeg) ?_
    simp only [failed, List.any_eq_true]
    exact ⟨ev, hev, by simp [hf, hp]⟩
  · intro hall p _ hf
    simp only [failed, List.any_eq_true] at hf
    obtain ⟨ev, hev, hf⟩ := hf
    rw [hall ev hev] at hf
    simp at hf

/-- In general, the counts are those of all the tests except those that were executed concurrently on
one particular testing thread. In particular, nothing is counted that did not happen, and `run()`
returns `false` only if something failed, and always if something failed in a test that does not
allow concurrency. -/
theorem C168_counts_partial (config : Config) (list : List Entry) (env : Env) (hs : ShuffleOk config)
    (h : plan config list = .ok env) (tr : List Ev) (b : Bool) (hret : Returns env tr b) :
    (∃ k sm, .rootEnd sm ∈ tr ∧
      sm.numChecks = tr.countP (fun ev => ev.isCheck && (decide (env.nonconcur = []) ||
        inExecs env.nonconcur ev || !onThread k ev)) ∧
      sm.numFailedChecks = tr.countP (fun ev => ev.isFailedCheck && (decide (env.nonconcur = []) ||
        inExecs env.nonconcur ev || !onThread k ev)) ∧
      sm.numFailedExecutions = (begins tr).countP (fun p => failed tr p.2 &&
        (decide (env.nonconcur = []) || decide (p.2 ∈ env.nonconcur) || decide (p.1 ≠ k)))) ∧
    (b = false → ∃ ev ∈ tr, ev.isFailure = true) ∧
    (∀ ev ∈ tr, ev.isFailure = true → (∀ p, ev.test? = some p → Lonely env p.2) → b = false) := by
  obtain ⟨hwf, hperm, hcon, _⟩ := plan_wf hs h
  obtain ⟨s, hr, hd⟩ := hret
  obtain ⟨tr0, h1, h2, h3, h4, h5⟩ := done_facts hwf hr hd
  obtain ⟨k, hk, hcount⟩ := done_counts hwf hr hd
  have hc1 := total_fst tr (fun ev => decide (env.nonconcur = []) ||
    (inExecs env.nonconcur ev || !onThread k ev))
  have hc2 := total_snd tr (fun ev => decide (env.nonconcur = []) ||
    (inExecs env.nonconcur ev || !onThread k ev))
  have hc3 := total_trd tr (fun ev => decide (env.nonconcur = []) ||
    (inExecs env.nonconcur ev || !onThread k ev))
  rw [← hcount] at hc1 hc2 hc3
  have hc3' : s.counters.2.2 = (begins tr).countP (fun p => failed tr p.2 &&
        (decide (env.nonconcur = []) || decide (p.2 ∈ env.nonconcur) || decide (p.1 ≠ k))) := by
    rw [hc3, h5.countP_eq]
    congr 1
    funext p
    have e1 : inExecs env.nonconcur (.testEnd p.1 p.2) = decide (p.2 ∈ env.nonconcur) := rfl
    have e2 : (!onThread k (.testEnd p.1 p.2)) = decide (p.1 ≠ k) := by
      simp [onThread, Ev.thread?]
    rw [e1, e2, Bool.and_comm, Bool.or_assoc]
  refine ⟨⟨k, summaryOf env s, by rw [h1]; simp, ?_, ?_, hc3'⟩, ?_, ?_⟩
  · refine hc1.trans ?_
    congr 1
    funext ev
    rw [Bool.and_comm, Bool.or_assoc]
  · refine hc2.trans ?_
    congr 1
    funext ev
    rw [Bool.and_comm, Bool.or_assoc]
  · intro hb
    rw [h3] at hb
    have hne : s.counters.2.2 ≠ 0 := by simpa using hb
    rw [hc3'] at hne
    have hpos : 0 < (begins tr).countP (fun p => failed tr p.2 &&
        (decide (env.nonconcur = []) || decide (p.2 ∈ env.nonconcur) || decide (p.1 ≠ k))) := by omega
    obtain ⟨p, _, hp⟩ := List.countP_pos_iff.1 hpos
    rw [Bool.and_eq_true] at hp
    have hf := hp.1
    simp only [failed, List.any_eq_true] at hf
    obtain ⟨ev, hev, hf⟩ := hf
    rw [Bool.and_eq_true] at hf
    exact ⟨ev, hev, hf.1⟩
  · intro ev hev hf hl
    obtain ⟨p, hp⟩ := isFailure_test hf
    have hbeg := (inv hwf hr).1.events ev hev p hp
    have hmem : p.2 ∈ env.concur ++ env.nonconcur :=
      (begins_prefix hwf hr).subset (List.mem_map.2 ⟨p, hbeg, rfl⟩)
    have hnon : p.2 ∈ env.nonconcur := by
      rcases List.mem_append.1 hmem with hm | hm
      · exfalso
        have := hcon _ hm
        obtain ⟨t, e1, e2⟩ := hl p hp
        simp [isConcur, e1, e2] at this
      · exact hm
    rw [h3]
    have hpos : 0 < s.counters.2.2 := by
      rw [hc3', List.countP_pos_iff]
      refine ⟨p, hbeg, ?_⟩
      have hfail : failed tr p.2 = true := by
        simp only [failed, List.any_eq_true]
        exact ⟨ev, hev, by simp [hf, hp]⟩
      simp [hfail, hnon]
    have : s.counters.2.2 ≠ 0 := by omega
    simp [this]

/-- The claim: `run()` returns `true` if, and only if nothing failed. -/
def ResultClaim : Prop :=
  ∀ (config : Config) (list : List Entry) (env : Env), plan config list = .ok env →
    ShuffleOk config → ∀ tr b, Returns env tr b → (b = true ↔ ∀ ev ∈ tr, ev.isFailure = false)

/-- Two threads, test `a` fails, test `b` does not allow concurrency and succeeds: `run()` returns
`true`. -/
theorem C168_result_violated : ¬ ResultClaim := by
  intro hc
  have hrun : ∃ env, plan { numRepetitions := 1, numThreads := 2 } [ta, tb] = .ok env ∧
      ∃ y, runWith { numRepetitions := 1, numThreads := 2 } [ta, tb]
        [.start 0, .next 0, .checkFail 0 "x.cpp" 17, .finish 0, .next 0, .join, .next 0, .checkOk 0,
          .finish 0, .next 0, .summarize] = some y ∧ y.2.stage = .done true ∧
        .checkFail 0 ⟨0, 1⟩ "x.cpp" 17 "x.cpp" ∈ y.1 :=
    ⟨_, rfl, _, rfl, rfl, by decide⟩
  obtain ⟨env, hp, y, hy, hb, hl⟩ := hrun
  have := (hc _ _ env hp (by intro f hf; cases hf) y.1 true ⟨_, runWith_reach hp hy, hb⟩).1 rfl _ hl
  cases this

/-- With three tests and no test that disallows concurrency, the failure is noticed. -/
example : ∃ y, runWith { numRepetitions := 1, numThreads := 2 } [ta, td]
    [.start 0, .next 0, .start 1, .next 1, .checkFail 0 "x.cpp" 17, .checkOk 1, .finish 0, .next 0,
      .throw 1, .finish 1, .next 1, .join, .summarize] = some y ∧ y.2.stage = .done false ∧
    y.1.getLast? = some (.rootEnd ⟨0, 0, 2, 2, 2, 2, 1⟩) :=
  ⟨_, rfl, rfl, by decide⟩

/-! ## C169: the sequence of invocations of the reporter -/

/-- The report begins with `root_begin()`, which is not invoked again, and nothing follows
`root_end()`. -/
theorem C169_root (env : Env) (tr : List Ev) (hoc : Occurs env tr) :
    (∃ y, tr = .rootBegin :: y ∧ .rootBegin ∉ y) ∧ (∀ x sm y, tr = x ++ .rootEnd sm :: y → y = []) := by
  obtain ⟨s, hr⟩ := hoc
  exact root_events hr

/-- When the run has completed, `root_end()` has been invoked, and `thread_begin()` has been invoked
exactly once for each testing thread. -/
theorem C169_complete (config : Config) (list : List Entry) (env : Env) (hs : ShuffleOk config)
    (h : plan config list = .ok env) (tr : List Ev) (b : Bool) (hret : Returns env tr b) :
    (∃ x sm, tr = x ++ [.rootEnd sm]) ∧
    ∀ i, tr.count (.threadBegin i) = if i < env.numThreads then 1 else 0 := by
  obtain ⟨hwf, _⟩ := plan_wf hs h
  have hlt := (C166_bounded config list env hs h tr ⟨_, hret.choose_spec.1⟩).2.2
  obtain ⟨s, hr, hd⟩ := hret
  obtain ⟨tr0, h1, h2, _⟩ := done_facts hwf hr hd
  refine ⟨⟨tr0, _, h1⟩, ?_⟩
  intro i
  by_cases hi : i < env.numThreads
  · rw [if_pos hi, h1, List.count_append, h2.tb i hi]; simp
  · rw [if_neg hi, List.count_eq_zero]
    intro hm
    exact hi (hlt _ hm i rfl)

/-- Every event of a testing thread comes after the invocation of `thread_begin()` for that thread. -/
theorem C169_begin_first (config : Config) (list : List Entry) (env : Env) (hs : ShuffleOk config)
    (h : plan config list = .ok env) (tr : List Ev) (hoc : Occurs env tr) (i : Nat) :
    ∀ x ev y, tr = x ++ ev :: y → ev.thread? = some i → ev ≠ .threadBegin i →
      .threadBegin i ∈ x := by
  obtain ⟨hwf, _⟩ := plan_wf hs h
  obtain ⟨s, hr⟩ := hoc
  exact threadBegin_before hwf hr i

/-- When the last testing thread is finalized twice. -/
theorem double_end {config : Config} {list : List Entry} {env : Env} (hs : ShuffleOk config)
    (h : plan config list = .ok env)
    (h1 : env.tests.length * config.numRepetitions.toNat = 1 → config.numThreads = 1 ∨
      ∀ t ∈ env.tests, t.allowConcur = false) :
    env.nonconcur = [] → env.numThreads ≠ 1 := by
  intro hn ht
  obtain ⟨_, hperm, hcon, _⟩ := plan_wf hs h
  obtain ⟨_, _, _, _, _, _, hrep, _, _, _, _, hlim⟩ := plan_ok hs h
  rw [hn, List.append_nil, hrep] at hperm
  have hlen := hperm.length_eq
  rw [allExecs_length] at hlen
  have hpos : env.concur ≠ [] := by
    intro hc
    rw [ht, hc, hn] at hlim
    have := configuredThreads_pos config.numThreads config.hardware
    simp only [limitThreads, ne_eq, not_true_eq_false, and_false, if_false, List.length_nil,
      if_pos this] at hlim
    cases hlim
  obtain ⟨e, es, he⟩ := List.exists_cons_of_ne_nil hpos
  have hcc := hcon e (by rw [he]; simp)
  have hgt : configuredThreads config.numThreads config.hardware > 1 := by
    simp only [isConcur, Bool.and_eq_true, decide_eq_true_eq] at hcc
    exact hcc.2
  have hl1 : env.concur.length = 1 := by
    rw [ht, hn] at hlim
    have : 0 < env.concur.length := by rw [he]; simp
    simp only [limitThreads, ne_eq, not_true_eq_false, and_false, if_false] at hlim
    split at hlim <;> omega
  rcases h1 (by omega) with h2 | h2
  · rw [h2] at hgt; simp [configuredThreads] at hgt
  · have hmem := hperm.subset (show e ∈ env.concur by rw [he]; simp)
    have hlt := ((mem_allExecs _ _ _).1 hmem).1
    simp [isConcur, List.getElem?_eq_getElem hlt, h2 _ (List.getElem_mem hlt)] at hcc

/-- Unless there is only one test execution, and it is executed concurrently, `thread_end()` is
invoked exactly once for each testing thread, and no event of the testing thread follows. -/
theorem C169_end_last_partial (config : Config) (list : List Entry) (env : Env)
    (hs : ShuffleOk config) (h : plan config list = .ok env)
    (h1 : env.tests.length * config.numRepetitions.toNat = 1 → config.numThreads = 1 ∨
      ∀ t ∈ env.tests, t.allowConcur = false) (tr : List Ev) (i : Nat) :
    (Occurs env tr → ∀ x ev y, tr = x ++ ev :: y → ev.thread? = some i → .threadEnd i ∉ x) ∧
    (∀ b, Returns env tr b → i < env.numThreads → tr.count (.threadEnd i) = 1) := by
  obtain ⟨hwf, _⟩ := plan_wf hs h
  have hx := double_end hs h h1
  constructor
  · rintro ⟨s, hr⟩
    exact threadEnd_not_before hwf hx hr i
  · rintro b ⟨s, hr, hd⟩ hi
    obtain ⟨tr0, h1, h2, _⟩ := done_facts hwf hr hd
    rw [h1, List.count_append, h2.te i hi, if_neg (by rintro ⟨h3, h4⟩; exact hx h3 h4)]
    simp

/-- The claim: `thread_end()` is invoked exactly once for each testing thread. -/
def EndClaim : Prop :=
  ∀ (config : Config) (list : List Entry) (env : Env), plan config list = .ok env →
    ShuffleOk config → ∀ tr b, Returns env tr b → ∀ i, i < env.numThreads →
    tr.count (.threadEnd i) = 1

/-- Two threads and one test that allows concurrency: `thread_end()` is invoked twice. -/
theorem C169_end_violated : ¬ EndClaim := by
  intro hc
  have hrun : ∃ env, plan { numRepetitions := 1, numThreads := 2 } [ta] = .ok env ∧
      ∃ y, runWith { numRepetitions := 1, numThreads := 2 } [ta]
        [.start 0, .next 0, .checkOk 0, .finish 0, .next 0, .join, .next 0, .summarize] = some y ∧
        y.2.stage = .done true ∧ y.1.count (.threadEnd 0) = 2 ∧ env.numThreads = 1 :=
    ⟨_, rfl, _, rfl, rfl, by decide, rfl⟩
  obtain ⟨env, hp, y, hy, hb, hl, hn⟩ := hrun
  have := hc _ _ env hp (by intro f hf; cases hf) y.1 true ⟨_, runWith_reach hp hy, hb⟩ 0 (by omega)
  omega

/-! ## C170: seeds and locations -/

/-- The seed of a test execution depends on nothing but the repetition number and the configured
override, so not on threads, on the order of execution, or on other tests. -/
theorem C170_seed (config : Config) (list : List Entry) (env : Env) (hs : ShuffleOk config)
    (h : plan config list = .ok env) (tr : List Ev) (hoc : Occurs env tr) (i : Nat) (e : Exec)
    (seed : Nat × Nat) (hev : .testBegin i e seed ∈ tr) :
    seed.1 < 2 ^ 32 ∧ seed.2 < 2 ^ 32 ∧
    ((if config.seedOverride = 0 then e.rep else config.seedOverride) < 2 ^ 64 →
      seed.1 + 2 ^ 32 * seed.2 = if config.seedOverride = 0 then e.rep else config.seedOverride) := by
  obtain ⟨_, _, _, _, _, _, _, _, _, hso, _⟩ := plan_ok hs h
  obtain ⟨s, hr⟩ := hoc
  have := good hr _ hev
  simp only [Good, seedExtra] at this
  rw [this, ← hso]
  by_cases h0 : env.seedOverride = 0
  · simp only [h0, if_true, ne_eq, not_true_eq_false, if_false]
    omega
  · simp only [h0, if_false, ne_eq, not_false_eq_true, if_true]
    omega

/-- A failure is reported with the location where it occurred, and with the path mapped by the
configured mapping, whatever was reported before. -/
theorem C170_location (config : Config) (list : List Entry) (env : Env) (hs : ShuffleOk config)
    (h : plan config list = .ok env) (tr : List Ev) (hoc : Occurs env tr) :
    (∀ i e file line mapped, .checkFail i e file line mapped ∈ tr → file ≠ "" →
      mapped = config.mapPath file) ∧
    (∀ i e file line mapped, .testFail i e file line mapped ∈ tr →
      mapped = config.mapPath file ∧ ∃ t, env.tests[e.test]? = some t ∧ t.details.file = file ∧
        t.details.line = line) := by
  obtain ⟨_, _, _, _, _, _, _, _, hmp, _⟩ := plan_ok hs h
  have hbnd := C165_at_most_once config list env hs h tr hoc
  obtain ⟨hwf, _⟩ := plan_wf hs h
  obtain ⟨s, hr⟩ := hoc
  rw [← hmp]
  constructor
  · intro i e file line mapped hev
    exact good hr _ hev
  · intro i e file line mapped hev
    obtain ⟨h1, h2, h3⟩ := good hr _ hev
    have hlt := (hbnd.2 _ ((inv hwf hr).1.events _ hev (i, e) rfl)).1
    refine ⟨h3, env.tests[e.test], List.getElem?_eq_getElem hlt, ?_, ?_⟩
    · rw [h1]; simp only [detailsOf, List.getElem?_eq_getElem hlt]
    · rw [h2]; simp only [detailsOf, List.getElem?_eq_getElem hlt]

/-- The location of a failing check is the location passed by the test. -/
theorem C170_check_location (env : Env) (s s' : St) (evs : List Ev) (i : Nat) (file : String)
    (line : Int) (h : step env s (.checkFail i file line) = some (s', evs)) :
    ∃ e mapped, evs = [.checkFail i e file line mapped] := by
  cases shape h with
  | checkFail t h1 h2 h3 ht ht1 ht2 ht3 h4 h5 => exact ⟨_, _, h5⟩

example : ∃ y, runWith { numRepetitions := 2, numThreads := 1, mapPath := fun s => "src/" ++ s } [ta]
    [.start 0, .next 0, .join, .next 0, .checkFail 0 "u.hpp" 5, .checkFail 0 "u.hpp" 6,
      .checkFail 0 "x.cpp" 7] = some y ∧
    y.1 = [.rootBegin, .threadBegin 0, .testBegin 0 ⟨0, 1⟩ (1, 0),
      .checkFail 0 ⟨0, 1⟩ "u.hpp" 5 "src/u.hpp", .checkFail 0 ⟨0, 1⟩ "u.hpp" 6 "src/u.hpp",
      .checkFail 0 ⟨0, 1⟩ "x.cpp" 7 "src/x.cpp"] :=
  ⟨_, rfl, rfl⟩

/-! ## C171: abort on failure -/

/-- If abort on failure is enabled, the program is aborted at the first failure, right after it has
been reported; otherwise the program is never aborted. -/
theorem C171_abort (config : Config) (list : List Entry) (env : Env) (hs : ShuffleOk config)
    (h : plan config list = .ok env) (tr : List Ev) :
    (config.abortOnFailure = true → Occurs env tr → (∃ ev ∈ tr, ev.isFailure = true) →
      Aborts env tr ∧ ∃ x ev, tr = x ++ [ev] ∧ ev.isFailure = true ∧ ∀ ev' ∈ x, ev'.isFailure = false) ∧
    (Aborts env tr → config.abortOnFailure = true ∧ ∃ ev ∈ tr, ev.isFailure = true) := by
  obtain ⟨_, _, _, _, _, _, _, hab, _⟩ := plan_ok hs h
  rw [← hab]
  constructor
  · rintro ha ⟨s, hr⟩ ⟨ev, hev, hf⟩
    have hi := abort_inv hr
    by_cases hst : s.stage = .aborted
    · exact ⟨⟨s, hr, hst⟩, (hi.2 hst).2⟩
    · have := hi.1 hst ha ev hev
      rw [hf] at this; cases this
  · rintro ⟨s, hr, hst⟩
    obtain ⟨h1, x, ev, h2, h3, _⟩ := (abort_inv hr).2 hst
    exact ⟨h1, ev, by rw [h2]; simp, h3⟩

example : ∃ y, runWith { numRepetitions := 1, numThreads := 2, abortOnFailure := true } [ta, td]
    [.start 0, .next 0, .start 1, .next 1, .checkOk 0, .throw 1] = some y ∧ y.2.stage = .aborted :=
  ⟨_, rfl, rfl⟩

/-! ## C172: termination -/

/-- There is no deadlock: as long as `run()` has not returned, some thread can take a step that does
not consist in a test performing another check. -/
theorem C172_no_deadlock (config : Config) (list : List Entry) (env : Env) (hs : ShuffleOk config)
    (h : plan config list = .ok env) (tr : List Ev) (s : St) (hr : Reach env tr s)
    (h1 : s.stage ≠ .aborted) (h2 : ∀ b, s.stage ≠ .done b) :
    ∃ a, a.ofHarness = true ∧ (step env s a).isSome = true :=
  progress (plan_wf hs h).1 hr h1 h2

/-- The number of such steps is bounded by a number that depends only on the number of executions
and threads, however the threads are scheduled and whatever the tests do. -/
theorem C172_bounded (config : Config) (list : List Entry) (env : Env) (hs : ShuffleOk config)
    (h : plan config list = .ok env) (acts : List Act) (y : List Ev × St)
    (hy : exec env ([.rootBegin], {}) acts = some y) :
    acts.countP (·.ofHarness) ≤
      6 + 2 * (env.tests.length * config.numRepetitions.toNat) + 4 * env.numThreads := by
  obtain ⟨hwf, hperm, _⟩ := plan_wf hs h
  obtain ⟨_, _, _, _, _, _, hrep, _⟩ := plan_ok hs h
  have := harness_bound hwf acts (x := ([.rootBegin], {})) Reach.init hy
  have hlen := hperm.length_eq
  rw [List.length_append, allExecs_length, hrep] at hlen
  have hsum : ∀ n : Nat, ((List.range n).map fun _ => 4).sum = 4 * n := by
    intro n
    rw [List.map_const', List.sum_replicate, List.length_range]
    simp [Nat.mul_comm]
  have hinit : St.remaining env {} = 6 + 2 * env.nonconcur.length + 2 * env.concur.length +
      4 * env.numThreads := by
    rw [← hsum]; rfl
  simp only at this
  omega

/-- From any point of any run that has not been aborted, the run can be completed. -/
theorem C172_completes (config : Config) (list : List Entry) (env : Env) (hs : ShuffleOk config)
    (h : plan config list = .ok env) (tr : List Ev) (s : St) (hr : Reach env tr s)
    (h1 : s.stage ≠ .aborted) :
    ∃ acts tr' b, (∀ a ∈ acts, a.ofHarness = true) ∧
      (∃ s', exec env (tr, s) acts = some (tr', s')) ∧ Returns env tr' b := by
  obtain ⟨acts, tr', s', b, e1, e2, e3⟩ := can_complete (plan_wf hs h).1 _ hr h1 rfl
  exact ⟨acts, tr', b, e1, ⟨s', e2⟩, s', exec_reach acts (x := (tr, s)) hr e2, e3⟩

/-- A run without tests returns at once. -/
example : ∃ y, runWith { numRepetitions := 1, numThreads := 2 } [] [.join, .summarize] = some y ∧
    y.2.stage = .done true ∧ y.1 = [.rootBegin, .rootEnd ⟨0, 0, 0, 0, 0, 0, 0⟩] :=
  ⟨_, rfl, rfl, rfl⟩

/-! ## C173: creation of subdirectories -/

/-- What is true of the loop. -/
theorem ensureLoop_spec (segments path : List String) (created : List (List String))
    (hp : ∀ n, 0 < n → n ≤ path.length → path.take n ∈ created) :
    let r := ensureLoop segments (path, created)
    (r.1 = (resolve.go segments path.reverse).isSome) ∧
    (∀ d, resolve.go segments path.reverse = some d → r.2.1 = d ∧ (d ≠ [] → d ∈ r.2.2)) ∧
    (∃ more, r.2.2 = created ++ more ∧ ∀ d ∈ more, d ≠ [] ∧
      ∃ pre, pre <+: segments ∧ resolve.go pre path.reverse = some d) := by
  induction segments generalizing path created with
  | nil =>
    refine ⟨by simp [ensureLoop, resolve.go], ?_, [], by simp [ensureLoop], by simp⟩
    intro d hd
    simp only [resolve.go, List.reverse_reverse, Option.some.injEq] at hd
    subst hd
    refine ⟨rfl, fun hne => ?_⟩
    have := hp path.length (List.length_pos_of_ne_nil hne) (Nat.le_refl _)
    rwa [List.take_length] at this
  | cons segment rest ih =>
    have lift : ∀ path' : List String, (∀ l, resolve.go (segment :: l) path.reverse =
        resolve.go l path'.reverse) → ∀ d, (∃ pre, pre <+: rest ∧
        resolve.go pre path'.reverse = some d) → ∃ pre, pre <+: segment :: rest ∧
        resolve.go pre path.reverse = some d := by
      rintro path' h d ⟨pre, h1, h2⟩
      exact ⟨segment :: pre, by simpa using h1, by rw [h, h2]⟩
    by_cases h1 : segment = "."
    · have hgo : ∀ l, resolve.go (segment :: l) path.reverse = resolve.go l path.reverse := by
        intro l; rw [h1]; simp only [resolve.go]
      have hl : ensureLoop (segment :: rest) (path, created) = ensureLoop rest (path, created) := by
        simp only [ensureLoop, h1, ne_eq, not_true_eq_false, if_false]
      obtain ⟨a1, a2, more, a3, a4⟩ := ih path created hp
      rw [hl]
      refine ⟨?_, ?_, more, a3, fun d hd => ⟨(a4 d hd).1, lift path hgo d (a4 d hd).2⟩⟩
      · rw [hgo]; exact a1
      · rw [hgo]; exact a2
    · by_cases h2 : segment = ".."
      · by_cases h3 : path = []
        · have hl : ensureLoop (segment :: rest) (path, created) = (false, (path, created)) := by
            simp [ensureLoop, h2, h3]
          have hgo : resolve.go (segment :: rest) path.reverse = none := by
            rw [h2, h3]; simp [resolve.go]
          rw [hl, hgo]
          exact ⟨rfl, by simp, [], by simp, by simp⟩
        · have hl : ensureLoop (segment :: rest) (path, created) =
              ensureLoop rest (path.dropLast, created) := by
            simp [ensureLoop, h2, h3]
          have hgo : ∀ l, resolve.go (segment :: l) path.reverse =
              resolve.go l path.dropLast.reverse := by
            intro l
            rcases List.eq_nil_or_concat path with h4 | ⟨init, z, h4⟩
            · exact absurd h4 h3
            · rw [h4, h2]
              simp [resolve.go]
          obtain ⟨a1, a2, more, a3, a4⟩ := ih path.dropLast created (by
            intro n hn hle
            rw [List.length_dropLast] at hle
            have := hp n hn (by omega)
            rw [List.dropLast_eq_take, List.take_take, Nat.min_eq_left hle]
            exact this)
          rw [hl]
          refine ⟨?_, ?_, more, a3, fun d hd => ⟨(a4 d hd).1, lift _ hgo d (a4 d hd).2⟩⟩
          · rw [hgo]; exact a1
          · rw [hgo]; exact a2
      · have hl : ensureLoop (segment :: rest) (path, created) =
            ensureLoop rest (path ++ [segment], created ++ [path ++ [segment]]) := by
          simp [ensureLoop, h1, h2]
        have hgo : ∀ l, resolve.go (segment :: l) path.reverse =
            resolve.go l (path ++ [segment]).reverse := by
          intro l
          rw [List.reverse_append, List.reverse_singleton, List.singleton_append]
          rw [resolve.go.eq_def]
          split <;> simp_all
        obtain ⟨a1, a2, more, a3, a4⟩ := ih (path ++ [segment]) (created ++ [path ++ [segment]]) (by
          intro n hn hle
          rw [List.length_append, List.length_singleton] at hle
          by_cases hn' : n ≤ path.length
          · rw [List.take_append_of_le_length hn']
            exact List.mem_append_left _ (hp n hn hn')
          · have : n = (path ++ [segment]).length := by simp; omega
            rw [this, List.take_length]
            simp)
        rw [hl]
        refine ⟨?_, ?_, (path ++ [segment]) :: more, by rw [a3]; simp, ?_⟩
        · rw [hgo]; exact a1
        · rw [hgo]; exact a2
        · intro d hd
          rcases List.mem_cons.1 hd with rfl | hd
          · refine ⟨by simp, lift _ hgo _ ⟨[], List.nil_prefix, ?_⟩⟩
            simp [resolve.go]
          · exact ⟨(a4 d hd).1, lift _ hgo d (a4 d hd).2⟩

/-- `ensure_subdir()` succeeds if, and only if the path is relative and does not lead outside the
base directory at any point. The specified directory then exists. Every directory that it creates is
inside the base directory, whether or not it succeeds. -/
theorem C173_ensure_subdir (rooted : Bool) (segments : List String) :
    ((ensureSubdir rooted segments).1 = true ↔ rooted = false ∧ (resolve segments).isSome = true) ∧
    ((ensureSubdir rooted segments).1 = true → ∀ d, resolve segments = some d → d ≠ [] →
      d ∈ (ensureSubdir rooted segments).2) ∧
    (∀ d ∈ (ensureSubdir rooted segments).2, d ≠ [] ∧ ∃ pre, pre <+: segments ∧
      resolve pre = some d) := by
  have h := ensureLoop_spec segments [] [] (by simp; omega)
  cases rooted with
  | true => simp [ensureSubdir]
  | false =>
    obtain ⟨a1, a2, more, a3, a4⟩ := h
    simp only [ensureSubdir, Bool.false_eq_true, if_false, true_and]
    refine ⟨by rw [a1]; rfl, fun _ d hd hne => (a2 d hd).2 hne, ?_⟩
    intro d hd
    rw [a3, List.nil_append] at hd
    exact a4 d hd

/-- A parent directory is created before its children. -/
theorem C173_parents_first (segments : List String) (x y : List (List String)) (d : List String)
    (h : (ensureSubdir false segments).2 = x ++ d :: y) : d.dropLast = [] ∨ d.dropLast ∈ x := by
  have key : ∀ (segments path : List String) (created : List (List String)),
      (∀ n, 0 < n → n ≤ path.length → path.take n ∈ created) →
      (∀ x d y, created = x ++ d :: y → d.dropLast = [] ∨ d.dropLast ∈ x) →
      ∀ x d y, (ensureLoop segments (path, created)).2.2 = x ++ d :: y →
        d.dropLast = [] ∨ d.dropLast ∈ x := by
    clear h x y d segments
    intro segments
    induction segments with
    | nil => intro path created _ h; exact h
    | cons segment rest ih =>
      intro path created hp hc
      by_cases h1 : segment = "."
      · simp only [ensureLoop, h1, ne_eq, not_true_eq_false, if_false]
        exact ih path created hp hc
      · by_cases h2 : segment = ".."
        · by_cases h3 : path = []
          · simpa [ensureLoop, h2, h3] using hc
          · have hl : ensureLoop (segment :: rest) (path, created) =
                ensureLoop rest (path.dropLast, created) := by
              simp [ensureLoop, h2, h3]
            rw [hl]
            refine ih path.dropLast created ?_ hc
            intro n hn hle
            rw [List.length_dropLast] at hle
            have := hp n hn (by omega)
            rw [List.dropLast_eq_take, List.take_take, Nat.min_eq_left hle]
            exact this
        · have hl : ensureLoop (segment :: rest) (path, created) =
              ensureLoop rest (path ++ [segment], created ++ [path ++ [segment]]) := by
            simp [ensureLoop, h1, h2]
          rw [hl]
          refine ih _ _ ?_ ?_
          · intro n hn hle
            rw [List.length_append, List.length_singleton] at hle
            by_cases hn' : n ≤ path.length
            · rw [List.take_append_of_le_length hn']
              exact List.mem_append_left _ (hp n hn hn')
            · have : n = (path ++ [segment]).length := by simp; omega
              rw [this, List.take_length]
              simp
          · intro x d y hxy
            rcases List.eq_nil_or_concat y with rfl | ⟨y', z, rfl⟩
            · have := List.append_inj' hxy rfl
              have h2 := this.2
              simp only [List.cons.injEq, and_true] at h2
              rw [← this.1, ← h2, List.dropLast_concat]
              by_cases hpe : path = []
              · exact Or.inl hpe
              · right
                have := hp path.length (List.length_pos_of_ne_nil hpe) (Nat.le_refl _)
                rwa [List.take_length] at this
            · have : created ++ [path ++ [segment]] = (x ++ d :: y') ++ [z] := by rw [hxy]; simp
              exact hc x d y' (List.append_inj' this rfl).1
  exact key segments [] [] (by simp; omega) (by simp) x d y h

example : ensureSubdir false ["logs", ".", "a", "..", "b"] =
    (true, [["logs"], ["logs", "a"], ["logs", "b"]]) := by decide

example : ensureSubdir false ["a", "..", "..", "b"] = (false, [["a"]]) := by decide

end Verif.TestRunner
