import Verif.TestRunner.Main
import Mathlib.Data.List.Range
import Mathlib.Data.List.Flatten
import Mathlib.Data.List.Induction

/-!
# Lemmas about the preparation of a test run
-/

namespace Verif.TestRunner

/-- Whether an execution is placed among the concurrent ones. -/
def isConcur (numThreads : Nat) (tests : List Entry) (e : Exec) : Bool :=
  (match tests[e.test]? with
    | some entry => entry.allowConcur
    | none => false) && decide (numThreads > 1)

theorem repeatOnce_eq (nt i : Nat) (tests : List Entry) (done : List Entry)
    (acc : List Exec × List Exec) :
    repeatOnce nt i tests done.length acc =
      (acc.1 ++ ((List.range' done.length tests.length).map fun j => (⟨j, i + 1⟩ : Exec)).filter
          (isConcur nt (done ++ tests)),
        acc.2 ++ ((List.range' done.length tests.length).map fun j => (⟨j, i + 1⟩ : Exec)).filter
          (fun e => !isConcur nt (done ++ tests) e)) := by
  induction tests generalizing done acc with
  | nil => simp [repeatOnce]
  | cons t rest ih =>
    simp only [repeatOnce]
    have h := ih (done ++ [t])
    rw [List.length_append, List.length_singleton] at h
    rw [h]
    have hget : (done ++ t :: rest)[done.length]? = some t := by simp
    have hc : isConcur nt (done ++ t :: rest) ⟨done.length, i + 1⟩ = (t.allowConcur && decide (nt > 1)) := by
      simp only [isConcur, hget]
    rw [List.append_assoc, List.singleton_append, List.length_cons, List.range'_succ, List.map_cons,
      List.filter_cons, List.filter_cons, hc]
    by_cases hx : (t.allowConcur && decide (nt > 1)) = true
    · rw [if_pos hx, if_pos hx]
      simp [hx]
    · rw [if_neg hx, if_neg hx]
      simp [hx]

theorem repeatAll_eq (nt : Nat) (tests : List Entry) (r : Nat) :
    repeatAll nt tests r = ((allExecs tests.length r).filter (isConcur nt tests),
      (allExecs tests.length r).filter (fun e => !isConcur nt tests e)) := by
  induction r with
  | zero => simp [repeatAll, allExecs]
  | succ r ih =>
    have h := repeatOnce_eq nt r tests [] (repeatAll nt tests r)
    rw [List.length_nil] at h
    rw [repeatAll, h, ih]
    simp only [List.nil_append, ← List.filter_append]
    have : allExecs tests.length (r + 1) =
        allExecs tests.length r ++ (List.range' 0 tests.length).map fun j => (⟨j, r + 1⟩ : Exec) := by
      simp [allExecs, List.range_succ, List.range_eq_range']
    rw [this]

theorem mem_allExecs (n r : Nat) (e : Exec) :
    e ∈ allExecs n r ↔ e.test < n ∧ 1 ≤ e.rep ∧ e.rep ≤ r := by
  obtain ⟨t, p⟩ := e
  simp only [allExecs, List.mem_flatMap, List.mem_range, List.mem_map, Exec.mk.injEq]
  constructor
  · rintro ⟨a, ha, b, hb, rfl, rfl⟩
    exact ⟨hb, by omega, by omega⟩
  · rintro ⟨h1, h2, h3⟩
    exact ⟨p - 1, by omega, t, h1, rfl, by omega⟩

theorem allExecs_nodup (n r : Nat) : (allExecs n r).Nodup := by
  unfold allExecs
  rw [List.nodup_flatMap]
  constructor
  · intro x _
    apply List.Nodup.map _ List.nodup_range
    intro a b h
    exact (Exec.mk.inj h).1
  · apply List.Nodup.pairwise_of_forall_ne List.nodup_range
    intro a _ b _ hab
    intro e h1 h2
    simp only [List.mem_map] at h1 h2
    obtain ⟨_, _, rfl⟩ := h1
    obtain ⟨_, _, h⟩ := h2
    have := (Exec.mk.inj h).2
    omega

theorem allExecs_length (n r : Nat) : (allExecs n r).length = n * r := by
  induction r with
  | zero => simp [allExecs]
  | succ r ih =>
    have : allExecs n (r + 1) = allExecs n r ++ (List.range n).map fun j => (⟨j, r + 1⟩ : Exec) := by
      simp [allExecs, List.range_succ]
    rw [this, List.length_append, ih]
    simp [Nat.mul_succ]

theorem configuredThreads_pos (n : Int) (hw : Nat) : 0 < configuredThreads n hw := by
  unfold configuredThreads
  split
  · split
    · split
      · assumption
      · decide
    · decide
  · omega

/-! ## Selection -/

theorem select_ok {filter : Option (Details → Bool)} (list : List Entry) :
    ∀ (s : Selection), (∀ x ∈ list, ∀ y ∈ s.seen, y.details.name ≠ x.details.name) →
      NamesDistinct list →
      select filter s list = .ok {
        included := s.included ++ selected (filter.getD fun _ => true) list
        numEnabled := s.numEnabled + list.countP (·.enabled)
        numDisabled := s.numDisabled + list.countP (fun e => !e.enabled)
        seen := s.seen ++ list } := by
  induction list with
  | nil => intro s _ _; simp [select, selected]
  | cons x xs ih =>
    intro s h1 h2
    have hx : s.seen.find? (fun other => other.details.name == x.details.name) = none := by
      rw [List.find?_eq_none]
      intro y hy
      simpa using h1 x List.mem_cons_self y hy
    have h2' : NamesDistinct xs := (List.nodup_cons.1 h2).2
    have hnx : ∀ y ∈ xs, x.details.name ≠ y.details.name := by
      intro y hy hxy
      exact (List.nodup_cons.1 h2).1 (List.mem_map.2 ⟨y, hy, hxy.symm⟩)
    have hrest : ∀ y ∈ xs, ∀ z ∈ s.seen ++ [x], z.details.name ≠ y.details.name := by
      intro y hy z hz
      rcases List.mem_append.1 hz with h | h
      · exact h1 y (List.mem_cons_of_mem _ hy) z h
      · simp only [List.mem_singleton] at h; subst h; exact hnx y hy
    simp only [select, selectOne, hx]
    by_cases hen : x.enabled = true
    · by_cases hk : (filter.getD fun _ => true) x.details = true
      · have hk' : (match filter with | none => true | some f => f x.details) = true := by
          cases filter <;> simpa using hk
        simp only [hen, Bool.not_true, Bool.false_eq_true, if_false]
        cases filter with
        | none =>
          simp only [Bool.not_true, Bool.false_eq_true, if_false]
          rw [ih _ hrest h2']
          simp [selected, hen, Nat.add_assoc, Nat.add_comm]
        | some f =>
          simp only [Option.getD_some] at hk
          simp only [hk, Bool.not_true, Bool.false_eq_true, if_false]
          rw [ih _ hrest h2']
          simp [selected, hen, hk, Nat.add_assoc, Nat.add_comm]
      · cases filter with
        | none => simp at hk
        | some f =>
          simp only [Option.getD_some, Bool.not_eq_true] at hk
          simp only [hen, hk, Bool.not_true, Bool.not_false, Bool.false_eq_true, if_false, if_true]
          rw [ih _ hrest h2']
          simp [selected, hen, hk, Nat.add_assoc, Nat.add_comm]
    · simp only [Bool.not_eq_true] at hen
      simp only [hen, Bool.not_false, if_true]
      rw [ih _ hrest h2']
      simp [selected, hen, Nat.add_assoc, Nat.add_comm]

/-- Where the selection stops. -/
theorem select_dup {filter : Option (Details → Bool)} (list : List Entry) :
    ∀ (s : Selection), (s.seen.map fun e => e.details.name).Nodup →
      ¬ NamesDistinct (s.seen ++ list) →
      ∃ a b pre post, select filter s list = .error (.duplicate a b) ∧ list = pre ++ b :: post ∧
        NamesDistinct (s.seen ++ pre) ∧ a ∈ s.seen ++ pre ∧ a.details.name = b.details.name := by
  induction list with
  | nil => intro s h1 h2; rw [List.append_nil] at h2; exact absurd h1 h2
  | cons x xs ih =>
    intro s h1 h2
    cases hf : s.seen.find? (fun other => other.details.name == x.details.name) with
    | some other =>
      refine ⟨other, x, [], xs, ?_, rfl, by rw [List.append_nil]; exact h1, ?_, ?_⟩
      · simp only [select, selectOne, hf]
      · rw [List.append_nil]; exact List.mem_of_find?_eq_some hf
      · simpa using List.find?_some hf
    | none =>
      have hnew : ((s.seen ++ [x]).map fun e => e.details.name).Nodup := by
        rw [List.map_append, List.nodup_append]
        refine ⟨h1, by simp, ?_⟩
        intro u hu v hv huv
        simp only [List.map_cons, List.map_nil, List.mem_singleton] at hv
        subst hv; subst huv
        obtain ⟨y, hy, hyx⟩ := List.mem_map.1 hu
        rw [List.find?_eq_none] at hf
        exact hf y hy (by simpa using hyx)
      have hsel : ∃ s' : Selection, s'.seen = s.seen ++ [x] ∧
          select filter s (x :: xs) = select filter s' xs := by
        simp only [select, selectOne, hf]
        by_cases hen : x.enabled = true
        · simp only [hen, Bool.not_true, Bool.false_eq_true, if_false]
          cases filter with
          | none => exact ⟨_, rfl, rfl⟩
          | some f =>
            by_cases hk : f x.details = true
            · simp only [hk, Bool.not_true, Bool.false_eq_true, if_false]
              exact ⟨_, rfl, rfl⟩
            · simp only [Bool.not_eq_true] at hk
              simp only [hk, Bool.not_false, if_true]
              exact ⟨_, rfl, rfl⟩
        · simp only [Bool.not_eq_true] at hen
          simp only [hen, Bool.not_false, if_true]
          exact ⟨_, rfl, rfl⟩
      obtain ⟨s', hs1, hs2⟩ := hsel
      obtain ⟨a, b, pre, post, h3, h4, h5, h6, h7⟩ := ih s' (by rw [hs1]; exact hnew)
        (by rw [hs1, List.append_assoc]; exact h2)
      refine ⟨a, b, x :: pre, post, by rw [hs2]; exact h3, by rw [h4]; rfl, ?_, ?_, h7⟩
      · rw [hs1, List.append_assoc] at h5; exact h5
      · rw [hs1, List.append_assoc] at h6; exact h6

/-! ## The plan -/

theorem plan_ok {config : Config} {list : List Entry} {env : Env} (hs : ShuffleOk config)
    (h : plan config list = .ok env) :
    NamesDistinct list ∧ 0 ≤ config.numRepetitions ∧ 0 ≤ config.numThreads ∧
    env.tests = sortTests config.testOrder (selected (config.filter.getD fun _ => true) list) ∧
    env.numEnabled = list.countP (·.enabled) ∧
    env.numDisabled = list.countP (fun e => !e.enabled) ∧
    env.numRepetitions = config.numRepetitions.toNat ∧
    env.abortOnFailure = config.abortOnFailure ∧ env.mapPath = config.mapPath ∧
    env.seedOverride = config.seedOverride ∧
    (∃ fc fn : List Exec → List Exec, (∀ l, (fc l).Perm l) ∧ (∀ l, (fn l).Perm l) ∧
      (config.shuffle = none → fc = id ∧ fn = id) ∧
      env.concur = fc ((allExecs env.tests.length env.numRepetitions).filter
        (isConcur (configuredThreads config.numThreads config.hardware) env.tests)) ∧
      env.nonconcur = fn ((allExecs env.tests.length env.numRepetitions).filter
        (fun e => !isConcur (configuredThreads config.numThreads config.hardware) env.tests e))) ∧
    env.numThreads = limitThreads (configuredThreads config.numThreads config.hardware)
      env.concur env.nonconcur := by
  unfold plan at h
  by_cases h1 : config.numRepetitions < 0
  · rw [if_pos h1] at h; cases h
  · rw [if_neg h1] at h
    by_cases h2 : config.numThreads < 0
    · rw [if_pos h2] at h; cases h
    · rw [if_neg h2] at h
      by_cases hd : NamesDistinct list
      · rw [select_ok list {} (by simp) hd] at h
        simp only [List.nil_append, Nat.zero_add, Except.ok.injEq] at h
        subst h
        refine ⟨hd, by omega, by omega, rfl, rfl, rfl, rfl, rfl, rfl, rfl, ?_, ?_⟩
        · cases hsh : config.shuffle with
          | none =>
            refine ⟨id, id, fun l => List.Perm.refl _, fun l => List.Perm.refl _, fun _ => ⟨rfl, rfl⟩, ?_, ?_⟩
            · simp only [repeatAll_eq]; rfl
            · simp only [repeatAll_eq]; rfl
          | some f =>
            have := hs f hsh
            refine ⟨f.1, f.2, this.1, this.2, by simp, ?_, ?_⟩
            · simp only [repeatAll_eq]
            · simp only [repeatAll_eq]
        · cases hsh : config.shuffle with
          | none => rfl
          | some f =>
            have := hs f hsh
            simp only [limitThreads]
            have e1 : ∀ l, (f.1 l).length = l.length := fun l => (this.1 l).length_eq
            have e2 : ∀ l, f.2 l = [] ↔ l = [] := by
              intro l
              rw [← List.length_eq_zero_iff, (this.2 l).length_eq, List.length_eq_zero_iff]
            simp only [e1, ne_eq, e2]
      · obtain ⟨a, b, pre, post, h3, _⟩ := select_dup (filter := config.filter) list {} (by simp)
          (by simpa using hd)
        rw [h3] at h
        cases h

theorem plan_wf {config : Config} {list : List Entry} {env : Env} (hs : ShuffleOk config)
    (h : plan config list = .ok env) :
    WF env ∧ (env.concur ++ env.nonconcur).Perm (allExecs env.tests.length env.numRepetitions) ∧
    (∀ e, e ∈ env.concur → isConcur (configuredThreads config.numThreads config.hardware) env.tests e
      = true) ∧
    (∀ e, e ∈ env.nonconcur →
      isConcur (configuredThreads config.numThreads config.hardware) env.tests e = false) := by
  obtain ⟨_, _, _, _, _, _, _, _, _, _, ⟨fc, fn, h1, h2, _, h3, h4⟩, h5⟩ := plan_ok hs h
  have hp : (env.concur ++ env.nonconcur).Perm (allExecs env.tests.length env.numRepetitions) := by
    rw [h3, h4]
    refine ((h1 _).append (h2 _)).trans ?_
    exact List.filter_append_perm _ _
  refine ⟨⟨hp.nodup_iff.2 (allExecs_nodup _ _), ?_⟩, hp, ?_, ?_⟩
  · intro h0
    rw [h5] at h0
    have hpos := configuredThreads_pos config.numThreads config.hardware
    unfold limitThreads at h0
    simp only at h0
    by_cases hc : env.concur.length = 0 ∧ env.nonconcur ≠ []
    · rw [if_pos hc] at h0
      split at h0 <;> omega
    · rw [if_neg hc] at h0
      have : env.concur.length = 0 := by split at h0 <;> omega
      refine ⟨List.length_eq_zero_iff.1 this, ?_⟩
      by_contra hn
      exact hc ⟨this, hn⟩
  · intro e he
    rw [h3] at he
    exact (List.mem_filter.1 ((h1 _).mem_iff.1 he)).2
  · intro e he
    rw [h4] at he
    simpa using (List.mem_filter.1 ((h2 _).mem_iff.1 he)).2

end Verif.TestRunner
