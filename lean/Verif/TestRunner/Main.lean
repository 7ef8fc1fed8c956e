import Verif.TestRunner.Base

/-!
# Invariants that depend on how far the main thread is
-/

namespace Verif.TestRunner

/-- The thread on which the event occurred has been finalized. -/
def onEnded (s : St) (ev : Ev) : Bool :=
  match ev.thread? with
  | some i => decide ((s.thr i).phase = .ended)
  | none => false

/-- The event belongs to an execution of the specified list. -/
def inExecs (l : List Exec) (ev : Ev) : Bool :=
  match ev.test? with
  | some (_, e) => decide (e ∈ l)
  | none => false

/-- The event occurred on the specified thread. -/
def onThread (i : Nat) (ev : Ev) : Bool := decide (ev.thread? = some i)

structure ConcurInv (env : Env) (tr : List Ev) (s : St) : Prop where
  next_le : s.next ≤ env.concur.length
  begins_eq : (begins tr).map Prod.snd = env.concur.take s.next
  thr : ∀ i, (s.thr i).counters = total tr (onThread i)
  idle : ∀ i, (s.thr i).phase = .idle → (s.thr i).counters = (0, 0, 0)
  tot : s.counters = total tr (onEnded s)
  all : ∀ i, (s.thr i).phase.returned = true → s.next = env.concur.length
  fin : (s.last = none ∧ (∀ i, (s.thr i).phase ≠ .deferred) ∧
      s.numEnded = (List.range env.numThreads).countP (fun i => decide ((s.thr i).phase = .ended)) ∧
      (env.nonconcur ≠ [] → env.numThreads ≠ 0 → s.numEnded < env.numThreads)) ∨
    (∃ k, k < env.numThreads ∧ s.last = some k ∧ (s.thr k).phase = .deferred ∧
      env.nonconcur ≠ [] ∧ ∀ i, i < env.numThreads → i ≠ k → (s.thr i).phase = .ended)
  tb : ∀ i, tr.count (.threadBegin i) = if (s.thr i).phase = .idle then 0 else 1
  te : ∀ i, tr.count (.threadEnd i) = if (s.thr i).phase = .ended then 1 else 0

structure NonInv (env : Env) (tr : List Ev) (s : St) (k : Nat) (rest : List Exec) : Prop where
  k_lt : k < env.numThreads
  pre : ∃ pre, env.nonconcur = pre ++ rest ∧ (begins tr).map Prod.snd = env.concur ++ pre
  others : ∀ i, i < env.numThreads → i ≠ k → (s.thr i).phase = .ended
  self : (s.thr k).phase = .atLoop ∨ ∃ e b, (s.thr k).phase = .body e b ∧ e ∈ env.nonconcur
  thr : (s.thr k).counters = total tr (inExecs env.nonconcur)
  tot : s.counters = total tr (fun ev => inExecs env.concur ev &&
    (decide (env.nonconcur = []) || !onThread k ev))
  one : env.nonconcur = [] → env.numThreads = 1
  tb : ∀ i, i < env.numThreads → tr.count (.threadBegin i) = 1
  te : ∀ i, i < env.numThreads →
    tr.count (.threadEnd i) = if i = k ∧ env.nonconcur ≠ [] then 0 else 1

structure SumInv (env : Env) (tr : List Ev) (s : St) : Prop where
  begins_eq : (begins tr).map Prod.snd = env.concur ++ env.nonconcur
  phases : ∀ i, i < env.numThreads → (s.thr i).phase = .ended
  tot : ∃ k, (env.nonconcur ≠ [] → k < env.numThreads) ∧
    s.counters = total tr (fun ev => decide (env.nonconcur = []) ||
      (inExecs env.nonconcur ev || !onThread k ev))
  tb : ∀ i, i < env.numThreads → tr.count (.threadBegin i) = 1
  te : ∀ i, i < env.numThreads →
    tr.count (.threadEnd i) = if env.nonconcur = [] ∧ env.numThreads = 1 then 2 else 1

def StageInv (env : Env) (tr : List Ev) (s : St) : Prop :=
  match s.stage with
  | .concur => ConcurInv env tr s
  | .nonconcur k rest => NonInv env tr s k rest
  | .summarize => SumInv env tr s
  | .done b => ∃ tr0, tr = tr0 ++ [.rootEnd (summaryOf env s)] ∧ SumInv env tr0 s ∧
      b = (s.counters.2.2 == 0)
  | .aborted => True

/-! ## Steps inside tests -/

/-- What the four kinds of steps inside a test have in common. -/
structure TestStep (tr : List Ev) (s s' : St) (i : Nat) (e : Exec) (w : Counters) (ev : Ev) :
    Prop where
  counters : s'.counters = s.counters
  next : s'.next = s.next
  numEnded : s'.numEnded = s.numEnded
  last : s'.last = s.last
  stage : s'.stage = s.stage ∨ s'.stage = .aborted
  other : ∀ j, j ≠ i → s'.thr j = s.thr j
  phase : ∃ b, (s.thr i).phase = .body e b
  phase' : (s'.thr i).phase = .atLoop ∨ ∃ b, (s'.thr i).phase = .body e b
  thr : (s'.thr i).counters = (s.thr i).counters + w
  test : ev.test? = some (i, e)
  thread : ev.thread? = some i
  begins : begins [ev] = []
  total : ∀ p, total (tr ++ [ev]) p = total tr p + if p ev then w else (0, 0, 0)
  tb : ∀ j, ev ≠ .threadBegin j
  te : ∀ j, ev ≠ .threadEnd j

theorem not_ended {env : Env} {tr : List Ev} {s : St} (hb : Base env tr s) {i : Nat} {e : Exec}
    {b : Bool} (h : (s.thr i).phase = .body e b) (j : Nat) : Ev.testEnd j e ∉ tr := by
  intro hj
  have hrun := (mem_running tr _).1 ((hb.body i e).1 ⟨b, h⟩)
  have hje : (j, e) ∈ ends tr := by
    simp only [ends, List.mem_filterMap]
    exact ⟨_, hj, rfl⟩
  have := List.inj_on_of_nodup_map hb.beginsNodup (hb.endsSub _ hje) hrun.1 rfl
  rw [this] at hje
  exact hrun.2 hje

theorem total_one {tr : List Ev} {ev : Ev} {p : Ev → Bool} {w : Counters}
    (h : ∀ i e, .testEnd i e ∈ tr → failed [ev] e = false) (hw : weight (tr ++ [ev]) ev = w) :
    total (tr ++ [ev]) p = total tr p + if p ev then w else (0, 0, 0) := by
  rw [total_append h]
  by_cases hp : p ev = true
  · simp [hp, hw]
  · simp [hp]

theorem total_zero {tr : List Ev} {ev : Ev} {p : Ev → Bool}
    (h : ∀ e, failed [ev] e = false) (hw : weight (tr ++ [ev]) ev = (0, 0, 0)) :
    total (tr ++ [ev]) p = total tr p := by
  rw [total_one (fun _ e _ => h e) hw]
  simp

theorem testStep_of_shape {env : Env} {tr : List Ev} {s s' : St} {a : Act} {evs : List Ev}
    (hb : Base env tr s) (hs : Shape env s s' evs a) :
    (∃ i e w ev, evs = [ev] ∧ s.stage.running = true ∧ TestStep tr s s' i e w ev) ∨
    (∃ i, a = .start i) ∨ (∃ i, a = .next i) ∨ a = .join ∨ a = .summarize := by
  have habort : ∀ x : St, (abortIf env x).stage = x.stage ∨ (abortIf env x).stage = .aborted := by
    intro x; unfold abortIf; split
    · exact Or.inr rfl
    · exact Or.inl rfl
  have hab : ∀ x : St, (abortIf env x).counters = x.counters ∧ (abortIf env x).next = x.next ∧
      (abortIf env x).numEnded = x.numEnded := by
    intro x; unfold abortIf; split <;> exact ⟨rfl, rfl, rfl⟩
  cases hs with
  | start => exact Or.inr (Or.inl ⟨_, rfl⟩)
  | concurBegin => exact Or.inr (Or.inr (Or.inl ⟨_, rfl⟩))
  | concurDefer => exact Or.inr (Or.inr (Or.inl ⟨_, rfl⟩))
  | concurEnd => exact Or.inr (Or.inr (Or.inl ⟨_, rfl⟩))
  | nonBegin => exact Or.inr (Or.inr (Or.inl ⟨_, rfl⟩))
  | nonEnd => exact Or.inr (Or.inr (Or.inl ⟨_, rfl⟩))
  | joinRun => exact Or.inr (Or.inr (Or.inr (Or.inl rfl)))
  | joinNone => exact Or.inr (Or.inr (Or.inr (Or.inl rfl)))
  | summarize => exact Or.inr (Or.inr (Or.inr (Or.inr rfl)))
  | checkOk h1 h2 h3 h4 =>
    rename_i i e
    subst h3 h4
    refine Or.inl ⟨i, e, (1, 0, 0), _, rfl, h1, ?_⟩
    exact {
      counters := rfl, next := rfl, numEnded := rfl, last := rfl, stage := Or.inl rfl
      other := fun j hj => set_thr_ne s _ hj
      phase := ⟨_, h2⟩
      phase' := Or.inr ⟨false, by simp [h2]⟩
      thr := by simp
      test := rfl, thread := rfl, begins := rfl
      total := fun p => total_one (by simp [failed, Ev.isFailure]) rfl
      tb := fun j => by simp
      te := fun j => by simp }
  | checkFail t h1 h2 h3 ht ht1 ht2 ht3 h4 h5 =>
    rename_i i e file line
    subst h4 h5
    refine Or.inl ⟨i, e, (1, 1, 0), _, rfl, h1, ?_⟩
    exact {
      counters := (hab _).1, next := (hab _).2.1, numEnded := (hab _).2.2, last := by simp
      stage := habort _
      other := fun j hj => by simp [set_thr_ne s _ hj]
      phase := ⟨_, h2⟩
      phase' := Or.inr ⟨false, by simp [ht1]⟩
      thr := by simp [ht2]
      test := rfl, thread := rfl, begins := rfl
      total := fun p => total_one (by
        intro j e' hj
        by_contra hc
        have : e = e' := by simpa [failed, Ev.isFailure, Ev.test?] using hc
        subst this
        exact not_ended hb h2 j hj) rfl
      tb := fun j => by simp
      te := fun j => by simp }
  | throw h1 h2 h3 h4 h5 =>
    rename_i i e
    subst h4 h5
    refine Or.inl ⟨i, e, (0, 0, 0), _, rfl, h1, ?_⟩
    exact {
      counters := (hab _).1, next := (hab _).2.1, numEnded := (hab _).2.2, last := by simp
      stage := habort _
      other := fun j hj => by simp [set_thr_ne s _ hj]
      phase := ⟨_, h2⟩
      phase' := Or.inr ⟨true, by simp⟩
      thr := by simp
      test := rfl, thread := rfl, begins := rfl
      total := fun p => total_one (by
        intro j e' hj
        by_contra hc
        have : e = e' := by simpa [failed, Ev.isFailure, Ev.test?] using hc
        subst this
        exact not_ended hb h2 j hj) rfl
      tb := fun j => by simp
      te := fun j => by simp }
  | finish h1 h2 h3 h4 h5 =>
    rename_i i e b
    subst h4 h5
    refine Or.inl ⟨i, e, if (s.thr i).errorsSeen then (0, 0, 1) else (0, 0, 0), _, rfl, h1, ?_⟩
    exact {
      counters := rfl, next := rfl, numEnded := rfl, last := rfl, stage := Or.inl rfl
      other := fun j hj => set_thr_ne s _ hj
      phase := ⟨_, h2⟩
      phase' := Or.inl (by simp)
      thr := by simp
      test := rfl, thread := rfl, begins := rfl
      total := fun p => total_one (by simp [failed, Ev.isFailure]) (by
        simp only [weight]
        have h0 : failed [.testEnd i e] e = false := by simp [failed, Ev.isFailure]
        rw [failed_append, hb.errs i e b h2, h0, Bool.or_false])
      tb := fun j => by simp
      te := fun j => by simp }

theorem count_other {tr : List Ev} {ev x : Ev} (h : ev ≠ x) : (tr ++ [ev]).count x = tr.count x := by
  rw [List.count_append, List.count_cons_of_ne h]
  simp

theorem count_same {tr : List Ev} {ev : Ev} : (tr ++ [ev]).count ev = tr.count ev + 1 := by
  rw [List.count_append]
  simp

theorem concur_test {env : Env} {tr : List Ev} {s s' : St} {i : Nat} {e : Exec} {w : Counters}
    {ev : Ev} (hi : ConcurInv env tr s) (ht : TestStep tr s s' i e w ev) :
    ConcurInv env (tr ++ [ev]) s' := by
  obtain ⟨b, hp⟩ := ht.phase
  have hp' : (s'.thr i).phase ≠ .ended ∧ (s'.thr i).phase ≠ .deferred ∧ (s'.thr i).phase ≠ .idle := by
    rcases ht.phase' with h | ⟨b', h⟩ <;> rw [h] <;> simp
  have hend : ∀ j, ((s'.thr j).phase = .ended) ↔ ((s.thr j).phase = .ended) := by
    intro j
    by_cases hj : j = i
    · subst hj; rw [hp]; simp [hp'.1]
    · rw [ht.other j hj]
  have hidle : ∀ j, ((s'.thr j).phase = .idle) ↔ ((s.thr j).phase = .idle) := by
    intro j
    by_cases hj : j = i
    · subst hj; rw [hp]; simp [hp'.2.2]
    · rw [ht.other j hj]
  have hdef : ∀ j, ((s'.thr j).phase = .deferred) ↔ ((s.thr j).phase = .deferred) := by
    intro j
    by_cases hj : j = i
    · subst hj; rw [hp]; simp [hp'.2.1]
    · rw [ht.other j hj]
  have honE : onEnded s' = onEnded s := by
    funext x
    unfold onEnded
    split
    · simp [hend]
    · rfl
  refine ⟨?_, ?_, ?_, ?_, ?_, ?_, ?_, ?_, ?_⟩
  · rw [ht.next]; exact hi.next_le
  · rw [begins_append, ht.begins, List.append_nil, ht.next]; exact hi.begins_eq
  · intro j
    rw [ht.total]
    by_cases hj : j = i
    · subst hj
      rw [ht.thr, hi.thr]
      simp [onThread, ht.thread]
    · rw [ht.other j hj, hi.thr]
      have : onThread j ev = false := by simp [onThread, ht.thread, Ne.symm hj]
      simp [this]
  · intro j hj
    have hji : j ≠ i := by rintro rfl; exact hp'.2.2 hj
    rw [ht.other j hji] at hj ⊢
    exact hi.idle j hj
  · rw [ht.total, ht.counters, hi.tot, honE]
    have : onEnded s ev = false := by simp [onEnded, ht.thread, hp]
    simp [this]
  · intro j hj
    rw [ht.next]
    by_cases hji : j = i
    · subst hji
      rcases ht.phase' with h | ⟨b', h⟩ <;> rw [h] at hj <;> cases hj
    · rw [ht.other j hji] at hj
      exact hi.all j hj
  · rcases hi.fin with ⟨h1, h2, h3, h4⟩ | ⟨k, h1, h2, h3, h4, h5⟩
    · refine Or.inl ⟨by rw [ht.last]; exact h1, ?_, ?_, ?_⟩
      · intro j hj; exact h2 j ((hdef j).1 hj)
      · rw [ht.numEnded, h3]; simp [hend]
      · rw [ht.numEnded]; exact h4
    · refine Or.inr ⟨k, h1, by rw [ht.last]; exact h2, (hdef k).2 h3, h4, ?_⟩
      intro j hj hjk; exact (hend j).2 (h5 j hj hjk)
  · intro j
    rw [count_other (ht.tb j), hi.tb]
    simp [hidle]
  · intro j
    rw [count_other (ht.te j), hi.te]
    simp [hend]

theorem non_test {env : Env} {tr : List Ev} {s s' : St} {k : Nat} {rest : List Exec} {i : Nat}
    {e : Exec} {w : Counters} {ev : Ev} (hwf : WF env) (hb : Base env tr s)
    (hi : NonInv env tr s k rest)
    (ht : TestStep tr s s' i e w ev) : NonInv env (tr ++ [ev]) s' k rest := by
  obtain ⟨b, hp⟩ := ht.phase
  have hik : i = k := by
    by_contra hc
    have hlt : i < env.numThreads := by
      by_contra hc'
      have := hb.out i (by omega); rw [hp] at this; cases this
    have := hi.others i hlt hc
    rw [hp] at this; cases this
  subst hik
  have he : e ∈ env.nonconcur := by
    rcases hi.self with h | ⟨e', b', h, he'⟩
    · rw [hp] at h; cases h
    · rw [hp] at h; injection h with h1 h2; subst h1; exact he'
  have hnc : e ∉ env.concur := by
    intro hc
    exact (List.nodup_append.1 hwf.nodup).2.2 e hc e he rfl
  refine ⟨hi.k_lt, ?_, ?_, ?_, ?_, ?_, hi.one, ?_, ?_⟩
  · rw [begins_append, ht.begins, List.append_nil]; exact hi.pre
  · intro j hj hji
    rw [ht.other j hji]; exact hi.others j hj hji
  · rcases ht.phase' with h | ⟨b', h⟩
    · exact Or.inl h
    · exact Or.inr ⟨e, b', h, he⟩
  · rw [ht.thr, ht.total, hi.thr]
    simp [inExecs, ht.test, he]
  · rw [ht.counters, ht.total, hi.tot]
    simp [inExecs, ht.test, hnc]
  · intro j hj
    rw [count_other (ht.tb j)]; exact hi.tb j hj
  · intro j hj
    rw [count_other (ht.te j)]; exact hi.te j hj

/-! ## Other steps -/

theorem countP_update {n i : Nat} (p : Nat → Bool) (hi : i < n) (hp : p i = false) :
    (List.range n).countP (fun j => if j = i then true else p j) = (List.range n).countP p + 1 := by
  induction n with
  | zero => omega
  | succ n ih =>
    rw [List.range_succ, List.countP_append, List.countP_append]
    by_cases hin : i = n
    · subst hin
      have : (List.range i).countP (fun j => if j = i then true else p j) =
          (List.range i).countP p := by
        apply List.countP_congr
        intro x hx
        have : x ≠ i := by
          have := List.mem_range.1 hx; omega
        simp [this]
      rw [this]
      simp [hp]
    · rw [ih (by omega)]
      have : n ≠ i := fun h => hin h.symm
      simp only [List.countP_cons, List.countP_nil, if_neg this]
      omega

theorem countP_all_but {n i : Nat} (p : Nat → Bool) (hi : i < n) (hp : p i = false)
    (hc : n - (List.range n).countP p = 1) : ∀ j, j < n → j ≠ i → p j = true := by
  intro j hj hji
  by_contra hpj
  have hpj' : p j = false := by simpa using hpj
  have h1 := countP_update p hi hp
  have h2 := countP_update (fun x => if x = i then true else p x) hj (by simp [hji, hpj'])
  have h3 : (List.range n).countP (fun x => if x = j then true else if x = i then true else p x) ≤
      (List.range n).length := List.countP_le_length
  rw [List.length_range] at h3
  omega

theorem countP_lt {n i : Nat} (p : Nat → Bool) (hi : i < n) (hp : p i = false) :
    (List.range n).countP p < n := by
  have h1 := countP_update p hi hp
  have h3 : (List.range n).countP (fun x => if x = i then true else p x) ≤
      (List.range n).length := List.countP_le_length
  rw [List.length_range] at h3
  omega

theorem lt_of_phase {env : Env} {tr : List Ev} {s : St} (hb : Base env tr s) {i : Nat}
    (h : (s.thr i).phase ≠ .idle) : i < env.numThreads := by
  by_contra hc
  exact h (hb.out i (by omega))

theorem weight_test {tr : List Ev} {ev : Ev} (h : weight tr ev ≠ (0, 0, 0)) :
    ∃ i e, ev.test? = some (i, e) ∧ ev.thread? = some i := by
  cases ev <;> first | (exact absurd rfl h) | exact ⟨_, _, rfl, rfl⟩

theorem onEnded_congr {tr : List Ev} {s s' : St} (h : ∀ j, (s'.thr j).phase = .ended ↔ (s.thr j).phase = .ended) :
    total tr (onEnded s') = total tr (onEnded s) := by
  apply total_congr
  intro ev _ _
  unfold onEnded
  split
  · simp [h]
  · rfl

/-- A step of a testing thread in the concurrent stage that begins no test and ends no thread. -/
theorem concur_start {env : Env} {tr : List Ev} {s s' : St} {i : Nat} (hi : ConcurInv env tr s)
    (h2 : i < env.numThreads) (h3 : (s.thr i).phase = .idle)
    (hother : ∀ j, j ≠ i → s'.thr j = s.thr j) (hphase : (s'.thr i).phase = .atLoop)
    (hcnt : (s'.thr i).counters = (0, 0, 0)) (hnext : s'.next = s.next)
    (hcounters : s'.counters = s.counters) (hnum : s'.numEnded = s.numEnded)
    (hlast : s'.last = s.last) : ConcurInv env (tr ++ [.threadBegin i]) s' := by
  have hend : ∀ j, ((s'.thr j).phase = .ended) ↔ ((s.thr j).phase = .ended) := by
    intro j
    by_cases hj : j = i
    · subst hj; simp [h3, hphase]
    · rw [hother j hj]
  have hz : ∀ p, total (tr ++ [.threadBegin i]) p = total tr p :=
    fun p => total_zero (by simp [failed, Ev.isFailure]) rfl
  refine ⟨hnext ▸ hi.next_le, ?_, ?_, ?_, ?_, ?_, ?_, ?_, ?_⟩
  · rw [begins_append, hnext]; simpa [begins] using hi.begins_eq
  · intro j
    rw [hz]
    by_cases hj : j = i
    · subst hj; rw [hcnt, ← hi.thr, hi.idle j h3]
    · rw [hother j hj]; exact hi.thr j
  · intro j hj
    by_cases hji : j = i
    · subst hji; exact hcnt
    · rw [hother j hji] at hj ⊢; exact hi.idle j hj
  · rw [hz, hcounters, hi.tot]
    exact (onEnded_congr hend).symm
  · intro j hj
    rw [hnext]
    by_cases hji : j = i
    · subst hji; rw [hphase] at hj; cases hj
    · rw [hother j hji] at hj; exact hi.all j hj
  · rcases hi.fin with ⟨f1, f2, f3, f4⟩ | ⟨k, f1, f2, f3, f4, f5⟩
    · refine Or.inl ⟨hlast ▸ f1, ?_, ?_, hnum ▸ f4⟩
      · intro j
        by_cases hj : j = i
        · subst hj; simp [hphase]
        · rw [hother j hj]; exact f2 j
      · simp only [hend]; rw [hnum]; exact f3
    · exfalso
      by_cases hk : i = k
      · subst hk; rw [h3] at f3; cases f3
      · have := f5 i h2 hk; rw [h3] at this; cases this
  · intro j
    by_cases hj : j = i
    · subst hj; rw [count_same, hi.tb]; simp [h3, hphase]
    · rw [count_other (by simp [Ne.symm hj]), hi.tb, hother j hj]
  · intro j
    rw [count_other (by simp), hi.te]
    simp only [hend]

theorem concur_begin {env : Env} {tr : List Ev} {s s' : St} {i : Nat} {e : Exec} {sd : Nat × Nat}
    (hi : ConcurInv env tr s) (h2 : (s.thr i).phase = .atLoop)
    (h3 : env.concur[s.next]? = some e)
    (hother : ∀ j, j ≠ i → s'.thr j = s.thr j) (hphase : (s'.thr i).phase = .body e false)
    (hcnt : (s'.thr i).counters = (s.thr i).counters) (hnext : s'.next = s.next + 1)
    (hcounters : s'.counters = s.counters) (hnum : s'.numEnded = s.numEnded)
    (hlast : s'.last = s.last) : ConcurInv env (tr ++ [.testBegin i e sd]) s' := by
  have hend : ∀ j, ((s'.thr j).phase = .ended) ↔ ((s.thr j).phase = .ended) := by
    intro j
    by_cases hj : j = i
    · subst hj; simp [h2, hphase]
    · rw [hother j hj]
  have hz : ∀ p, total (tr ++ [.testBegin i e sd]) p = total tr p :=
    fun p => total_zero (by simp [failed, Ev.isFailure]) rfl
  have hlt : s.next < env.concur.length := by
    by_contra hc
    rw [List.getElem?_eq_none (by omega)] at h3
    cases h3
  refine ⟨by omega, ?_, ?_, ?_, ?_, ?_, ?_, ?_, ?_⟩
  · rw [begins_append, List.map_append, hi.begins_eq, hnext, List.take_add_one, h3]
    rfl
  · intro j
    rw [hz]
    by_cases hj : j = i
    · subst hj; rw [hcnt, ← hi.thr]
    · rw [hother j hj]; exact hi.thr j
  · intro j hj
    by_cases hji : j = i
    · subst hji; rw [hphase] at hj; cases hj
    · rw [hother j hji] at hj ⊢; exact hi.idle j hj
  · rw [hz, hcounters, hi.tot]
    exact (onEnded_congr hend).symm
  · intro j hj
    exfalso
    by_cases hji : j = i
    · subst hji; rw [hphase] at hj; cases hj
    · rw [hother j hji] at hj
      have := hi.all j hj
      omega
  · rcases hi.fin with ⟨f1, f2, f3, f4⟩ | ⟨k, f1, f2, f3, f4, f5⟩
    · refine Or.inl ⟨hlast ▸ f1, ?_, ?_, hnum ▸ f4⟩
      · intro j
        by_cases hj : j = i
        · subst hj; simp [hphase]
        · rw [hother j hj]; exact f2 j
      · simp only [hend]; rw [hnum]; exact f3
    · exfalso
      have := hi.all k (by rw [f3]; rfl)
      omega
  · intro j
    rw [count_other (by simp), hi.tb]
    by_cases hj : j = i
    · subst hj; simp [h2, hphase]
    · rw [hother j hj]
  · intro j
    rw [count_other (by simp), hi.te]
    simp only [hend]

theorem concur_defer {env : Env} {tr : List Ev} {s s' : St} {i : Nat} (hb : Base env tr s)
    (hi : ConcurInv env tr s) (h2 : (s.thr i).phase = .atLoop)
    (h3 : env.concur.length ≤ s.next) (h4 : env.nonconcur ≠ [])
    (h5 : env.numThreads - s.numEnded = 1)
    (hother : ∀ j, j ≠ i → s'.thr j = s.thr j) (hphase : (s'.thr i).phase = .deferred)
    (hcnt : (s'.thr i).counters = (s.thr i).counters) (hnext : s'.next = s.next)
    (hcounters : s'.counters = s.counters)
    (hlast : s'.last = some i) : ConcurInv env tr s' := by
  have hlt : i < env.numThreads := lt_of_phase hb (by rw [h2]; simp)
  have hend : ∀ j, ((s'.thr j).phase = .ended) ↔ ((s.thr j).phase = .ended) := by
    intro j
    by_cases hj : j = i
    · subst hj; simp [h2, hphase]
    · rw [hother j hj]
  have hnl := hi.next_le
  refine ⟨by omega, ?_, ?_, ?_, ?_, ?_, ?_, ?_, ?_⟩
  · rw [hnext]; exact hi.begins_eq
  · intro j
    by_cases hj : j = i
    · subst hj; rw [hcnt, ← hi.thr]
    · rw [hother j hj]; exact hi.thr j
  · intro j hj
    by_cases hji : j = i
    · subst hji; rw [hphase] at hj; cases hj
    · rw [hother j hji] at hj ⊢; exact hi.idle j hj
  · rw [hcounters, hi.tot]
    exact (onEnded_congr hend).symm
  · intro j hj
    omega
  · refine Or.inr ⟨i, hlt, hlast, hphase, h4, ?_⟩
    rcases hi.fin with ⟨f1, f2, f3, f4⟩ | ⟨k, f1, f2, f3, f4, f5⟩
    · intro j hj hji
      rw [f3] at h5
      have := countP_all_but (fun j => decide ((s.thr j).phase = .ended)) hlt (by simp [h2]) h5 j hj hji
      exact (hend j).2 (by simpa using this)
    · exfalso
      by_cases hk : i = k
      · subst hk; rw [h2] at f3; cases f3
      · have := f5 i hlt hk; rw [h2] at this; cases this
  · intro j
    rw [hi.tb]
    by_cases hj : j = i
    · subst hj; simp [h2, hphase]
    · rw [hother j hj]
  · intro j
    rw [hi.te]
    simp only [hend]

theorem concur_end {env : Env} {tr : List Ev} {s s' : St} {i : Nat} (hb : Base env tr s)
    (hi : ConcurInv env tr s) (h2 : (s.thr i).phase = .atLoop)
    (h3 : env.concur.length ≤ s.next)
    (h4 : ¬ (env.nonconcur ≠ [] ∧ env.numThreads - s.numEnded = 1))
    (hother : ∀ j, j ≠ i → s'.thr j = s.thr j) (hphase : (s'.thr i).phase = .ended)
    (hcnt : (s'.thr i).counters = (s.thr i).counters) (hnext : s'.next = s.next)
    (hcounters : s'.counters = s.counters + (s.thr i).counters) (hnum : s'.numEnded = s.numEnded + 1)
    (hlast : s'.last = s.last) : ConcurInv env (tr ++ [.threadEnd i]) s' := by
  have hlt : i < env.numThreads := lt_of_phase hb (by rw [h2]; simp)
  have hend : ∀ j, ((s'.thr j).phase = .ended) ↔ (j = i ∨ (s.thr j).phase = .ended) := by
    intro j
    by_cases hj : j = i
    · subst hj; simp [hphase]
    · rw [hother j hj]; simp [hj]
  have hz : ∀ p, total (tr ++ [.threadEnd i]) p = total tr p :=
    fun p => total_zero (by simp [failed, Ev.isFailure]) rfl
  have hnl := hi.next_le
  refine ⟨by omega, ?_, ?_, ?_, ?_, ?_, ?_, ?_, ?_⟩
  · rw [begins_append, hnext]; simpa [begins] using hi.begins_eq
  · intro j
    rw [hz]
    by_cases hj : j = i
    · subst hj; rw [hcnt, ← hi.thr]
    · rw [hother j hj]; exact hi.thr j
  · intro j hj
    by_cases hji : j = i
    · subst hji; rw [hphase] at hj; cases hj
    · rw [hother j hji] at hj ⊢; exact hi.idle j hj
  · rw [hz, hcounters, hi.tot, hi.thr i]
    symm
    apply total_split
    intro ev _ hw
    obtain ⟨j, e, _, ht⟩ := weight_test hw
    simp only [onEnded, onThread, ht, hend, Option.some.injEq]
    by_cases hj : j = i
    · subst hj; simp [h2]
    · simp [hj]
  · intro j hj
    omega
  · rcases hi.fin with ⟨f1, f2, f3, f4⟩ | ⟨k, f1, f2, f3, f4, f5⟩
    · refine Or.inl ⟨hlast ▸ f1, ?_, ?_, ?_⟩
      · intro j
        by_cases hj : j = i
        · subst hj; simp [hphase]
        · rw [hother j hj]; exact f2 j
      · rw [hnum, f3, ← countP_update (fun j => decide ((s.thr j).phase = .ended)) hlt (by simp [h2])]
        apply List.countP_congr
        intro j _
        simp only [hend]
        by_cases hj : j = i
        · simp [hj]
        · simp [hj]
      · intro g1 g2
        have g3 := f4 g1 g2
        have g4 : env.numThreads - s.numEnded ≠ 1 := fun h => h4 ⟨g1, h⟩
        omega
    · exfalso
      by_cases hk : i = k
      · subst hk; rw [h2] at f3; cases f3
      · have := f5 i hlt hk; rw [h2] at this; cases this
  · intro j
    rw [count_other (by simp), hi.tb]
    by_cases hj : j = i
    · subst hj; simp [h2, hphase]
    · rw [hother j hj]
  · intro j
    by_cases hj : j = i
    · subst hj; rw [count_same, hi.te]; simp [h2, hphase]
    · rw [count_other (by simp [Ne.symm hj]), hi.te, hother j hj]

/-- If the counters of a thread are zero, then so are all contributions of that thread. -/
theorem total_thread_zero {tr : List Ev} {j : Nat} {ev : Ev}
    (hcount : total tr (onThread j) = (0, 0, 0)) (hev : ev ∈ tr) (ht : ev.thread? = some j) :
    weight tr ev = (0, 0, 0) := by
  unfold total at hcount
  generalize weight tr = w at hcount ⊢
  induction tr with
  | nil => simp at hev
  | cons x xs ih =>
    by_cases hx : onThread j x = true
    · rw [List.filter_cons_of_pos hx, List.map_cons, List.sum_cons] at hcount
      have h1 : w x = (0, 0, 0) ∧ (List.map w (List.filter (onThread j) xs)).sum = (0, 0, 0) := by
        generalize w x = u at hcount ⊢
        generalize (List.map w (List.filter (onThread j) xs)).sum = v at hcount ⊢
        obtain ⟨u1, u2, u3⟩ := u
        obtain ⟨v1, v2, v3⟩ := v
        simp only [Prod.mk_add_mk, Prod.mk.injEq] at hcount ⊢
        omega
      rcases List.mem_cons.1 hev with rfl | h
      · exact h1.1
      · exact ih h h1.2
    · rw [List.filter_cons_of_neg hx] at hcount
      rcases List.mem_cons.1 hev with rfl | h
      · exact absurd (by simp [onThread, ht]) hx
      · exact ih h hcount

theorem mem_begins_snd {env : Env} {tr : List Ev} {s : St} (hb : Base env tr s) {ev : Ev}
    (hev : ev ∈ tr) {i : Nat} {e : Exec} (h : ev.test? = some (i, e)) :
    e ∈ (begins tr).map Prod.snd :=
  List.mem_map.2 ⟨(i, e), hb.events ev hev _ h, rfl⟩

theorem join_run {env : Env} {tr : List Ev} {s s' : St} {k : Nat} (hwf : WF env) (hb : Base env tr s)
    (hi : ConcurInv env tr s)
    (h2 : ∀ i, i < env.numThreads → (s.thr i).phase.returned = true)
    (h3 : (env.numThreads = 1 ∧ k = 0) ∨ (env.numThreads ≠ 1 ∧ s.last = some k))
    (hother : ∀ j, j ≠ k → s'.thr j = s.thr j) (hphase : (s'.thr k).phase = .atLoop)
    (hcnt : (s'.thr k).counters = (0, 0, 0)) (hcounters : s'.counters = s.counters) :
    NonInv env tr s' k env.nonconcur := by
  have hk : k < env.numThreads := by
    rcases h3 with ⟨h3, rfl⟩ | ⟨_, h3⟩
    · omega
    · exact hb.lastLt k h3
  have hall := hi.all k (h2 k hk)
  have hbeg : (begins tr).map Prod.snd = env.concur := by
    rw [hi.begins_eq, hall, List.take_length]
  have hnon : ∀ ev ∈ tr, ∀ i e, ev.test? = some (i, e) → e ∈ env.concur ∧ e ∉ env.nonconcur := by
    intro ev hev i e he
    have h := mem_begins_snd hb hev he
    rw [hbeg] at h
    exact ⟨h, fun hc => (List.nodup_append.1 hwf.nodup).2.2 e h e hc rfl⟩
  -- which threads have been finalized
  have hends : (env.nonconcur = [] ∧ env.numThreads = 1 ∧ (s.thr k).phase = .ended) ∨
      (env.nonconcur ≠ [] ∧ (s.thr k).phase = .deferred ∧
        ∀ i, i < env.numThreads → i ≠ k → (s.thr i).phase = .ended) := by
    rcases hi.fin with ⟨f1, f2, f3, f4⟩ | ⟨k', f1, f2, f3, f4, f5⟩
    · have hk1 : env.numThreads = 1 ∧ k = 0 := by
        rcases h3 with h3 | ⟨_, h3⟩
        · exact h3
        · rw [f1] at h3; cases h3
      have hke : (s.thr k).phase = .ended := by
        have := h2 k hk
        have hd := f2 k
        cases hp : (s.thr k).phase <;> simp_all [Phase.returned]
      refine Or.inl ⟨?_, hk1.1, hke⟩
      by_contra hc
      have := f4 hc (by omega)
      rw [f3, hk1.1] at this
      simp [List.range_succ, hk1.2 ▸ hke] at this
    · have : k' = k := by
        rcases h3 with ⟨h3, rfl⟩ | ⟨_, h3⟩
        · omega
        · rw [f2] at h3; exact Option.some.inj h3
      subst this
      exact Or.inr ⟨f4, f3, f5⟩
  refine ⟨hk, ⟨[], rfl, by rw [hbeg, List.append_nil]⟩, ?_, Or.inl hphase, ?_, ?_, ?_, ?_, ?_⟩
  · intro i hin hik
    rw [hother i hik]
    rcases hends with ⟨_, h1, _⟩ | ⟨_, _, h⟩
    · omega
    · exact h i hin hik
  · rw [hcnt]
    symm
    apply total_none
    intro ev hev hw
    obtain ⟨j, e, ht, _⟩ := weight_test hw
    simp [inExecs, ht, (hnon ev hev j e ht).2]
  · rw [hcounters, hi.tot]
    apply total_congr
    intro ev hev hw
    obtain ⟨j, e, ht, ht'⟩ := weight_test hw
    have hj : j < env.numThreads := by
      have := hb.events ev hev _ ht
      by_contra hc
      have hid := hb.out j (by omega)
      exact hw (total_thread_zero (by rw [← hi.thr, hi.idle j hid]) hev ht')
    simp only [onEnded, ht', inExecs, ht, onThread, (hnon ev hev j e ht).1, Option.some.injEq,
      decide_true, Bool.true_and]
    rcases hends with ⟨h1, h1', h1''⟩ | ⟨h1, h1', h1''⟩
    · have : j = k := by omega
      subst this
      simp [h1, h1'']
    · by_cases hjk : j = k
      · subst hjk; simp [h1, h1']
      · simp [h1''  j hj hjk, hjk]
  · intro hn
    rcases hends with ⟨_, h1, _⟩ | ⟨h, _, _⟩
    · exact h1
    · exact absurd hn h
  · intro i hin
    rw [hi.tb]
    have := h2 i hin
    cases hp : (s.thr i).phase <;> simp_all [Phase.returned]
  · intro i hin
    rw [hi.te]
    rcases hends with ⟨h1, h1', h1''⟩ | ⟨h1, h1', h1''⟩
    · have : i = k := by omega
      subst this
      simp [h1, h1'']
    · by_cases hik : i = k
      · subst hik; simp [h1, h1']
      · simp [h1'' i hin hik, hik]

theorem join_none {env : Env} {tr : List Ev} {s s' : St} (hwf : WF env) (hb : Base env tr s)
    (hi : ConcurInv env tr s)
    (h2 : ∀ i, i < env.numThreads → (s.thr i).phase.returned = true)
    (h3 : env.numThreads ≠ 1) (h4 : s.last = none) (hthr : s'.thr = s.thr)
    (hcounters : s'.counters = s.counters) : SumInv env tr s' := by
  rcases hi.fin with ⟨f1, f2, f3, f4⟩ | ⟨k', f1, f2, f3, f4, f5⟩
  swap
  · rw [h4] at f2; cases f2
  have hends : ∀ i, i < env.numThreads → (s.thr i).phase = .ended := by
    intro i hin
    have := h2 i hin
    have hd := f2 i
    cases hp : (s.thr i).phase <;> simp_all [Phase.returned]
  have hnon : env.nonconcur = [] := by
    by_cases hn : env.numThreads = 0
    · exact (hwf.zero hn).2
    · by_contra hc
      have := f4 hc hn
      rw [f3] at this
      have hfull : (List.range env.numThreads).countP
          (fun i => decide ((s.thr i).phase = .ended)) = env.numThreads := by
        have := List.countP_eq_length (p := fun i => decide ((s.thr i).phase = .ended))
          (l := List.range env.numThreads)
        rw [List.length_range] at this
        rw [this]
        intro i hin
        simp [hends i (List.mem_range.1 hin)]
      omega
  have hbeg : (begins tr).map Prod.snd = env.concur := by
    rw [hi.begins_eq]
    by_cases hn : env.numThreads = 0
    · rw [(hwf.zero hn).1]; simp
    · rw [hi.all 0 (h2 0 (by omega)), List.take_length]
  refine ⟨by rw [hnon, List.append_nil]; exact hbeg, ?_, ⟨0, fun h => absurd hnon h, ?_⟩, ?_, ?_⟩
  · intro i hin; rw [hthr]; exact hends i hin
  · rw [hcounters, hi.tot]
    apply total_congr
    intro ev hev hw
    obtain ⟨j, e, ht, ht'⟩ := weight_test hw
    have hjb := hb.events ev hev _ ht
    have hj : (s.thr j).phase = .ended := by
      apply hends
      by_contra hc
      have hid := hb.out j (by omega)
      exact hw (total_thread_zero (by rw [← hi.thr, hi.idle j hid]) hev ht')
    simp [onEnded, ht', hj, hnon]
  · intro i hin
    rw [hi.tb]
    simp [hends i hin]
  · intro i hin
    rw [hi.te]
    simp [hends i hin, h3]

theorem non_begin {env : Env} {tr : List Ev} {s s' : St} {k : Nat} {e : Exec} {rest : List Exec}
    {sd : Nat × Nat} (hi : NonInv env tr s k (e :: rest))
    (hother : ∀ j, j ≠ k → s'.thr j = s.thr j) (hphase : (s'.thr k).phase = .body e false)
    (hcnt : (s'.thr k).counters = (s.thr k).counters) (hcounters : s'.counters = s.counters) :
    NonInv env (tr ++ [.testBegin k e sd]) s' k rest := by
  have hz : ∀ p, total (tr ++ [.testBegin k e sd]) p = total tr p :=
    fun p => total_zero (by simp [failed, Ev.isFailure]) rfl
  obtain ⟨pre, hp1, hp2⟩ := hi.pre
  have he : e ∈ env.nonconcur := by rw [hp1]; simp
  refine ⟨hi.k_lt, ⟨pre ++ [e], by rw [hp1]; simp, ?_⟩, ?_, Or.inr ⟨e, false, hphase, he⟩, ?_, ?_,
    hi.one, ?_, ?_⟩
  · rw [begins_append, List.map_append, hp2, List.append_assoc]
    rfl
  · intro i hin hik; rw [hother i hik]; exact hi.others i hin hik
  · rw [hz, hcnt]; exact hi.thr
  · rw [hz, hcounters]; exact hi.tot
  · intro i hin; rw [count_other (by simp)]; exact hi.tb i hin
  · intro i hin; rw [count_other (by simp)]; exact hi.te i hin

theorem non_end {env : Env} {tr : List Ev} {s s' : St} {k : Nat} (hwf : WF env) (hb : Base env tr s)
    (hi : NonInv env tr s k [])
    (hother : ∀ j, j ≠ k → s'.thr j = s.thr j) (hphase : (s'.thr k).phase = .ended)
    (hcounters : s'.counters = s.counters + (s.thr k).counters) :
    SumInv env (tr ++ [.threadEnd k]) s' := by
  have hz : ∀ p, total (tr ++ [.threadEnd k]) p = total tr p :=
    fun p => total_zero (by simp [failed, Ev.isFailure]) rfl
  obtain ⟨pre, hp1, hp2⟩ := hi.pre
  rw [List.append_nil] at hp1
  subst hp1
  have hdis := (List.nodup_append.1 hwf.nodup).2.2
  refine ⟨?_, ?_, ⟨k, fun _ => hi.k_lt, ?_⟩, ?_, ?_⟩
  · rw [begins_append, List.map_append, hp2]; simp [begins]
  · intro i hin
    by_cases hik : i = k
    · subst hik; exact hphase
    · rw [hother i hik]; exact hi.others i hin hik
  · rw [hz, hcounters, hi.tot, hi.thr]
    symm
    apply total_split
    intro ev hev hw
    obtain ⟨j, e, ht, ht'⟩ := weight_test hw
    have hmem := mem_begins_snd hb hev ht
    rw [hp2, List.mem_append] at hmem
    simp only [inExecs, ht, onThread, ht']
    by_cases he : e ∈ env.concur
    · have he' : e ∉ env.nonconcur := fun hc => hdis e he e hc rfl
      simp [he, he']
    · have he' : e ∈ env.nonconcur := by
        rcases hmem with h | h
        · exact absurd h he
        · exact h
      simp [he, he']
  · intro i hin; rw [count_other (by simp)]; exact hi.tb i hin
  · intro i hin
    by_cases hik : i = k
    · subst hik
      rw [count_same, hi.te i hin]
      by_cases hn : env.nonconcur = []
      · simp [hn, hi.one hn]
      · simp [hn]
    · rw [count_other (by simp [Ne.symm hik]), hi.te i hin]
      have hn : env.numThreads ≠ 1 := by have := hi.k_lt; omega
      simp [hik, hn]

/-! ## All executions -/

theorem fresh {env : Env} {tr : List Ev} {s s' : St} {a : Act} {evs : List Ev} (hwf : WF env)
    (hi : StageInv env tr s) (hs : Shape env s s' evs a) :
    ∀ i e sd, evs = [.testBegin i e sd] → e ∉ (begins tr).map Prod.snd := by
  intro i e sd he
  cases hs with
  | concurBegin h1 h2 h3 h4 h5 =>
    rw [h5] at he
    simp only [List.cons.injEq, Ev.testBegin.injEq, and_true] at he
    obtain ⟨rfl, rfl, _⟩ := he
    simp only [StageInv, h1] at hi
    rw [hi.begins_eq]
    have hnd := (List.nodup_append.1 hwf.nodup).1
    intro hm
    obtain ⟨n, hn⟩ := List.getElem?_of_mem hm
    have hn1 : n < s.next := by
      by_contra hc
      rw [List.getElem?_take, if_neg hc] at hn
      cases hn
    rw [List.getElem?_take, if_pos hn1] at hn
    have hlt : s.next < env.concur.length := by
      by_contra hc
      rw [List.getElem?_eq_none (by omega)] at h3
      cases h3
    have := (List.getElem?_inj (by omega) hnd).1 (hn.trans h3.symm)
    omega
  | nonBegin h1 h2 h3 h4 =>
    rw [h4] at he
    simp only [List.cons.injEq, Ev.testBegin.injEq, and_true] at he
    obtain ⟨rfl, rfl, _⟩ := he
    simp only [StageInv, h1] at hi
    obtain ⟨pre, hp1, hp2⟩ := hi.pre
    rw [hp2]
    have hnd := hwf.nodup
    rw [hp1, ← List.append_assoc] at hnd
    intro hm
    exact (List.nodup_append.1 hnd).2.2 _ hm _ List.mem_cons_self rfl
  | start h1 h2 h3 h4 h5 h6 => rw [h6] at he; simp at he
  | concurDefer h1 h2 h3 h4 h5 h6 h7 => rw [h7] at he; simp at he
  | concurEnd h1 h2 h3 h4 h5 h6 => rw [h6] at he; simp at he
  | nonEnd h1 h2 h3 h4 => rw [h4] at he; simp at he
  | checkOk h1 h2 h3 h4 => rw [h4] at he; simp at he
  | checkFail t h1 h2 h3 ht ht1 ht2 ht3 h4 h5 => rw [h5] at he; simp at he
  | throw h1 h2 h3 h4 h5 => rw [h5] at he; simp at he
  | finish h1 h2 h3 h4 h5 => rw [h5] at he; simp at he
  | joinRun h1 h2 h3 h4 h5 => rw [h5] at he; simp at he
  | joinNone h1 h2 h3 h4 h5 h6 => rw [h6] at he; simp at he
  | summarize h1 h2 h3 => rw [h3] at he; simp at he

theorem stage_step {env : Env} {tr : List Ev} {s s' : St} {a : Act} {evs : List Ev} (hwf : WF env)
    (hb : Base env tr s) (hi : StageInv env tr s) (hs : Shape env s s' evs a) :
    StageInv env (tr ++ evs) s' := by
  rcases testStep_of_shape hb hs with ⟨i, e, w, ev, rfl, hr, ht⟩ | ha
  · rcases ht.stage with hst | hst
    · unfold StageInv at hi ⊢
      rw [hst]
      cases hc : s.stage with
      | concur => rw [hc] at hi; exact concur_test hi ht
      | nonconcur k rest => rw [hc] at hi; exact non_test hwf hb hi ht
      | summarize => rw [hc] at hr; cases hr
      | done b => rw [hc] at hr; cases hr
      | aborted => rw [hc] at hr; cases hr
    · simp only [StageInv, hst]
  · cases hs with
    | start h1 h2 h3 h4 h5 h6 =>
      have hst : s'.stage = .concur := by rw [h5]; exact h1
      simp only [StageInv, h1] at hi
      simp only [StageInv, hst]
      subst h5 h6
      exact concur_start hi h2 h3 (fun j hj => set_thr_ne s _ hj) (by simp) (by simp) rfl rfl rfl rfl
    | concurBegin h1 h2 h3 h4 h5 =>
      have hst : s'.stage = .concur := by rw [h4]; exact h1
      simp only [StageInv, h1] at hi
      simp only [StageInv, hst]
      subst h4 h5
      exact concur_begin hi h2 h3 (fun j hj => set_thr_ne s _ hj) (by simp) (by simp) rfl rfl rfl rfl
    | concurDefer h1 h2 h3 h4 h5 h6 h7 =>
      have hst : s'.stage = .concur := by rw [h6]; exact h1
      simp only [StageInv, h1] at hi
      simp only [StageInv, hst]
      subst h6 h7
      rw [List.append_nil]
      exact concur_defer hb hi h2 h3 h4 h5 (fun j hj => set_thr_ne s _ hj) (by simp) (by simp) rfl rfl
        rfl
    | concurEnd h1 h2 h3 h4 h5 h6 =>
      have hst : s'.stage = .concur := by rw [h5]; exact h1
      simp only [StageInv, h1] at hi
      simp only [StageInv, hst]
      subst h5 h6
      exact concur_end hb hi h2 h3 h4 (fun j hj => set_thr_ne s _ hj) (by simp) (by simp) rfl rfl rfl
        rfl
    | nonBegin h1 h2 h3 h4 =>
      rename_i k e rest
      have hst : s'.stage = .nonconcur k rest := by rw [h3]
      simp only [StageInv, h1] at hi
      simp only [StageInv, hst]
      subst h3 h4
      exact non_begin hi (fun j hj => set_thr_ne s _ hj) (by simp) (by simp) rfl
    | nonEnd h1 h2 h3 h4 =>
      have hst : s'.stage = .summarize := by rw [h3]
      simp only [StageInv, h1] at hi
      simp only [StageInv, hst]
      subst h3 h4
      exact non_end hwf hb hi (fun j hj => set_thr_ne s _ hj) (by simp) rfl
    | joinRun h1 h2 h3 h4 h5 =>
      rename_i k
      have hst : s'.stage = .nonconcur k env.nonconcur := by rw [h4]
      simp only [StageInv, h1] at hi
      simp only [StageInv, hst]
      subst h4 h5
      rw [List.append_nil]
      exact join_run hwf hb hi h2 h3 (fun j hj => set_thr_ne s _ hj) (by simp) (by simp) rfl
    | joinNone h1 h2 h3 h4 h5 h6 =>
      have hst : s'.stage = .summarize := by rw [h5]
      simp only [StageInv, h1] at hi
      simp only [StageInv, hst]
      subst h5 h6
      rw [List.append_nil]
      exact join_none hwf hb hi h2 h3 h4 rfl rfl
    | summarize h1 h2 h3 =>
      have hst : s'.stage = .done (s.counters.2.2 == 0) := by rw [h2]
      simp only [StageInv, h1] at hi
      simp only [StageInv, hst]
      subst h2 h3
      exact ⟨tr, rfl, ⟨hi.begins_eq, hi.phases, hi.tot, hi.tb, hi.te⟩, rfl⟩
    | checkOk => simp at ha
    | checkFail => simp at ha
    | throw => simp at ha
    | finish => simp at ha

theorem inv {env : Env} {tr : List Ev} {s : St} (hwf : WF env) (h : Reach env tr s) :
    Base env tr s ∧ StageInv env tr s := by
  induction h with
  | init =>
    refine ⟨base_init env, ?_⟩
    show ConcurInv env _ _
    have h0 : ∀ p, total [.rootBegin] p = (0, 0, 0) := by
      intro p
      apply total_none
      intro ev hev hw
      simp only [List.mem_singleton] at hev
      subst hev
      exact absurd rfl hw
    refine ⟨by simp, by simp [begins], ?_, by simp, ?_, by simp [Phase.returned],
      Or.inl ⟨rfl, by simp, by simp, ?_⟩, by simp, by simp⟩
    · intro i; rw [h0]
    · rw [h0]
    · intro _ h; exact Nat.pos_of_ne_zero h
  | step hr hs ih =>
    have hsh := shape hs
    exact ⟨base_step ih.1 hsh (fresh hwf ih.2 hsh), stage_step hwf ih.1 ih.2 hsh⟩

end Verif.TestRunner
