import Verif.WordWrap.Knuth
/-!
Knuth's algorithm: the steps.
-/
namespace Verif.WordWrap
open Spec

variable {env : Env}

/-- What is known about the result of a place during evaluation, and about the bound, when only breaks at or after a particular word
have been considered. -/
structure Part (env : Env) (B0 B l w e : Nat) (bps : List Bp) (res : Result) : Prop where
  explored : Explored (text env) l w e res.badness
  chain : ∀ p, res.bp = some p → ∃ cells ws, Chain bps p cells ws ∧ (text env).Valid l w ws ∧ (text env).badness l w ws = res.badness
  definite : res.bp ≠ none → B < res.badness
  indefinite : res.bp = none → B < res.badness ∨ res.badness = env.badMax
  le : B ≤ B0
  why : B = B0 ∨ (res.bp ≠ none ∧ res.badness = B + 1) ∨ (B0 = env.badMax ∧ B + 1 = env.badMax)

/-- What is known about the result of a place at the end of evaluation, and about the bound. -/
structure Fin (env : Env) (B0 B : Nat) (res : Result) : Prop where
  indefinite : res.bp = none → B < res.badness ∨ res.badness = env.badMax
  le : B ≤ B0
  why : B = B0 ∨ (res.bp ≠ none ∧ res.badness = B + 1) ∨ (B0 = env.badMax ∧ B + 1 = env.badMax) ∨ (res.bp ≠ none ∧ res.badness = 0)

theorem Part.fin {B0 B l w e : Nat} {bps : List Bp} {res : Result} (h : Part env B0 B l w e bps res) : Fin env B0 B res := by
  refine ⟨h.indefinite, h.le, ?_⟩
  rcases h.why with h | h | h
  · exact .inl h
  · exact .inr (.inl h)
  · exact .inr (.inr (.inl h))

/-- During evaluation of a place. -/
structure Node (env : Env) (B0 r l w k e : Nat) (S : List (Nat × Nat)) (st : St) : Prop where
  inv : Inv env ((r, key env l w) :: S) st
  line : st.line = l
  result : st.result = r
  lineSize : st.lineSize = (text env).line l
  lw : ∃ slot, st.lineSlots[l]? = some slot ∧ slot.word = w
  slots : ∀ (i : Nat) (slot : WordSlot), w < i → i < k → st.wordSlots[i]? = some slot → CurOk env l w i slot.cursor
  res : ∃ res, st.results[r]? = some res ∧ Part env B0 st.bound l w e st.bps res

/-- At the end of evaluation of a place. -/
structure Exit (env : Env) (B0 r l w : Nat) (S : List (Nat × Nat)) (st : St) : Prop where
  inv : Inv env S st
  line : st.line = l
  result : st.result = r
  lw : ∃ slot, st.lineSlots[l]? = some slot ∧ slot.word = w
  res : ∃ res, st.results[r]? = some res ∧ ResOk env st.bps l w res ∧ Fin env B0 st.bound res

/-- While waiting for the evaluation of another place. -/
structure Wait (env : Env) (B0 B r l w k : Nat) (st : St) : Prop where
  slot : ∃ slot, st.lineSlots[l]? = some slot ∧ slot.word = w ∧ slot.badness = ((text env).line l - (text env).width w k) ^ 2 ∧ slot.result = r
  slots : ∀ (i : Nat) (slot : WordSlot), w < i → i < k → st.wordSlots[i]? = some slot → CurOk env l w i slot.cursor
  res : ∃ res, st.results[r]? = some res ∧ Part env B0 B l w (k + 1) st.bps res

theorem Wait.keep {B0 B r l w k rc x : Nat} {S : List (Nat × Nat)} {st st' : St} (h : Wait env B0 B r l w k st) (hk : Keeps rc (l + 1) k ((r, x) :: S) st st')
    (hne : r ≠ rc) : Wait env B0 B r l w k st' := by
  obtain ⟨⟨slot, h1, h2⟩, h3, ⟨res, h4, h5⟩⟩ := h
  refine ⟨⟨slot, by rw [hk.lines l (by omega)]; exact h1, h2⟩, fun i slot hi1 hi2 hs => ?_, ⟨res, hk.results r res hne h4 (.inl (by simp)), ?_⟩⟩
  · rw [hk.slots i hi2] at hs; exact h3 i slot hi1 hi2 hs
  · refine ⟨h5.explored, fun p hp => ?_, h5.definite, h5.indefinite, h5.le, h5.why⟩
    obtain ⟨cells, ws, c1, c2⟩ := h5.chain p hp
    exact ⟨cells, ws, hk.chains r res p cells ws hne h4 hp c1, c2⟩

/-- A place has been evaluated. -/
theorem Node.exit {B0 r l w k e : Nat} {S : List (Nat × Nat)} {st : St} (hw : w < env.words.length) (h : Node env B0 r l w k e S st)
    (hlb : ∀ res, st.results[r]? = some res → Lb (text env) l w res.badness) : Exit env B0 r l w S st := by
  obtain ⟨res, h1, h2⟩ := h.res
  have hok : ResOk env st.bps l w res := ⟨hlb res h1, h2.chain⟩
  exact ⟨h.inv.pop hw h1 hok, h.line, h.result, h.lw, res, h1, hok, h2.fin⟩

theorem run_sub {l w k : Nat} {cur : Nat} (hc : CurOk env l w k cur) :
    (if cur < (text env).line l then (text env).line l - cur else 0) = (text env).line l - (text env).width w k := by
  rw [← curOk_sub hc]
  split <;> omega

theorem left_step {B0 r l w k : Nat} {S : List (Nat × Nat)} {st : St} (hw : w < k) (hkn : k < env.words.length) (h : Node env B0 r l w k k S st) (hword : st.word = k)
    (hn : ¬ (text env).fits l w (text env).n) :
    (∃ st', step env .left st = some (.up, st') ∧ Exit env B0 r l w S st' ∧ Keeps r l w S st st') ∨
    (∃ st', step env .left st = some (.down, st') ∧ w < k - 1 ∧ st'.word = k - 1 ∧ Node env B0 r l w (k - 1) k S st' ∧ CurOk env l w (k - 1) st'.cursor ∧ Keeps r l w S st st') := by
  obtain ⟨slot, s1, s2⟩ := h.lw
  have hstep : step env .left st = stepLeft st := rfl
  have hi2 : ∀ st' : St, st'.wordSlots = st.wordSlots → st'.lineSlots = st.lineSlots → st'.cache = st.cache → st'.results = st.results → st'.bps = st.bps →
      st'.unused = st.unused → st'.line = st.line → st'.result = st.result → st'.lineSize = st.lineSize → st'.bound = st.bound →
      Node env B0 r l w (k - 1) k S st' ∧ Keeps r l w S st st' := by
    intro st' e1 e2 e3 e4 e5 e6 e7 e8 e9 e10
    refine ⟨⟨h.inv.other e1 e2 e3 e4 e5 e6, by rw [e7, h.line], by rw [e8, h.result], by rw [e9, h.lineSize], by rw [e2]; exact h.lw, ?_, ?_⟩, ?_⟩
    · rw [e1]; exact fun i slot a b c => h.slots i slot a (by omega) c
    · rw [e4, e5, e10]; exact h.res
    · exact ⟨fun _ _ => by rw [e2], fun _ _ => by rw [e1], fun _ _ _ a _ => by rw [e4]; exact a, fun _ _ _ _ _ _ _ _ a => by rw [e5]; exact a⟩
  unfold stepLeft at hstep
  rw [if_pos (by omega)] at hstep
  simp only [h.line, s1, Option.bind_eq_bind, Option.bind_some, hword] at hstep
  by_cases hk : k - 1 > slot.word
  · right
    have hlt : k - 1 < st.wordSlots.length := by rw [h.inv.wlen]; omega
    rw [if_pos hk, List.getElem?_eq_getElem hlt] at hstep
    simp only [Option.bind_some] at hstep
    refine ⟨_, hstep, by omega, rfl, ?_, ?_, ?_⟩
    · refine (hi2 _ ?_ ?_ ?_ ?_ ?_ ?_ ?_ ?_ ?_ ?_).1 <;> first | rfl | exact h.line.symm
    rotate_left
    · refine (hi2 _ ?_ ?_ ?_ ?_ ?_ ?_ ?_ ?_ ?_ ?_).2 <;> first | rfl | exact h.line.symm
    exact h.slots (k - 1) _ (by omega) (by omega) (List.getElem?_eq_getElem hlt)
  · left
    rw [if_neg hk] at hstep
    refine ⟨_, hstep, ?_, ?_⟩
    rotate_left
    · refine (hi2 _ ?_ ?_ ?_ ?_ ?_ ?_ ?_ ?_ ?_ ?_).2 <;> first | rfl | exact h.line.symm
    have a := (hi2 { st with word := k - 1, line := l } rfl rfl rfl rfl rfl rfl h.line.symm rfl rfl rfl).1
    refine a.exit (by omega) (fun res hres => ?_)
    obtain ⟨res', r1, r2⟩ := a.res
    rw [hres] at r1; injection r1 with r1; subst r1
    refine lb_of_explored hn ?_
    have : k = w + 1 := by omega
    rw [← this]; exact r2.explored

end Verif.WordWrap
