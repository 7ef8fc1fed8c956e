import Verif.CliSpec.LexLemmas
import Verif.CliSpec.EncLemmas
import Mathlib.Tactic.Tauto
/-!
The parser: termination, soundness, and completeness.
-/
namespace Verif.CliSpec

variable {env : Env}

/-- With enough fuel, the result is `R`. -/
def Ev {α : Type} (F : Nat → PRes α) (R : PRes α) : Prop := ∃ n, ∀ f, n ≤ f → F f = R

theorem Ev.const {α : Type} (R : PRes α) : Ev (fun _ => R) R := ⟨0, fun _ _ => rfl⟩

theorem Ev.shift {α : Type} {F : Nat → PRes α} {R : PRes α} (h : Ev (fun f => F (f + 1)) R) : Ev F R := by
  obtain ⟨n, hn⟩ := h
  refine ⟨n + 1, fun f hf => ?_⟩
  have : F (f - 1 + 1) = R := hn (f - 1) (by omega)
  rwa [show f - 1 + 1 = f by omega] at this

theorem Ev.congr {α : Type} {F G : Nat → PRes α} {R : PRes α} (h : Ev G R) (hF : ∀ f, F f = G f) : Ev F R := by
  rwa [show F = G from funext hF]

theorem Ev.bind {α β : Type} {F : Nat → PRes α} {G : Nat → α → PRes β} {a : α} {R : PRes β} (h : Ev F (.ok a)) (h' : Ev (fun f => G f a) R) :
    Ev (fun f => F f >>= G f) R := by
  obtain ⟨n, hn⟩ := h
  obtain ⟨m, hm⟩ := h'
  refine ⟨n + m, fun f hf => ?_⟩
  have h1 := hn f (by omega)
  have h2 := hm f (by omega)
  dsimp only at h2 ⊢
  rw [h1]
  exact h2

theorem Ev.fail {α β : Type} {F : Nat → PRes α} {G : Nat → α → PRes β} {e : ParseStop} (h : Ev F (.error e)) :
    Ev (fun f => F f >>= G f) (.error e) := by
  obtain ⟨n, hn⟩ := h
  refine ⟨n, fun f hf => ?_⟩
  have h1 := hn f hf
  dsimp only
  rw [h1]
  rfl

theorem Ev.unique {α : Type} {F : Nat → PRes α} {R R' : PRes α} (h : Ev F R) (h' : Ev F R') : R = R' := by
  obtain ⟨n, hn⟩ := h
  obtain ⟨m, hm⟩ := h'
  exact (hn (n + m) (by omega)).symm.trans (hm (n + m) (by omega))

/-! Termination. -/

/-- How much is left. -/
def PState.size (st : PState) : Nat := st.rest.length + if st.next.type = .endOfInput then 0 else 1

theorem lexeme_ne {ty : TokType} {l : Str} (h : IsLexeme env ty l) (hty : ty ≠ .endOfInput) : l ≠ [] := by
  cases ty <;> simp [IsLexeme] at h hty ⊢
  case keyword =>
    rcases h with rfl | ⟨c, r, rfl, _⟩ <;> simp
  case shortOption =>
    obtain ⟨c, rfl, _⟩ := h
    simp
  case longOption =>
    obtain ⟨r, rfl, _⟩ := h
    simp
  case valueSlot =>
    obtain ⟨r, rfl, _⟩ := h
    simp
  all_goals simp [h]

theorem extract_total (s : Str) : extractNextToken env s ≠ .error .unfinished := by
  have h1 : ∀ s, extractToken env s ≠ .error .unfinished := by
    intro s
    cases s with
    | nil => simp [extractToken]
    | cons c s =>
      simp only [extractToken]
      repeat' split
      all_goals simp
  simp only [extractNextToken, bind, Except.bind]
  intro h
  split at h
  · rename_i h2
    cases h
    exact h1 _ h2
  · cases h

theorem advance_total (st : PState) : st.advance env ≠ .error .unfinished := by
  simp only [PState.advance, bind, Except.bind]
  intro h
  split at h
  · rename_i h2
    cases h
    exact extract_total _ h2
  · cases h

theorem advance_inv {st st' : PState} (h : st.advance env = .ok st') :
    extractNextToken env st.rest = .ok (st'.next, st'.rest) ∧ st'.nodes = st.nodes ∧ st'.hasValueSlot = st.hasValueSlot := by
  simp only [PState.advance, bind, Except.bind] at h
  split at h
  · cases h
  · rename_i v hv
    cases h
    exact ⟨hv, rfl, rfl⟩

theorem advance_eq {st : PState} {t : Token} {rest : Str} (h : extractNextToken env st.rest = .ok (t, rest)) :
    st.advance env = .ok { st with next := t, rest := rest } := by
  simp [PState.advance, h, bind, Except.bind]

theorem advance_size (he : EnvOk env) {st st' : PState} (hn : st.next.type ≠ .endOfInput) (h : st.advance env = .ok st') : st'.size < st.size := by
  obtain ⟨n, h1, _, h2, h3⟩ := (extract_iff he).1 (advance_inv h).1
  have hl := congrArg List.length h1
  simp only [List.length_append, List.length_replicate] at hl
  simp only [PState.size, hn, if_false]
  split
  · omega
  · rename_i h4
    have := List.length_pos_of_ne_nil (lexeme_ne h2 h4)
    omega

/-- The function ends, and something is consumed if it succeeds. -/
def Ends (F : Nat → PRes (PResult × PState)) (k : Nat) : Prop :=
  ∃ R, Ev F R ∧ R ≠ .error .unfinished ∧ ∀ r st, R = .ok (r, st) → st.size < k

theorem Ends.err {F : Nat → PRes (PResult × PState)} {k : Nat} {e : ParseStop} (h : Ev F (.error e)) (he : e ≠ .unfinished) : Ends F k :=
  ⟨_, h, by simpa using he, by simp⟩

theorem Ends.mono {F : Nat → PRes (PResult × PState)} {k k' : Nat} (h : Ends F k) (hk : k ≤ k') : Ends F k' := by
  obtain ⟨R, h1, h2, h3⟩ := h
  exact ⟨R, h1, h2, fun r st h => Nat.lt_of_lt_of_le (h3 r st h) hk⟩

theorem Ends.shift {F : Nat → PRes (PResult × PState)} {k : Nat} (h : Ends (fun f => F (f + 1)) k) : Ends F k := by
  obtain ⟨R, h1, h2⟩ := h
  exact ⟨R, h1.shift, h2⟩

theorem Ends.congr {F G : Nat → PRes (PResult × PState)} {k : Nat} (h : Ends G k) (hF : ∀ f, F f = G f) : Ends F k := by
  rwa [show F = G from funext hF]

theorem Ends.bind {F : Nat → PRes (PResult × PState)} {G : Nat → PResult × PState → PRes (PResult × PState)} {k k' : Nat} (h : Ends F k)
    (h' : ∀ r st, st.size < k → Ends (fun f => G f (r, st)) k') : Ends (fun f => F f >>= G f) k' := by
  obtain ⟨R, h1, h2, h3⟩ := h
  cases R with
  | error e => exact Ends.err h1.fail (by simpa using h2)
  | ok v =>
    obtain ⟨r, st⟩ := v
    obtain ⟨R', h4, h5⟩ := h' r st (h3 r st rfl)
    exact ⟨R', h1.bind h4, h5⟩

theorem Ends.advance (he : EnvOk env) {st : PState} (hn : st.next.type ≠ .endOfInput) {G : Nat → PState → PRes (PResult × PState)} {k : Nat}
    (h' : ∀ st', st'.size < st.size → Ends (fun f => G f st') k) : Ends (fun f => st.advance env >>= G f) k := by
  cases h : st.advance env with
  | error e => exact Ends.err (Ev.const _) (by rintro rfl; exact advance_total st h)
  | ok st' => exact h' st' (advance_size he hn h)

theorem Ends.ok {r : PResult} {st : PState} {k : Nat} (h : st.size < k) : Ends (fun _ => .ok (r, st)) k :=
  ⟨_, Ev.const _, by simp, by rintro _ _ h'; cases h'; exact h⟩

theorem push_size (st : PState) (node : Node) : (st.push node).1.size = st.size := rfl

theorem repLoop_ends (he : EnvOk env) : ∀ (k : Nat) (r : PResult) (st : PState), st.size ≤ k → Ends (fun f => repetitionLoop env f r st) (st.size + 1) := by
  intro k
  induction k with
  | zero =>
    intro r st hk
    refine Ends.shift ?_
    have : st.next.type ≠ .ellipsis := by
      intro h
      simp [PState.size, h] at hk
    exact (Ends.ok (r := r) (st := st) (by omega)).congr fun f => by simp [repetitionLoop, this]
  | succ k ih =>
    intro r st hk
    refine Ends.shift ?_
    by_cases hn : st.next.type = .ellipsis
    · have hend : st.next.type ≠ .endOfInput := by simp [hn]
      refine Ends.congr ?_ (fun f => by simp only [repetitionLoop, hn, ne_eq, not_true_eq_false, if_false]; rfl)
      refine Ends.advance he hend fun st' hs => ?_
      exact (ih _ _ (by rw [push_size]; (try dsimp only); omega)).mono (by rw [push_size]; (try dsimp only); omega)
    · exact (Ends.ok (r := r) (st := st) (by omega)).congr fun f => by simp [repetitionLoop, hn]

theorem juxLoop_ends (k : Nat) (hrep : ∀ st : PState, st.size ≤ k → Ends (fun f => parseRepetition env f st) st.size) :
    ∀ (m : Nat) (r : PResult) (st : PState), st.size ≤ m → m ≤ k → Ends (fun f => juxtapositionLoop env f r st) (st.size + 1) := by
  intro m
  induction m with
  | zero =>
    intro r st hk _
    refine Ends.shift ?_
    have : isConcat st.next.type = false := by
      cases hc : st.next.type <;> simp [PState.size, hc] at hk <;> rfl
    exact (Ends.ok (r := r) (st := st) (by omega)).congr fun f => by simp [juxtapositionLoop, this]
  | succ m ih =>
    intro r st hk hm
    refine Ends.shift ?_
    by_cases hc : isConcat st.next.type = true
    · by_cases hp : st.next.precededBySpace = true
      · refine Ends.congr ?_ (fun f => by simp only [juxtapositionLoop, hc, hp, Bool.not_true, Bool.false_eq_true, if_false]; rfl)
        refine Ends.bind (hrep st (by omega)) fun r' st' hs => ?_
        exact (ih _ _ (by rw [push_size]; dsimp only; omega) (by omega)).mono (by rw [push_size]; dsimp only; omega)
      · refine Ends.err (e := .error .needSpace) ((Ev.const _).congr fun f => ?_) (by simp)
        simp [juxtapositionLoop, hc, hp]
    · exact (Ends.ok (r := r) (st := st) (by omega)).congr fun f => by simp [juxtapositionLoop, hc]

theorem altLoop_ends (he : EnvOk env) (k : Nat) (hjux : ∀ st : PState, st.size ≤ k → Ends (fun f => parseJuxtaposition env f st) st.size) :
    ∀ (m : Nat) (r : PResult) (st : PState), st.size ≤ m → m ≤ k → Ends (fun f => alternativesLoop env f r st) (st.size + 1) := by
  intro m
  induction m with
  | zero =>
    intro r st hk _
    refine Ends.shift ?_
    have : st.next.type ≠ .verticalBar := by
      intro h
      simp [PState.size, h] at hk
    exact (Ends.ok (r := r) (st := st) (by omega)).congr fun f => by simp [alternativesLoop, this]
  | succ m ih =>
    intro r st hk hm
    refine Ends.shift ?_
    by_cases hn : st.next.type = .verticalBar
    · have hend : st.next.type ≠ .endOfInput := by simp [hn]
      refine Ends.congr ?_ (fun f => by simp only [alternativesLoop, hn, ne_eq, not_true_eq_false, if_false]; rfl)
      refine Ends.advance he hend fun st' hs => ?_
      refine Ends.bind (hjux st' (by omega)) fun r' st'' hs' => ?_
      exact (ih _ _ (by rw [push_size]; dsimp only; omega) (by omega)).mono (by rw [push_size]; dsimp only; omega)
    · exact (Ends.ok (r := r) (st := st) (by omega)).congr fun f => by simp [alternativesLoop, hn]

theorem seqLoop_ends (he : EnvOk env) (halt : ∀ st : PState, Ends (fun f => parseAlternatives env f st) st.size) :
    ∀ (m : Nat) (r : PResult) (st : PState), st.size ≤ m → Ends (fun f => sequenceLoop env f r st) (st.size + 1) := by
  intro m
  induction m with
  | zero =>
    intro r st hk
    refine Ends.shift ?_
    have : st.next.type ≠ .comma := by
      intro h
      simp [PState.size, h] at hk
    exact (Ends.ok (r := r) (st := st) (by omega)).congr fun f => by simp [sequenceLoop, this]
  | succ m ih =>
    intro r st hk
    refine Ends.shift ?_
    by_cases hn : st.next.type = .comma
    · have hend : st.next.type ≠ .endOfInput := by simp [hn]
      refine Ends.congr ?_ (fun f => by simp only [sequenceLoop, hn, ne_eq, not_true_eq_false, if_false]; rfl)
      refine Ends.advance he hend fun st' hs => ?_
      refine Ends.bind (halt st') fun r' st'' hs' => ?_
      exact (ih _ _ (by rw [push_size]; (try dsimp only); omega)).mono (by rw [push_size]; (try dsimp only); omega)
    · exact (Ends.ok (r := r) (st := st) (by omega)).congr fun f => by simp [sequenceLoop, hn]

theorem element_ends (he : EnvOk env) (k : Nat) (halt : ∀ st : PState, st.size < k → Ends (fun f => parseAlternatives env f st) st.size) (st : PState)
    (hk : st.size ≤ k) : Ends (fun f => parseElement env f st) st.size := by
  refine Ends.shift ?_
  cases ht : tokenNode st.next.type with
  | some ty =>
    have hend : st.next.type ≠ .endOfInput := by
      intro h
      simp [h, tokenNode] at ht
    refine Ends.congr ?_ (fun f => by simp only [parseElement, ht]; rfl)
    generalize hst : (if ty = NodeType.valueSlot then { st with hasValueSlot := true } else st) = st1
    have h1 : st1.size = st.size ∧ st1.next = st.next := by
      rw [← hst]
      split <;> exact ⟨rfl, rfl⟩
    refine Ends.advance he (by rw [h1.2]; exact hend) fun st' hs => ?_
    exact Ends.ok (by rw [push_size]; omega)
  | none =>
    by_cases h1 : st.next.type = .leftSqBracket
    · have hend : st.next.type ≠ .endOfInput := by simp [h1]
      refine Ends.congr ?_ (fun f => by simp only [parseElement, ht, if_pos h1]; rfl)
      refine Ends.advance he hend fun st' hs => ?_
      refine Ends.bind (halt st' (by omega)) fun r st'' hs' => ?_
      by_cases h2 : st''.next.type = .rightSqBracket
      · have hend : st''.next.type ≠ .endOfInput := by simp [h2]
        refine Ends.congr (G := fun f => st''.advance env >>= fun st =>
          Except.ok (⟨(st.push ⟨.optionality, r.nodeIndex, 0, []⟩).2, 4⟩, (st.push ⟨.optionality, r.nodeIndex, 0, []⟩).1)) ?_
          (fun f => by dsimp only; rw [if_neg (by simpa using h2)])
        refine Ends.advance he hend fun st3 hs3 => ?_
        exact Ends.ok (by rw [push_size]; omega)
      · exact Ends.err (e := .error .unclosedSquareBracket) ((Ev.const _).congr fun f => by simp [h2]) (by simp)
    · by_cases h1' : st.next.type = .leftParenthesis
      · have hend : st.next.type ≠ .endOfInput := by simp [h1']
        refine Ends.congr ?_ (fun f => by simp only [parseElement, ht, if_neg h1, if_pos h1']; rfl)
        refine Ends.advance he hend fun st' hs => ?_
        refine Ends.bind (halt st' (by omega)) fun r st'' hs' => ?_
        by_cases h2 : st''.next.type = .rightParenthesis
        · have hend : st''.next.type ≠ .endOfInput := by simp [h2]
          refine Ends.congr (G := fun f => st''.advance env >>= fun st => Except.ok (⟨r.nodeIndex, 4⟩, st)) ?_
            (fun f => by dsimp only; rw [if_neg (by simpa using h2)])
          refine Ends.advance he hend fun st3 hs3 => ?_
          exact Ends.ok (by omega)
        · exact Ends.err (e := .error .unclosedParenthesis) ((Ev.const _).congr fun f => by simp [h2]) (by simp)
      · exact Ends.err (e := .error .badStart) ((Ev.const _).congr fun f => by simp [parseElement, ht, h1, h1']) (by simp)

theorem all_end (he : EnvOk env) : ∀ (k : Nat) (st : PState), st.size ≤ k →
    Ends (fun f => parseElement env f st) st.size ∧ Ends (fun f => parseRepetition env f st) st.size ∧
    Ends (fun f => parseJuxtaposition env f st) st.size ∧ Ends (fun f => parseAlternatives env f st) st.size := by
  intro k
  induction k using Nat.strongRecOn with
  | _ k ih =>
    intro st hk
    have h1 : Ends (fun f => parseElement env f st) st.size :=
      element_ends he k (fun st' hs => (ih st'.size hs st' (Nat.le_refl _)).2.2.2) st hk
    have h2 : Ends (fun f => parseRepetition env f st) st.size := by
      refine Ends.shift (Ends.congr ?_ fun f => by simp only [parseRepetition]; rfl)
      refine Ends.bind h1 fun r st' hs => ?_
      exact (repLoop_ends he _ r st' (Nat.le_refl _)).mono (by omega)
    have h3 : Ends (fun f => parseJuxtaposition env f st) st.size := by
      refine Ends.shift (Ends.congr ?_ fun f => by simp only [parseJuxtaposition]; rfl)
      refine Ends.bind h2 fun r st' hs => ?_
      exact (juxLoop_ends st'.size (fun st'' hs' => (ih st''.size (by omega) st'' (Nat.le_refl _)).2.1) _ r st' (Nat.le_refl _) (Nat.le_refl _)).mono (by omega)
    refine ⟨h1, h2, h3, ?_⟩
    refine Ends.shift (Ends.congr ?_ fun f => by simp only [parseAlternatives]; rfl)
    refine Ends.bind h3 fun r st' hs => ?_
    exact (altLoop_ends he st'.size (fun st'' hs' => (ih st''.size (by omega) st'' (Nat.le_refl _)).2.2.1) _ r st' (Nat.le_refl _) (Nat.le_refl _)).mono (by omega)

theorem sequence_ends (he : EnvOk env) (st : PState) : Ends (fun f => parseSequence env f st) st.size := by
  refine Ends.congr ?_ fun f => by simp only [parseSequence]; rfl
  refine Ends.bind (all_end he _ st (Nat.le_refl _)).2.2.2 fun r st' hs => ?_
  exact (seqLoop_ends he (fun st => (all_end he _ st (Nat.le_refl _)).2.2.2) _ r st' (Nat.le_refl _)).mono (by omega)

end Verif.CliSpec
