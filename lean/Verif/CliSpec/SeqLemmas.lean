import Verif.CliSpec.ParseMain
/-!
The parser: whole texts.
-/
namespace Verif.CliSpec

variable {env : Env}

theorem Denotes.not_end {n : Nat} {e : Expr} {ts : List Token} (h : Denotes n e ts) : ∀ t ∈ ts, t.type ≠ .endOfInput := by
  induction h with
  | @leaf k t ht =>
    intro t' h'
    simp only [List.mem_singleton] at h'
    subst h'
    rw [ht]
    cases k <;> simp [leafToken]
  | opt h1 _ h2 ih =>
    intro t' h'
    simp only [List.mem_cons, List.mem_append, List.mem_singleton, List.not_mem_nil, or_false] at h'
    rcases h' with rfl | h' | rfl
    · simp [h1]
    · exact ih t' h'
    · simp [h2]
  | paren h1 _ h2 ih =>
    intro t' h'
    simp only [List.mem_cons, List.mem_append, List.mem_singleton, List.not_mem_nil, or_false] at h'
    rcases h' with rfl | h' | rfl
    · simp [h1]
    · exact ih t' h'
    · simp [h2]
  | rep _ h1 ih =>
    intro t' h'
    simp only [List.mem_append, List.mem_singleton] at h'
    rcases h' with h' | rfl
    · exact ih t' h'
    · simp [h1]
  | jux _ _ _ iha ihb =>
    intro t' h'
    rcases List.mem_append.1 h' with h' | h'
    · exact iha t' h'
    · exact ihb t' h'
  | alt _ h1 _ iha ihb =>
    intro t' h'
    simp only [List.mem_cons, List.mem_append] at h'
    rcases h' with h' | rfl | h'
    · exact iha t' h'
    · simp [h1]
    · exact ihb t' h'
  | up _ _ ih => exact ih

theorem Listed.not_end {es : List Expr} {ts : List Token} (h : Listed es ts) : ∀ t ∈ ts, t.type ≠ .endOfInput := by
  induction h with
  | one h => exact h.not_end
  | more _ h1 h2 ih =>
    intro t' h'
    simp only [List.mem_cons, List.mem_append] at h'
    rcases h' with h' | rfl | h'
    · exact ih t' h'
    · simp [h1]
    · exact h2.not_end t' h'

theorem Listed.ne {es : List Expr} {ts : List Token} (h : Listed es ts) : ts ≠ [] := by
  cases h with
  | one h => exact h.ne
  | more => simp

theorem Listed.pos {es : List Expr} {ts : List Token} (h : Listed es ts) : 0 < es.length := by
  cases h <;> simp

theorem Forest.mono {nodes nodes' : List Node} (h : nodes <+: nodes') {es : List Expr} {i : Nat} (hf : Forest nodes es i) : Forest nodes' es i := by
  induction hf with
  | one h1 => exact .one (Tree.mono h h1)
  | more h1 h2 _ h3 ih => exact .more (prefix_get h h1) h2 ih (Tree.mono h h3)

theorem Tree.unique {nodes : List Node} : ∀ {e e' : Expr} {i : Nat}, Tree nodes e i → Tree nodes e' i → e = e' := by
  intro e
  induction e with
  | leaf k l =>
    intro e' i h h'
    obtain ⟨n, h1, h2, h3⟩ := h
    cases e' with
    | leaf k' l' =>
      obtain ⟨n', h1', h2', h3'⟩ := h'
      rw [h1] at h1'
      cases h1'
      rw [h2] at h2'
      have : k = k' := by cases k <;> cases k' <;> simp [leafType] at h2' ⊢
      rw [this, ← h3, ← h3']
    | opt | rep =>
      obtain ⟨n', h1', h2', _⟩ := h'
      rw [h1] at h1'
      cases h1'
      rw [h2] at h2'
      cases k <;> cases h2'
    | jux | alt =>
      obtain ⟨n', h1', h2', _⟩ := h'
      rw [h1] at h1'
      cases h1'
      rw [h2] at h2'
      cases k <;> cases h2'
  | opt e ih | rep e ih =>
    intro e' i h h'
    obtain ⟨n, h1, h2, h3⟩ := h
    cases e' with
    | leaf k' l' =>
      obtain ⟨n', h1', h2', _⟩ := h'
      rw [h1] at h1'
      cases h1'
      rw [h2] at h2'
      cases k' <;> cases h2'
    | opt | rep =>
      obtain ⟨n', h1', h2', h3'⟩ := h'
      rw [h1] at h1'
      cases h1'
      rw [h2] at h2'
      first
      | cases h2'
        done
      | rw [ih h3 h3']
    | jux | alt =>
      obtain ⟨n', h1', h2', _⟩ := h'
      rw [h1] at h1'
      cases h1'
      rw [h2] at h2'
      cases h2'
  | jux a b iha ihb | alt a b iha ihb =>
    intro e' i h h'
    obtain ⟨n, h1, h2, h3, h4⟩ := h
    cases e' with
    | leaf k' l' =>
      obtain ⟨n', h1', h2', _⟩ := h'
      rw [h1] at h1'
      cases h1'
      rw [h2] at h2'
      cases k' <;> cases h2'
    | opt | rep =>
      obtain ⟨n', h1', h2', _⟩ := h'
      rw [h1] at h1'
      cases h1'
      rw [h2] at h2'
      cases h2'
    | jux | alt =>
      obtain ⟨n', h1', h2', h3', h4'⟩ := h'
      rw [h1] at h1'
      cases h1'
      rw [h2] at h2'
      first
      | cases h2'
        done
      | rw [iha h3 h3', ihb h4 h4']

theorem Tree.not_seq {nodes : List Node} {e : Expr} {i : Nat} (h : Tree nodes e i) {n : Node} (hn : nodes[i]? = some n) : n.type ≠ .sequence := by
  cases e with
  | leaf k l =>
    obtain ⟨n', h1, h2, _⟩ := h
    rw [hn] at h1
    cases h1
    rw [h2]
    cases k <;> simp [leafType]
  | opt | rep | jux | alt =>
    obtain ⟨n', h1, h2, _⟩ := h
    rw [hn] at h1
    cases h1
    simp [h2]

theorem Forest.unique {nodes : List Node} {es es' : List Expr} {i : Nat} (h : Forest nodes es i) (h' : Forest nodes es' i) : es = es' := by
  induction h generalizing es' with
  | one h1 =>
    cases h' with
    | one h2 => rw [h1.unique h2]
    | more h2 h3 => exact absurd h3 (h1.not_seq h2)
  | more h1 h2 _ h3 ih =>
    cases h' with
    | one h4 => exact absurd h2 (h4.not_seq h1)
    | more h4 h5 h6 h7 =>
      rw [h1] at h4
      cases h4
      rw [ih h6, h3.unique h7]

/-! Lexing. -/

theorem starts_unique (he : EnvOk env) {s : Str} {t t' : Token} {r r' : Str} (h : Starts env s t r) (h' : Starts env s t' r') : t = t' ∧ r = r' := by
  have h1 := (extract_iff he).2 h
  have h2 := (extract_iff he).2 h'
  rw [h1] at h2
  cases h2
  exact ⟨rfl, rfl⟩

theorem lexes_unique (he : EnvOk env) {s : Str} {ts ts' : List Token} (h : Lexes env s ts) (h' : Lexes env s ts') : ts = ts' := by
  induction h generalizing ts' with
  | done h1 h2 =>
    cases h' with
    | done => rfl
    | token h3 h4 =>
      obtain ⟨rfl, _⟩ := starts_unique he h1 h3
      exact absurd h2 h4
  | token h1 h2 _ ih =>
    cases h' with
    | done h3 h4 =>
      obtain ⟨rfl, _⟩ := starts_unique he h1 h3
      exact absurd h4 h2
    | token h3 h4 h5 =>
      obtain ⟨rfl, rfl⟩ := starts_unique he h1 h3
      rw [ih h5]

theorem starts_end {s : Str} {t : Token} {r : Str} (h : Starts env s t r) (ht : t.type = .endOfInput) : r = [] := by
  obtain ⟨n, _, _, _, h1⟩ := h
  rw [ht] at h1
  exact h1

theorem lexes_of_ahead (he : EnvOk env) {t u : Token} {rest q : Str} {ts : List Token} (h : Ahead env t rest ts u q) (hts : ∀ t ∈ ts, t.type ≠ .endOfInput)
    (hu : u.type = .endOfInput) : ∀ s, extractNextToken env s = .ok (t, rest) → Lexes env s ts := by
  induction h with
  | nil =>
    intro s hx
    have h1 := (extract_iff he).1 hx
    have h2 := starts_end h1 hu
    subst h2
    exact .done h1 hu
  | cons h1 _ ih =>
    intro s hx
    exact .token ((extract_iff he).1 hx) (hts _ (by simp)) (ih (fun t ht => hts t (by simp [ht])) hu _ h1)

theorem ahead_of_lexes (he : EnvOk env) {s : Str} {ts : List Token} (h : Lexes env s ts) :
    ∃ t rest u q, extractNextToken env s = .ok (t, rest) ∧ Ahead env t rest ts u q ∧ u.type = .endOfInput := by
  induction h with
  | done h1 h2 => exact ⟨_, _, _, _, (extract_iff he).2 h1, .nil, h2⟩
  | token h1 h2 _ ih =>
    obtain ⟨t, rest, u, q, h3, h4, h5⟩ := ih
    exact ⟨_, _, u, q, (extract_iff he).2 h1, .cons h3 h4, h5⟩

theorem lexes_lexeme {s : Str} {ts : List Token} (h : Lexes env s ts) : ∀ t ∈ ts, IsLexeme env t.type t.lexeme ∧ t.type ≠ .endOfInput := by
  induction h with
  | done => simp
  | token h1 h2 _ ih =>
    intro t ht
    rcases List.mem_cons.1 ht with rfl | ht
    · obtain ⟨n, _, _, h3, _⟩ := h1
      exact ⟨h3, h2⟩
    · exact ih t ht

/-! Sequences. -/

/-- What is known of the precedence that is reported. -/
def PrecOk (es : List Expr) (ts : List Token) (p : Nat) : Prop :=
  (2 ≤ es.length ∧ p = 0) ∨ ∃ e, es = [e] ∧ (p = 1 ∨ 2 ≤ p ∧ Denotes 2 e ts)

theorem seqLoop_sound : ∀ (f : Nat) (r : PResult) (st : PState) (r' : PResult) (st' : PState) (es : List Expr) (ts : List Token),
    sequenceLoop env f r st = .ok (r', st') → Listed es ts → Forest st.nodes es r.nodeIndex → PrecOk es ts r.precedence →
    ∃ es' us, Listed es' (ts ++ us) ∧ Got env st st' us ∧ Forest st'.nodes es' r'.nodeIndex ∧ PrecOk es' (ts ++ us) r'.precedence ∧
      st'.next.type ≠ .comma
  | 0, r, st, r', st', es, ts, h, _, _, _ => by cases h
  | f + 1, r, st, r', st', es, ts, h, hl, hf, hp => by
    rw [sequenceLoop] at h
    split at h
    · rename_i ht
      cases h
      exact ⟨es, [], by simpa using hl, Got.refl _, hf, by simpa using hp, ht⟩
    · rename_i ht
      have ht : st.next.type = .comma := by simpa using ht
      obtain ⟨st1, h1, h2⟩ := pbind_ok h
      obtain ⟨⟨r2, st2⟩, h3, h4⟩ := pbind_ok h2
      obtain ⟨b, us, h5, h6, h7, _⟩ := (soundAt f).alt _ _ _ h3
      have h8 := ((Got.advance h1 (by simp [ht])).trans h6).push ⟨.sequence, r.nodeIndex, r2.nodeIndex, []⟩
      have hpos := hl.pos
      obtain ⟨es', vs, h9, h10, h11, h12, h13⟩ := seqLoop_sound f _ _ _ _ (es ++ [b]) _ h4 (.more hl ht h5)
        (.more (push_get _ _) rfl (hf.mono h8.nodes) (Tree.mono (push_prefix _ _) h7)) (Or.inl ⟨by simp; omega, rfl⟩)
      exact ⟨es', _, by simpa using h9, h8.trans h10, h11, by simpa using h12, h13⟩

theorem sequence_sound {f : Nat} {st st' : PState} {r : PResult} (h : parseSequence env f st = .ok (r, st')) :
    ∃ es ts, Listed es ts ∧ Got env st st' ts ∧ Forest st'.nodes es r.nodeIndex ∧ PrecOk es ts r.precedence := by
  obtain ⟨⟨r1, st1⟩, h1, h2⟩ := pbind_ok h
  obtain ⟨e, ts, h3, h4, h5, h6⟩ := (soundAt f).alt _ _ _ h1
  obtain ⟨es, us, h7, h8, h9, h10, _⟩ := seqLoop_sound f _ _ _ _ [e] ts h2 (.one h3) (.one h5) (Or.inr ⟨e, rfl, h6⟩)
  exact ⟨es, _, h7, h4.trans h8, h9, h10⟩

/-- Not a token that continues a list item. -/
def Closing (u : Token) : Prop := u.type ≠ .ellipsis ∧ isConcat u.type = false ∧ u.type ≠ .verticalBar

theorem sequence_complete {es : List Expr} {ts : List Token} (h : Listed es ts) : ∀ (st : PState) (u : Token) (q : Str),
    Ahead env st.next st.rest ts u q → Closing u → ∃ r st', Got env st st' ts ∧ st'.next = u ∧ st'.rest = q ∧ Forest st'.nodes es r.nodeIndex ∧
      ∀ R, Ev (fun f => sequenceLoop env f r st') R → Ev (fun f => parseSequence env f st) R := by
  induction h with
  | one hd =>
    intro st u q ha hu
    obtain ⟨r, st1, hP, _, hev⟩ := complete hd st u q ha hu.1 hu.2.1
    refine ⟨r, st1, hP.got, hP.next, hP.rest, .one hP.tree, fun R hR => ?_⟩
    exact Ev.bind (hev _ (ev_altLoop (by rw [hP.next]; exact hu.2.2))) hR
  | @more es e t ts us _ ht hd ih =>
    intro st u q ha hu
    obtain ⟨u1, q1, ha1, ha2⟩ := ha.split
    cases ha2 with
    | @cons _ t2 _ _ s2 _ _ hx ha3 =>
      obtain ⟨r, st1, hg, hn, hr, hf, hev⟩ := ih st t q1 ha1 ⟨by simp [ht], by rw [ht]; rfl, by simp [ht]⟩
      have hn' : st1.next.type = .comma := by rw [hn, ht]
      have hadv := advance_eq (st := st1) (by rw [hr]; exact hx)
      obtain ⟨r2, st2, hP2, _, hev2⟩ := complete hd { st1 with next := t2, rest := s2 } u q ha3 hu.1 hu.2.1
      have h3 := hev2 _ (ev_altLoop (by rw [hP2.next]; exact hu.2.2))
      have hg' := (hg.trans ((Got.advance hadv (by simp [hn'])).trans hP2.got)).push ⟨.sequence, r.nodeIndex, r2.nodeIndex, []⟩
      rw [hn] at hg'
      refine ⟨⟨st2.nodes.length, 0⟩, (st2.push ⟨.sequence, r.nodeIndex, r2.nodeIndex, []⟩).1, by simpa using hg', hP2.next, hP2.rest,
        .more (push_get _ _) rfl (hf.mono (hP2.got.nodes.trans (push_prefix _ _))) (Tree.mono (push_prefix _ _) hP2.tree), fun R hR => hev R ?_⟩
      refine Ev.shift (Ev.congr ?_ fun f => by simp only [sequenceLoop, hn', ne_eq, not_true_eq_false, if_false]; rfl)
      exact ev_advance hadv (Ev.bind h3 hR)

theorem Ev.mp {α : Type} {F : Nat → PRes α} {R : PRes α} (h : Ev F R) : ∃ f, F f = R := by
  obtain ⟨n, hn⟩ := h
  exact ⟨n, hn n (Nat.le_refl _)⟩

/-- The initial state. -/
def firstState (t : Token) (rest : Str) : PState := ⟨rest, t, [], false⟩

theorem reset_eq {s : Str} {t : Token} {rest : Str} (h : extractNextToken env s = .ok (t, rest)) :
    resetParser env s = .ok (decide (t.type ≠ .endOfInput), firstState t rest) := by
  simp [resetParser, PState.advance, h, bind, Except.bind, firstState]

theorem st_eq {st : PState} (h1 : st.nodes = []) (h2 : st.hasValueSlot = false) : st = firstState st.next st.rest := by
  cases st
  simp_all [firstState]

theorem reset_inv {s : Str} {b : Bool} {st : PState} (h : resetParser env s = .ok (b, st)) :
    ∃ t rest, extractNextToken env s = .ok (t, rest) ∧ b = decide (t.type ≠ .endOfInput) ∧ st = firstState t rest := by
  obtain ⟨st1, h1, h2⟩ := pbind_ok h
  cases h2
  obtain ⟨h3, h4, h5⟩ := advance_inv h1
  exact ⟨_, _, h3, rfl, st_eq h4 h5⟩

theorem ev_seqLoop {r : PResult} {st : PState} (h : st.next.type ≠ .comma) : Ev (fun f => sequenceLoop env f r st) (.ok (r, st)) :=
  Ev.shift ((Ev.const _).congr fun f => by simp [sequenceLoop, h])

theorem all_sound (he : EnvOk env) {s : Str} {b : Bool} {st0 : PState} (h0 : resetParser env s = .ok (b, st0)) {f : Nat} {r : PResult} {st' : PState}
    (h : parseAll env f st0 = .ok (r, st')) : ∃ es ts, Lexes env s ts ∧ Listed es ts ∧ Forest st'.nodes es r.nodeIndex ∧
      PrecOk es ts r.precedence ∧ st'.hasValueSlot = slots ts := by
  obtain ⟨t, rest, h1, _, rfl⟩ := reset_inv h0
  obtain ⟨⟨r1, st1⟩, h2, h3⟩ := pbind_ok h
  dsimp only at h3
  split at h3
  · cases h3
  · rename_i hend
    cases h3
    obtain ⟨es, ts, h4, h5, h6, h7⟩ := sequence_sound h2
    exact ⟨es, ts, lexes_of_ahead he h5.ahead h4.not_end (by simpa using hend) s h1, h4, h6, h7, by simpa [firstState] using h5.slot⟩

theorem all_complete (he : EnvOk env) {s : Str} {es : List Expr} {ts : List Token} (hx : Lexes env s ts) (hl : Listed es ts) :
    ∃ st0 r st', resetParser env s = .ok (true, st0) ∧ Ev (fun f => parseAll env f st0) (.ok (r, st')) ∧ Forest st'.nodes es r.nodeIndex ∧
      st'.hasValueSlot = slots ts ∧ (∀ e, es = [e] → Denotes 2 e ts → 2 ≤ r.precedence) := by
  obtain ⟨t, rest, u, q, h1, h2, h3⟩ := ahead_of_lexes he hx
  have hne : t.type ≠ .endOfInput := by
    cases h2 with
    | nil => exact absurd rfl hl.ne
    | cons => exact hl.not_end _ (by simp)
  have hcl : Closing u := ⟨by simp [h3], by rw [h3]; rfl, by simp [h3]⟩
  obtain ⟨r, st1, h4, h5, h6, h7, h8⟩ := sequence_complete hl (firstState t rest) u q h2 hcl
  have h9 := h8 _ (ev_seqLoop (by rw [h5, h3]; simp))
  refine ⟨firstState t rest, r, st1, by rw [reset_eq h1]; simp [hne], ?_, h7, by simpa [firstState] using h4.slot, ?_⟩
  · refine Ev.bind h9 ((Ev.const _).congr fun f => ?_)
    simp [h5, h3]
  · rintro e rfl hd
    obtain ⟨r2, st2, hP2, hp2, hev2⟩ := complete hd (firstState t rest) u q h2 hcl.1
    have h10 : Ev (fun f => parseAlternatives env f (firstState t rest)) (.ok (r2, st2)) := by
      refine Ev.shift (Ev.congr ?_ fun f => by simp only [parseAlternatives]; rfl)
      exact Ev.bind (hev2 _ (ev_juxLoop (by rw [hP2.next]; exact hcl.2.1))) (ev_altLoop (by rw [hP2.next]; exact hcl.2.2))
    have h11 : Ev (fun f => parseSequence env f (firstState t rest)) (.ok (r2, st2)) :=
      Ev.bind h10 (ev_seqLoop (by rw [hP2.next, h3]; simp))
    have := h9.unique h11
    cases this
    exact hp2

end Verif.CliSpec
