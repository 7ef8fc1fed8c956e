import Verif.CliSpec.ParseLemmas
/-!
The parser: soundness and completeness.
-/
namespace Verif.CliSpec

variable {env : Env}

theorem pbind_ok {α β : Type} {x : PRes α} {f : α → PRes β} {b : β} (h : (x >>= f) = .ok b) : ∃ a, x = .ok a ∧ f a = .ok b := by
  cases x with
  | error e => cases h
  | ok a => exact ⟨a, rfl, h⟩

/-- `Ahead env t s ts u r`: From the state where `t` is the next token, and `s` follows, to the state where `u` is the next token, and `r`
follows, the tokens are `ts`. -/
inductive Ahead (env : Env) : Token → Str → List Token → Token → Str → Prop
  | nil {t : Token} {s : Str} : Ahead env t s [] t s
  | cons {t t' u : Token} {s s' r : Str} {ts : List Token} : extractNextToken env s = .ok (t', s') → Ahead env t' s' ts u r →
      Ahead env t s (t :: ts) u r

theorem Ahead.append {t u v : Token} {s r q : Str} {ts us : List Token} (h : Ahead env t s ts u r) (h' : Ahead env u r us v q) :
    Ahead env t s (ts ++ us) v q := by
  induction h with
  | nil => exact h'
  | cons h1 _ ih => exact .cons h1 (ih h')

theorem Ahead.split {t v : Token} {s q : Str} {ts us : List Token} (h : Ahead env t s (ts ++ us) v q) :
    ∃ u r, Ahead env t s ts u r ∧ Ahead env u r us v q := by
  induction ts generalizing t s with
  | nil => exact ⟨t, s, .nil, h⟩
  | cons x ts ih =>
    cases h with
    | cons h1 h2 =>
      obtain ⟨u, r, h3, h4⟩ := ih h2
      exact ⟨u, r, .cons h1 h3, h4⟩

theorem Denotes.ne {n : Nat} {e : Expr} {ts : List Token} (h : Denotes n e ts) : ts ≠ [] := by
  induction h <;> simp_all

theorem Tree.mono {nodes nodes' : List Node} (h : nodes <+: nodes') : ∀ {e : Expr} {i : Nat}, Tree nodes e i → Tree nodes' e i
  | .leaf _ _, _, ⟨n, h1, h2⟩ => ⟨n, prefix_get h h1, h2⟩
  | .opt _, _, ⟨n, h1, h2, h3⟩ | .rep _, _, ⟨n, h1, h2, h3⟩ => ⟨n, prefix_get h h1, h2, Tree.mono h h3⟩
  | .jux _ _, _, ⟨n, h1, h2, h3, h4⟩ | .alt _ _, _, ⟨n, h1, h2, h3, h4⟩ => ⟨n, prefix_get h h1, h2, Tree.mono h h3, Tree.mono h h4⟩

def slots (ts : List Token) : Bool := ts.any fun t => decide (t.type = .valueSlot)

/-- What happens to the state when tokens are consumed. -/
structure Got (env : Env) (st st' : PState) (ts : List Token) : Prop where
  ahead : Ahead env st.next st.rest ts st'.next st'.rest
  nodes : st.nodes <+: st'.nodes
  slot : st'.hasValueSlot = (st.hasValueSlot || slots ts)

theorem Got.refl (st : PState) : Got env st st [] := ⟨.nil, List.prefix_rfl, by simp [slots]⟩

theorem Got.trans {st st' st'' : PState} {ts us : List Token} (h : Got env st st' ts) (h' : Got env st' st'' us) : Got env st st'' (ts ++ us) :=
  ⟨h.ahead.append h'.ahead, h.nodes.trans h'.nodes, by rw [h'.slot, h.slot]; simp [slots, Bool.or_assoc]⟩

theorem Got.push {st st' : PState} {ts : List Token} (h : Got env st st' ts) (n : Node) : Got env st (st'.push n).1 ts :=
  ⟨h.ahead, h.nodes.trans (List.prefix_append _ _), h.slot⟩

theorem Got.advance {st st' : PState} (h : st.advance env = .ok st') (hn : st.next.type ≠ .valueSlot) : Got env st st' [st.next] := by
  obtain ⟨h1, h2, h3⟩ := advance_inv h
  exact ⟨.cons h1 .nil, h2 ▸ List.prefix_rfl, by simp [h3, slots, hn]⟩

theorem Got.head {st st' : PState} {t : Token} {ts : List Token} (h : Got env st st' (t :: ts)) : t = st.next := by
  cases h.ahead
  rfl

theorem push_get (st : PState) (n : Node) : (st.push n).1.nodes[(st.push n).2]? = some n := List.getElem?_concat_length

theorem push_prefix (st : PState) (n : Node) : st.nodes <+: (st.push n).1.nodes := List.prefix_append _ _

/-- What is parsed is an expression. -/
structure SoundAt (env : Env) (f : Nat) : Prop where
  elem : ∀ st r st', parseElement env f st = .ok (r, st') → ∃ e ts, Denotes 4 e ts ∧ Got env st st' ts ∧ Tree st'.nodes e r.nodeIndex ∧
    r.precedence = 4
  rep : ∀ st r st', parseRepetition env f st = .ok (r, st') → ∃ e ts, Denotes 3 e ts ∧ Got env st st' ts ∧ Tree st'.nodes e r.nodeIndex ∧
    3 ≤ r.precedence
  repLoop : ∀ r st r' st' a ts, repetitionLoop env f r st = .ok (r', st') → Denotes 3 a ts → Tree st.nodes a r.nodeIndex → 3 ≤ r.precedence →
    ∃ e us, Denotes 3 e (ts ++ us) ∧ Got env st st' us ∧ Tree st'.nodes e r'.nodeIndex ∧ 3 ≤ r'.precedence
  jux : ∀ st r st', parseJuxtaposition env f st = .ok (r, st') → ∃ e ts, Denotes 2 e ts ∧ Got env st st' ts ∧ Tree st'.nodes e r.nodeIndex ∧
    2 ≤ r.precedence
  juxLoop : ∀ r st r' st' a ts, juxtapositionLoop env f r st = .ok (r', st') → Denotes 2 a ts → Tree st.nodes a r.nodeIndex → 2 ≤ r.precedence →
    ∃ e us, Denotes 2 e (ts ++ us) ∧ Got env st st' us ∧ Tree st'.nodes e r'.nodeIndex ∧ 2 ≤ r'.precedence
  alt : ∀ st r st', parseAlternatives env f st = .ok (r, st') → ∃ e ts, Denotes 1 e ts ∧ Got env st st' ts ∧ Tree st'.nodes e r.nodeIndex ∧
    (r.precedence = 1 ∨ 2 ≤ r.precedence ∧ Denotes 2 e ts)
  altLoop : ∀ r st r' st' a ts, alternativesLoop env f r st = .ok (r', st') → Denotes 1 a ts → Tree st.nodes a r.nodeIndex →
    (r.precedence = 1 ∨ 2 ≤ r.precedence ∧ Denotes 2 a ts) →
    ∃ e us, Denotes 1 e (ts ++ us) ∧ Got env st st' us ∧ Tree st'.nodes e r'.nodeIndex ∧
      (r'.precedence = 1 ∨ 2 ≤ r'.precedence ∧ Denotes 2 e (ts ++ us))

theorem tokenNode_leaf {ty : TokType} {n : NodeType} (h : tokenNode ty = some n) : ∃ k, ty = leafToken k ∧ n = leafType k := by
  cases ty <;> simp [tokenNode] at h <;> subst h
  · exact ⟨.keyword, rfl, rfl⟩
  · exact ⟨.short, rfl, rfl⟩
  · exact ⟨.long, rfl, rfl⟩
  · exact ⟨.slot, rfl, rfl⟩

theorem sound_elem {f : Nat} (ih : SoundAt env f) (st : PState) (r : PResult) (st' : PState) (h : parseElement env (f + 1) st = .ok (r, st')) :
    ∃ e ts, Denotes 4 e ts ∧ Got env st st' ts ∧ Tree st'.nodes e r.nodeIndex ∧ r.precedence = 4 := by
  rw [parseElement] at h
  cases ht : tokenNode st.next.type with
  | some ty =>
    rw [ht] at h
    obtain ⟨k, hk1, hk2⟩ := tokenNode_leaf ht
    obtain ⟨st1, h1, h2⟩ := pbind_ok h
    cases h2
    obtain ⟨h3, h4, h5⟩ := advance_inv h1
    refine ⟨.leaf k st.next.lexeme, [st.next], .leaf hk1, ⟨?_, ?_, ?_⟩, ⟨_, push_get _ _, hk2, rfl⟩, rfl⟩
    · refine .cons (Eq.trans ?_ h3) .nil
      split <;> rfl
    · refine List.IsPrefix.trans ?_ (push_prefix _ _)
      rw [h4]
      split <;> exact List.prefix_rfl
    · show st1.hasValueSlot = _
      rw [h5]
      subst hk2
      simp only [slots, List.any_cons, List.any_nil, Bool.or_false, hk1]
      cases k <;> simp [leafType, leafToken]
  | none =>
    rw [ht] at h
    dsimp only at h
    split at h
    · rename_i hb
      obtain ⟨st1, h1, h2⟩ := pbind_ok h
      obtain ⟨⟨r2, st2⟩, h3, h4⟩ := pbind_ok h2
      dsimp only at h4
      split at h4
      · cases h4
      · rename_i hb'
        obtain ⟨st3, h5, h6⟩ := pbind_ok h4
        cases h6
        obtain ⟨e, ts, h7, h8, h9, _⟩ := ih.alt _ _ _ h3
        have hb'' : st2.next.type = .rightSqBracket := by simpa using hb'
        have h10 := Got.advance h1 (by simp [hb])
        have h11 := Got.advance h5 (by simp [hb''])
        refine ⟨.opt e, _, .opt hb h7 hb'', ((h10.trans h8).trans h11).push _, ⟨_, push_get _ _, rfl, ?_⟩, rfl⟩
        exact Tree.mono (h11.nodes.trans (push_prefix _ _)) h9
    · split at h
      · rename_i hb
        obtain ⟨st1, h1, h2⟩ := pbind_ok h
        obtain ⟨⟨r2, st2⟩, h3, h4⟩ := pbind_ok h2
        dsimp only at h4
        split at h4
        · cases h4
        · rename_i hb'
          obtain ⟨st3, h5, h6⟩ := pbind_ok h4
          cases h6
          obtain ⟨e, ts, h7, h8, h9, _⟩ := ih.alt _ _ _ h3
          have hb'' : st2.next.type = .rightParenthesis := by simpa using hb'
          have h10 := Got.advance h1 (by simp [hb])
          have h11 := Got.advance h5 (by simp [hb''])
          exact ⟨e, _, .paren hb h7 hb'', (h10.trans h8).trans h11, Tree.mono h11.nodes h9, rfl⟩
      · cases h

theorem soundAt : ∀ f, SoundAt env f := by
  intro f
  induction f with
  | zero =>
    refine ⟨?_, ?_, ?_, ?_, ?_, ?_, ?_⟩
    · intro st r st' h; rw [parseElement] at h; cases h
    · intro st r st' h; rw [parseRepetition] at h; cases h
    · intro r st r' st' a ts h; rw [repetitionLoop] at h; cases h
    · intro st r st' h; rw [parseJuxtaposition] at h; cases h
    · intro r st r' st' a ts h; rw [juxtapositionLoop] at h; cases h
    · intro st r st' h; rw [parseAlternatives] at h; cases h
    · intro r st r' st' a ts h; rw [alternativesLoop] at h; cases h
  | succ f ih =>
    refine ⟨sound_elem ih, ?_, ?_, ?_, ?_, ?_, ?_⟩
    · intro st r st' h
      rw [parseRepetition] at h
      obtain ⟨⟨r1, st1⟩, h1, h2⟩ := pbind_ok h
      obtain ⟨e, ts, h3, h4, h5, h6⟩ := ih.elem _ _ _ h1
      obtain ⟨e', us, h7, h8, h9⟩ := ih.repLoop _ _ _ _ e ts h2 (.up (by omega) h3) h5 (by omega)
      exact ⟨e', _, h7, h4.trans h8, h9⟩
    · intro r st r' st' a ts h hd hT hp
      rw [repetitionLoop] at h
      split at h
      · cases h
        exact ⟨a, [], by simpa using hd, Got.refl _, hT, hp⟩
      · rename_i ht
        have ht : st.next.type = .ellipsis := by simpa using ht
        obtain ⟨st1, h1, h2⟩ := pbind_ok h
        have h3 := (Got.advance h1 (by simp [ht])).push ⟨.repetition, r.nodeIndex, 0, []⟩
        obtain ⟨e, us, h4, h5, h6⟩ := ih.repLoop _ _ _ _ (.rep a) _ h2 (.rep hd ht) ⟨_, push_get _ _, rfl, Tree.mono h3.nodes hT⟩ (by simp)
        exact ⟨e, _, by simpa using h4, h3.trans h5, h6⟩
    · intro st r st' h
      rw [parseJuxtaposition] at h
      obtain ⟨⟨r1, st1⟩, h1, h2⟩ := pbind_ok h
      obtain ⟨e, ts, h3, h4, h5, h6⟩ := ih.rep _ _ _ h1
      obtain ⟨e', us, h7, h8, h9⟩ := ih.juxLoop _ _ _ _ e ts h2 (.up (by omega) h3) h5 (by omega)
      exact ⟨e', _, h7, h4.trans h8, h9⟩
    · intro r st r' st' a ts h hd hT hp
      rw [juxtapositionLoop] at h
      split at h
      · cases h
        exact ⟨a, [], by simpa using hd, Got.refl _, hT, hp⟩
      · split at h
        · cases h
        · rename_i hs
          have hs : st.next.precededBySpace = true := by simpa using hs
          obtain ⟨⟨r1, st1⟩, h1, h2⟩ := pbind_ok h
          obtain ⟨b, us, h3, h4, h5, h6⟩ := ih.rep _ _ _ h1
          cases us with
          | nil => exact absurd rfl h3.ne
          | cons u us =>
            have hu := h4.head
            have h7 := h4.push ⟨.juxtaposition, r.nodeIndex, r1.nodeIndex, []⟩
            obtain ⟨e, vs, h8, h9, h10⟩ := ih.juxLoop _ _ _ _ (.jux a b) _ h2 (.jux hd h3 (hu ▸ hs))
              ⟨_, push_get _ _, rfl, Tree.mono h7.nodes hT, Tree.mono (push_prefix _ _) h5⟩ (by simp)
            exact ⟨e, _, by simpa using h8, h7.trans h9, h10⟩
    · intro st r st' h
      rw [parseAlternatives] at h
      obtain ⟨⟨r1, st1⟩, h1, h2⟩ := pbind_ok h
      obtain ⟨e, ts, h3, h4, h5, h6⟩ := ih.jux _ _ _ h1
      obtain ⟨e', us, h7, h8, h9⟩ := ih.altLoop _ _ _ _ e ts h2 (.up (by omega) h3) h5 (Or.inr ⟨h6, h3⟩)
      exact ⟨e', _, h7, h4.trans h8, h9⟩
    · intro r st r' st' a ts h hd hT hp
      rw [alternativesLoop] at h
      split at h
      · cases h
        exact ⟨a, [], by simpa using hd, Got.refl _, hT, by simpa using hp⟩
      · rename_i ht
        have ht : st.next.type = .verticalBar := by simpa using ht
        obtain ⟨st1, h1, h2⟩ := pbind_ok h
        obtain ⟨⟨r2, st2⟩, h3, h4⟩ := pbind_ok h2
        obtain ⟨b, us, h5, h6, h7, _⟩ := ih.jux _ _ _ h3
        have h8 := ((Got.advance h1 (by simp [ht])).trans h6).push ⟨.alternatives, r.nodeIndex, r2.nodeIndex, []⟩
        obtain ⟨e, vs, h9, h10, h11, h12⟩ := ih.altLoop _ _ _ _ (.alt a b) _ h4 (.alt hd ht h5)
          ⟨_, push_get _ _, rfl, Tree.mono h8.nodes hT, Tree.mono (push_prefix _ _) h7⟩ (Or.inl rfl)
        exact ⟨e, _, by simpa using h9, h8.trans h10, h11, by simpa using h12⟩

/-! Completeness. -/

/-- What is known when the tokens of an expression are ahead. -/
structure Parsed (env : Env) (st st' : PState) (e : Expr) (ts : List Token) (u : Token) (q : Str) (r : PResult) : Prop where
  got : Got env st st' ts
  next : st'.next = u
  rest : st'.rest = q
  tree : Tree st'.nodes e r.nodeIndex

def Complete (env : Env) (n : Nat) (e : Expr) (ts : List Token) : Prop :=
  ∀ (st : PState) (u : Token) (q : Str), Ahead env st.next st.rest ts u q →
    match n with
    | 4 => ∃ r st', Parsed env st st' e ts u q r ∧ r.precedence = 4 ∧ Ev (fun f => parseElement env f st) (.ok (r, st'))
    | 3 => ∃ r st', Parsed env st st' e ts u q r ∧ 3 ≤ r.precedence ∧
        ∀ R, Ev (fun f => repetitionLoop env f r st') R → Ev (fun f => parseRepetition env f st) R
    | 2 => u.type ≠ .ellipsis → ∃ r st', Parsed env st st' e ts u q r ∧ 2 ≤ r.precedence ∧
        ∀ R, Ev (fun f => juxtapositionLoop env f r st') R → Ev (fun f => parseJuxtaposition env f st) R
    | 1 => u.type ≠ .ellipsis → isConcat u.type = false → ∃ r st', Parsed env st st' e ts u q r ∧ 1 ≤ r.precedence ∧
        ∀ R, Ev (fun f => alternativesLoop env f r st') R → Ev (fun f => parseAlternatives env f st) R
    | _ => False

theorem Denotes.head {n : Nat} {e : Expr} {ts : List Token} (h : Denotes n e ts) : ∀ t us, ts = t :: us → isConcat t.type = true := by
  induction h with
  | @leaf k t ht =>
    intro t' us h
    cases h
    rw [ht]
    cases k <;> rfl
  | opt ht =>
    intro t' us h
    cases h
    rw [ht]
    rfl
  | paren ht =>
    intro t' us h
    cases h
    rw [ht]
    rfl
  | @rep e t ts hd _ ih =>
    intro t' us h
    cases ts with
    | nil => exact absurd rfl hd.ne
    | cons x ts => cases h; exact ih _ _ rfl
  | @jux a b t ts us hd _ _ ih _ =>
    intro t' us h
    cases ts with
    | nil => exact absurd rfl hd.ne
    | cons x ts => cases h; exact ih _ _ rfl
  | @alt a b t ts us hd _ _ ih _ =>
    intro t' us h
    cases ts with
    | nil => exact absurd rfl hd.ne
    | cons x ts => cases h; exact ih _ _ rfl
  | up _ _ ih => exact ih

theorem ev_repLoop {r : PResult} {st : PState} (h : st.next.type ≠ .ellipsis) : Ev (fun f => repetitionLoop env f r st) (.ok (r, st)) :=
  Ev.shift ((Ev.const _).congr fun f => by simp [repetitionLoop, h])

theorem ev_juxLoop {r : PResult} {st : PState} (h : isConcat st.next.type = false) : Ev (fun f => juxtapositionLoop env f r st) (.ok (r, st)) :=
  Ev.shift ((Ev.const _).congr fun f => by simp [juxtapositionLoop, h])

theorem ev_altLoop {r : PResult} {st : PState} (h : st.next.type ≠ .verticalBar) : Ev (fun f => alternativesLoop env f r st) (.ok (r, st)) :=
  Ev.shift ((Ev.const _).congr fun f => by simp [alternativesLoop, h])

theorem ev_advance {α : Type} {st st' : PState} (h : st.advance env = .ok st') {G : Nat → PState → PRes α} {R : PRes α} (h' : Ev (fun f => G f st') R) :
    Ev (fun f => st.advance env >>= G f) R := by
  rw [h]
  exact h'

theorem Ahead.one {t t' u : Token} {s r : Str} (h : Ahead env t s [t'] u r) : t' = t ∧ extractNextToken env s = .ok (u, r) := by
  cases h with
  | cons h1 h2 =>
    cases h2
    exact ⟨rfl, h1⟩

theorem complete {n : Nat} {e : Expr} {ts : List Token} (h : Denotes n e ts) : Complete env n e ts := by
  induction h with
  | @leaf k t ht =>
    intro st u q ha
    obtain ⟨rfl, hx⟩ := ha.one
    have hn : tokenNode st.next.type = some (leafType k) := by
      rw [ht]
      cases k <;> rfl
    have hval : decide (st.next.type = .valueSlot) = decide (leafType k = .valueSlot) := by
      rw [ht]
      cases k <;> rfl
    refine ⟨_, _, ⟨⟨ha, ?_, ?_⟩, rfl, rfl, ⟨_, List.getElem?_concat_length, rfl, rfl⟩⟩, rfl, Ev.shift ((Ev.const (.ok (⟨st.nodes.length, 4⟩,
      ⟨q, u, st.nodes ++ [⟨leafType k, 0, 0, st.next.lexeme⟩], st.hasValueSlot || decide (leafType k = .valueSlot)⟩))).congr fun f => ?_)⟩
    · exact List.prefix_append _ _
    · simp [slots, hval]
    · simp only [parseElement, hn]
      by_cases hv : leafType k = .valueSlot
      · rw [if_pos hv, advance_eq (st := { st with hasValueSlot := true }) hx]
        simp [hv, PState.push, bind, Except.bind]
      · rw [if_neg hv, advance_eq hx]
        simp [hv, PState.push, bind, Except.bind]
  | @opt e t t' ts ht _ ht' ih =>
    intro st u q ha
    cases ha with
    | @cons _ t1 _ _ s1 _ _ hx ha =>
      obtain ⟨u2, q2, ha1, ha2⟩ := ha.split
      obtain ⟨rfl, hx2⟩ := ha2.one
      have hadv := advance_eq (st := st) hx
      obtain ⟨r, st2, hP, _, hev⟩ := ih { st with next := t1, rest := s1 } t' q2 ha1 (by simp [ht']) (by rw [ht']; rfl)
      have hn2 : st2.next.type = .rightSqBracket := by rw [hP.next, ht']
      have h3 := hev _ (ev_altLoop (by simp [hn2]))
      have hadv2 := advance_eq (st := st2) (by rw [hP.rest]; exact hx2)
      have hg := ((Got.advance hadv (by simp [ht])).trans hP.got).trans (Got.advance hadv2 (by simp [hn2]))
      rw [hP.next] at hg
      refine ⟨⟨st2.nodes.length, 4⟩, (PState.push { st2 with next := u, rest := q } ⟨.optionality, r.nodeIndex, 0, []⟩).1,
        ⟨(by simpa using hg : Got env st _ _).push _, rfl, rfl, ⟨_, push_get _ _, rfl, Tree.mono (push_prefix _ _) hP.tree⟩⟩, rfl, ?_⟩
      · refine Ev.shift (Ev.congr ?_ fun f => by simp only [parseElement, ht, tokenNode, if_true]; rfl)
        refine ev_advance hadv (Ev.bind h3 ?_)
        refine (Ev.const _).congr fun f => ?_
        dsimp only
        rw [if_neg (by simp [hn2]), hadv2]
        rfl
  | @paren e t t' ts ht _ ht' ih =>
    intro st u q ha
    cases ha with
    | @cons _ t1 _ _ s1 _ _ hx ha =>
      obtain ⟨u2, q2, ha1, ha2⟩ := ha.split
      obtain ⟨rfl, hx2⟩ := ha2.one
      have hadv := advance_eq (st := st) hx
      obtain ⟨r, st2, hP, _, hev⟩ := ih { st with next := t1, rest := s1 } t' q2 ha1 (by simp [ht']) (by rw [ht']; rfl)
      have hn2 : st2.next.type = .rightParenthesis := by rw [hP.next, ht']
      have h3 := hev _ (ev_altLoop (by simp [hn2]))
      have hadv2 := advance_eq (st := st2) (by rw [hP.rest]; exact hx2)
      have hg := ((Got.advance hadv (by simp [ht])).trans hP.got).trans (Got.advance hadv2 (by simp [hn2]))
      rw [hP.next] at hg
      refine ⟨⟨r.nodeIndex, 4⟩, { st2 with next := u, rest := q }, ⟨by simpa using hg, rfl, rfl, hP.tree⟩, rfl, ?_⟩
      · refine Ev.shift (Ev.congr ?_ fun f => by simp only [parseElement, ht, tokenNode, if_true, reduceCtorEq, if_false]; rfl)
        refine ev_advance hadv (Ev.bind h3 ?_)
        refine (Ev.const _).congr fun f => ?_
        dsimp only
        rw [if_neg (by simp [hn2]), hadv2]
        rfl
  | @rep e t ts hd ht ih =>
    intro st u q ha
    obtain ⟨u1, q1, ha1, ha2⟩ := ha.split
    obtain ⟨rfl, hx⟩ := ha2.one
    obtain ⟨r, st1, hP, hp, hev⟩ := ih st t q1 ha1
    have hn : st1.next.type = .ellipsis := by rw [hP.next, ht]
    have hadv := advance_eq (st := st1) (by rw [hP.rest]; exact hx)
    have hg := (hP.got.trans (Got.advance hadv (by simp [hn]))).push ⟨.repetition, r.nodeIndex, 0, []⟩
    rw [hP.next] at hg
    refine ⟨⟨st1.nodes.length, 3⟩, _, ⟨hg, rfl, rfl, ⟨_, push_get _ _, rfl, Tree.mono (push_prefix _ _) hP.tree⟩⟩, Nat.le_refl _, fun R hR => hev R ?_⟩
    refine Ev.shift (Ev.congr ?_ fun f => by simp only [repetitionLoop, hn, ne_eq, not_true_eq_false, if_false]; rfl)
    exact ev_advance hadv hR
  | @jux a b t ts us hda hdb hs iha ihb =>
    intro st u q ha hu
    obtain ⟨u1, q1, ha1, ha2⟩ := ha.split
    have htu : u1 = t := by
      cases ha2
      rfl
    subst htu
    have hc := hdb.head _ _ rfl
    obtain ⟨r, st1, hP, hp, hev⟩ := iha st u1 q1 ha1 (by intro h; rw [h] at hc; cases hc)
    obtain ⟨r2, st2, hP2, hp2, hev2⟩ := ihb st1 u q (by rw [hP.next, hP.rest]; exact ha2)
    have h3 := hev2 _ (ev_repLoop (by rw [hP2.next]; exact hu))
    have hg := (hP.got.trans hP2.got).push ⟨.juxtaposition, r.nodeIndex, r2.nodeIndex, []⟩
    refine ⟨⟨st2.nodes.length, 2⟩, _, ⟨hg, hP2.next, hP2.rest, ⟨_, push_get _ _, rfl, Tree.mono (hP2.got.nodes.trans (push_prefix _ _)) hP.tree,
      Tree.mono (push_prefix _ _) hP2.tree⟩⟩, Nat.le_refl _, fun R hR => hev R ?_⟩
    refine Ev.shift (Ev.congr ?_ fun f => by
      simp only [juxtapositionLoop, hP.next, hc, hs, Bool.not_true, Bool.false_eq_true, if_false]; rfl)
    exact Ev.bind h3 hR
  | @alt a b t ts us hda ht hdb iha ihb =>
    intro st u q ha hu hc
    obtain ⟨u1, q1, ha1, ha2⟩ := ha.split
    cases ha2 with
    | @cons _ t2 _ _ s2 _ _ hx ha3 =>
      obtain ⟨r, st1, hP, hp, hev⟩ := iha st t q1 ha1 (by simp [ht]) (by rw [ht]; rfl)
      have hn : st1.next.type = .verticalBar := by rw [hP.next, ht]
      have hadv := advance_eq (st := st1) (by rw [hP.rest]; exact hx)
      obtain ⟨r2, st2, hP2, hp2, hev2⟩ := ihb { st1 with next := t2, rest := s2 } u q ha3 hu
      have h3 := hev2 _ (ev_juxLoop (by rw [hP2.next]; exact hc))
      have hg := (hP.got.trans ((Got.advance hadv (by simp [hn])).trans hP2.got)).push ⟨.alternatives, r.nodeIndex, r2.nodeIndex, []⟩
      rw [hP.next] at hg
      refine ⟨⟨st2.nodes.length, 1⟩, (st2.push ⟨.alternatives, r.nodeIndex, r2.nodeIndex, []⟩).1, ⟨by simpa using hg, hP2.next, hP2.rest, ⟨_, push_get _ _, rfl, Tree.mono (hP2.got.nodes.trans (push_prefix _ _)) hP.tree,
        Tree.mono (push_prefix _ _) hP2.tree⟩⟩, Nat.le_refl _, fun R hR => hev R ?_⟩
      refine Ev.shift (Ev.congr ?_ fun f => by simp only [alternativesLoop, hn, ne_eq, not_true_eq_false, if_false]; rfl)
      exact ev_advance hadv (Ev.bind h3 hR)
  | @up n e ts hn _ ih =>
    intro st u q ha
    match n, hn, ih with
    | 1, _, ih =>
      intro hu hc
      obtain ⟨r, st1, hP, hp, hev⟩ := ih st u q ha hu
      refine ⟨r, st1, hP, by omega, fun R hR => ?_⟩
      refine Ev.shift (Ev.congr ?_ fun f => by simp only [parseAlternatives]; rfl)
      exact Ev.bind (hev _ (ev_juxLoop (by rw [hP.next]; exact hc))) hR
    | 2, _, ih =>
      intro hu
      obtain ⟨r, st1, hP, hp, hev⟩ := ih st u q ha
      refine ⟨r, st1, hP, by omega, fun R hR => ?_⟩
      refine Ev.shift (Ev.congr ?_ fun f => by simp only [parseJuxtaposition]; rfl)
      exact Ev.bind (hev _ (ev_repLoop (by rw [hP.next]; exact hu))) hR
    | 3, _, ih =>
      obtain ⟨r, st1, hP, hp, hev⟩ := ih st u q ha
      refine ⟨r, st1, hP, by omega, fun R hR => ?_⟩
      refine Ev.shift (Ev.congr ?_ fun f => by simp only [parseRepetition]; rfl)
      exact Ev.bind hev hR
    | n + 4, _, ih => exact (ih st u q ha).elim

end Verif.CliSpec
