import Verif.CliSpec.SeqLemmas
import Verif.CliSpec.Props
/-!
C86: the parser of pattern expressions.
-/
namespace Verif.CliSpec

open Verif.CliPattern

variable {env : Env}

theorem Parses.unique {s : Str} {d : Bool} {R R' : PRes (Option Nat × List Node)} (h : Parses env s d R) (h' : Parses env s d R') : R = R' :=
  Ev.unique (F := fun f => parsePattern env f s d) h h'

theorem slots_append (ts us : List Token) : slots (ts ++ us) = (slots ts || slots us) := by simp [slots]

theorem slots_cons (t : Token) (ts : List Token) : slots (t :: ts) = (decide (t.type = .valueSlot) || slots ts) := by simp [slots]

theorem within_leaf {a : Expr} {k : LeafKind} {l : Str} : Within a (.leaf k l) ↔ a = .leaf k l :=
  ⟨fun h => by cases h; rfl, fun h => h ▸ .here⟩

theorem hasSlot_opt {e : Expr} : HasSlot (.opt e) ↔ HasSlot e :=
  ⟨fun ⟨l, h⟩ => by cases h with | opt h => exact ⟨l, h⟩, fun ⟨l, h⟩ => ⟨l, .opt h⟩⟩

theorem hasSlot_rep {e : Expr} : HasSlot (.rep e) ↔ HasSlot e :=
  ⟨fun ⟨l, h⟩ => by cases h with | rep h => exact ⟨l, h⟩, fun ⟨l, h⟩ => ⟨l, .rep h⟩⟩

theorem hasSlot_jux {a b : Expr} : HasSlot (.jux a b) ↔ HasSlot a ∨ HasSlot b :=
  ⟨fun ⟨l, h⟩ => by
      cases h with
      | juxLeft h => exact .inl ⟨l, h⟩
      | juxRight h => exact .inr ⟨l, h⟩,
    fun h => h.elim (fun ⟨l, h⟩ => ⟨l, .juxLeft h⟩) fun ⟨l, h⟩ => ⟨l, .juxRight h⟩⟩

theorem hasSlot_alt {a b : Expr} : HasSlot (.alt a b) ↔ HasSlot a ∨ HasSlot b :=
  ⟨fun ⟨l, h⟩ => by
      cases h with
      | altLeft h => exact .inl ⟨l, h⟩
      | altRight h => exact .inr ⟨l, h⟩,
    fun h => h.elim (fun ⟨l, h⟩ => ⟨l, .altLeft h⟩) fun ⟨l, h⟩ => ⟨l, .altRight h⟩⟩

theorem slots_iff {n : Nat} {e : Expr} {ts : List Token} (h : Denotes n e ts) : slots ts = true ↔ HasSlot e := by
  induction h with
  | @leaf k t ht =>
    simp only [slots, List.any_cons, List.any_nil, Bool.or_false, decide_eq_true_eq, HasSlot, within_leaf, Expr.leaf.injEq]
    rw [ht]
    cases k <;> simp [leafToken]
  | opt h1 _ h2 ih => simp [slots_cons, slots_append, h1, h2, ih, hasSlot_opt, show slots [] = false from rfl]
  | paren h1 _ h2 ih => simp [slots_cons, slots_append, h1, h2, ih, show slots [] = false from rfl]
  | rep _ h1 ih => simp [slots_cons, slots_append, h1, ih, hasSlot_rep, show slots [] = false from rfl]
  | jux _ _ _ iha ihb => simp only [slots_append, Bool.or_eq_true, iha, ihb, hasSlot_jux]
  | alt _ h1 _ iha ihb => simp [slots_cons, slots_append, h1, iha, ihb, hasSlot_alt]
  | up _ _ ih => exact ih

theorem denotes_leaves {n : Nat} {e : Expr} {ts : List Token} (h : Denotes n e ts) (hl : ∀ t ∈ ts, IsLexeme env t.type t.lexeme) : LeavesOk env e := by
  induction h with
  | @leaf k t ht =>
    intro k' l' hw
    cases within_leaf.1 hw
    rw [← ht]
    exact hl t (by simp)
  | opt _ _ _ ih =>
    intro k' l' hw
    cases hw with
    | opt hw => exact ih (fun t ht => hl t (by simp [ht])) _ _ hw
  | paren _ _ _ ih => exact ih fun t ht => hl t (by simp [ht])
  | rep _ _ ih =>
    intro k' l' hw
    cases hw with
    | rep hw => exact ih (fun t ht => hl t (by simp [ht])) _ _ hw
  | jux _ _ _ iha ihb =>
    intro k' l' hw
    cases hw with
    | juxLeft hw => exact iha (fun t ht => hl t (by simp [ht])) _ _ hw
    | juxRight hw => exact ihb (fun t ht => hl t (List.mem_append_right _ ht)) _ _ hw
  | alt _ _ _ iha ihb =>
    intro k' l' hw
    cases hw with
    | altLeft hw => exact iha (fun t ht => hl t (by simp [ht])) _ _ hw
    | altRight hw => exact ihb (fun t ht => hl t (by simp [ht])) _ _ hw
  | up _ _ ih => exact ih hl

theorem LeavesOk.lexOk : ∀ {e : Expr}, LeavesOk env e → LexOk e
  | .leaf k l, h => by
    have := h k l .here
    cases k with
    | short =>
      obtain ⟨c, rfl, _⟩ := this
      simp [LexOk]
    | long =>
      obtain ⟨r, rfl, _⟩ := this
      simp [LexOk]
    | _ => trivial
  | .opt e, h => LeavesOk.lexOk (e := e) fun k l hw => h k l (.opt hw)
  | .rep e, h => LeavesOk.lexOk (e := e) fun k l hw => h k l (.rep hw)
  | .jux _ _, h => ⟨LeavesOk.lexOk fun k l hw => h k l (.juxLeft hw), LeavesOk.lexOk fun k l hw => h k l (.juxRight hw)⟩
  | .alt _ _, h => ⟨LeavesOk.lexOk fun k l hw => h k l (.altLeft hw), LeavesOk.lexOk fun k l hw => h k l (.altRight hw)⟩

theorem Listed.one_inv {e : Expr} {ts : List Token} (h : Listed [e] ts) : Denotes 1 e ts := by
  generalize hes : [e] = es at h
  cases h with
  | one h => cases hes; exact h
  | @more es _ _ _ _ h =>
    have h1 := congrArg List.length hes
    have h2 := h.pos
    simp only [List.length_append, List.length_cons, List.length_nil] at h1
    omega

theorem Forest.one_inv {nodes : List Node} {e : Expr} {i : Nat} (h : Forest nodes [e] i) : Tree nodes e i := by
  generalize hes : [e] = es at h
  cases h with
  | one h => cases hes; exact h
  | @more es _ _ _ _ _ h =>
    have h1 := congrArg List.length hes
    have h2 : 0 < es.length := by cases h <;> simp
    simp only [List.length_append, List.length_cons, List.length_nil] at h1
    omega

/-- None of the errors that are only for whole patterns. -/
def Low {α : Type} (R : PRes α) : Prop :=
  ∀ err, R = .error (.error err) → err ≠ .multiplePatterns ∧ err ≠ .unparenthesizedAlternatives ∧ err ≠ .valueSlotsInDeleg

theorem Low.bind {α β : Type} {R : PRes α} {G : α → PRes β} (h : Low R) (h' : ∀ a, Low (G a)) : Low (R >>= G) := by
  intro err he
  cases R with
  | ok a => exact h' a err he
  | error e =>
    cases he
    exact h err rfl

theorem Low.ok {α : Type} {a : α} : Low (.ok a : PRes α) := fun _ h => by cases h

theorem Low.unfinished {α : Type} : Low (.error .unfinished : PRes α) := fun _ h => by cases h

theorem Low.error {α : Type} {e : ParseError} (h1 : e ≠ .multiplePatterns) (h2 : e ≠ .unparenthesizedAlternatives) (h3 : e ≠ .valueSlotsInDeleg) :
    Low (.error (.error e) : PRes α) := fun _ h => by cases h; exact ⟨h1, h2, h3⟩

theorem low_extractToken (s : Str) : Low (extractToken env s) := by
  cases s with
  | nil => exact Low.ok
  | cons c s =>
    simp only [extractToken]
    repeat' split
    all_goals first | exact Low.ok | exact Low.error (by simp) (by simp) (by simp)

theorem low_advance (st : PState) : Low (st.advance env) :=
  Low.bind (Low.bind (low_extractToken _) fun _ => Low.ok) fun _ => Low.ok

structure LowAt (env : Env) (f : Nat) : Prop where
  alt : ∀ st, Low (parseAlternatives env f st)
  altLoop : ∀ r st, Low (alternativesLoop env f r st)
  jux : ∀ st, Low (parseJuxtaposition env f st)
  juxLoop : ∀ r st, Low (juxtapositionLoop env f r st)
  rep : ∀ st, Low (parseRepetition env f st)
  repLoop : ∀ r st, Low (repetitionLoop env f r st)
  elem : ∀ st, Low (parseElement env f st)

theorem lowAt (f : Nat) : LowAt env f := by
  induction f with
  | zero => constructor <;> intros <;> exact fun _ h => by cases h
  | succ f ih =>
    constructor
    · intro st
      rw [parseAlternatives]
      exact (ih.jux _).bind fun _ => ih.altLoop _ _
    · intro r st
      rw [alternativesLoop]
      split
      · exact Low.ok
      · exact (low_advance _).bind fun _ => (ih.jux _).bind fun _ => ih.altLoop _ _
    · intro st
      rw [parseJuxtaposition]
      exact (ih.rep _).bind fun _ => ih.juxLoop _ _
    · intro r st
      rw [juxtapositionLoop]
      split
      · exact Low.ok
      · split
        · exact Low.error (by simp) (by simp) (by simp)
        · exact (ih.rep _).bind fun _ => ih.juxLoop _ _
    · intro st
      rw [parseRepetition]
      exact (ih.elem _).bind fun _ => ih.repLoop _ _
    · intro r st
      rw [repetitionLoop]
      split
      · exact Low.ok
      · exact (low_advance _).bind fun _ => ih.repLoop _ _
    · intro st
      rw [parseElement]
      split
      · exact (low_advance _).bind fun _ => Low.ok
      · split
        · refine (low_advance _).bind fun _ => (ih.alt _).bind fun _ => ?_
          dsimp only
          split
          · exact Low.error (by simp) (by simp) (by simp)
          · exact (low_advance _).bind fun _ => Low.ok
        · split
          · refine (low_advance _).bind fun _ => (ih.alt _).bind fun _ => ?_
            dsimp only
            split
            · exact Low.error (by simp) (by simp) (by simp)
            · exact (low_advance _).bind fun _ => Low.ok
          · exact Low.error (by simp) (by simp) (by simp)

theorem low_seqLoop : ∀ f r st, Low (sequenceLoop env f r st)
  | 0, _, _ => Low.unfinished
  | f + 1, r, st => by
    rw [sequenceLoop]
    split
    · exact Low.ok
    · exact (low_advance _).bind fun _ => ((lowAt f).alt _).bind fun _ => low_seqLoop f _ _

theorem low_all (f : Nat) (st : PState) : Low (parseAll env f st) := by
  refine Low.bind (((lowAt f).alt _).bind fun _ => low_seqLoop f _ _) fun _ => ?_
  dsimp only
  split
  · exact Low.error (by simp) (by simp) (by simp)
  · exact Low.ok

theorem all_ends (he : EnvOk env) (st : PState) : ∃ R, Ev (fun f => parseAll env f st) R ∧ R ≠ .error .unfinished := by
  obtain ⟨R, h1, h2, _⟩ := sequence_ends he st
  cases R with
  | error e => exact ⟨_, Ev.fail h1, by simpa using h2⟩
  | ok a =>
    refine ⟨_, Ev.bind h1 (Ev.const _), ?_⟩
    dsimp only
    split <;> simp

/-- The ways in which the parsing of a pattern can go. -/
theorem pattern_cases (he : EnvOk env) (s : Str) (d : Bool) :
    (Lexes env s [] ∧ Parses env s d (.ok (none, []))) ∨
    (∃ es ts, Lexes env s ts ∧ Listed es ts ∧ 2 ≤ es.length ∧ Parses env s d (.error (.error .multiplePatterns))) ∨
    (∃ e ts, Lexes env s ts ∧ Denotes 1 e ts ∧ ¬ Denotes 2 e ts ∧ Parses env s d (.error (.error .unparenthesizedAlternatives))) ∨
    (∃ e ts, Lexes env s ts ∧ Denotes 2 e ts ∧ HasSlot e ∧ d = true ∧ Parses env s d (.error (.error .valueSlotsInDeleg))) ∨
    (∃ e ts i nodes, Lexes env s ts ∧ Denotes 2 e ts ∧ (d = true → ¬ HasSlot e) ∧ Tree nodes e i ∧ Parses env s d (.ok (some i, nodes))) ∨
    (¬ (∃ ts, Lexes env s ts ∧ (ts = [] ∨ ∃ es, Listed es ts)) ∧ ∃ err, err ≠ .multiplePatterns ∧ err ≠ .unparenthesizedAlternatives ∧
      err ≠ .valueSlotsInDeleg ∧ Parses env s d (.error (.error err))) := by
  by_cases hx : ∃ ts, Lexes env s ts ∧ (ts = [] ∨ ∃ es, Listed es ts)
  · obtain ⟨ts, hx, rfl | ⟨es, hl⟩⟩ := hx
    · left
      refine ⟨hx, 0, fun fuel _ => ?_⟩
      cases hx with
      | done h1 h2 =>
        have := reset_eq ((extract_iff he).2 h1)
        simp [parsePattern, this, h2, bind, Except.bind, firstState]
    · right
      obtain ⟨st0, r, st', h1, ⟨n, hn⟩, h3, h4, h5⟩ := all_complete he hx hl
      obtain ⟨es', ts', h6, h7, h8, h9, _⟩ := all_sound he h1 (hn n (Nat.le_refl _))
      cases lexes_unique he hx h6
      cases h3.unique h8
      have key : ∀ R, (if r.precedence = 0 then .error (.error .multiplePatterns)
          else if r.precedence = 1 then .error (.error .unparenthesizedAlternatives)
          else if st'.hasValueSlot && d then .error (.error .valueSlotsInDeleg)
          else .ok (some r.nodeIndex, st'.nodes)) = R → Parses env s d R := by
        rintro R rfl
        refine ⟨n, fun fuel hf => ?_⟩
        have := hn fuel hf
        simp only [parsePattern, h1, bind, Except.bind, if_true, this]
      rcases h9 with ⟨h10, h11⟩ | ⟨e, rfl, h10⟩
      · exact Or.inl ⟨es, ts, hx, hl, h10, key _ (by simp [h11])⟩
      · right
        by_cases hp : r.precedence = 1
        · refine Or.inl ⟨e, ts, hx, hl.one_inv, fun hd => ?_, key _ (by simp [hp])⟩
          have := h5 e rfl hd
          omega
        · right
          obtain ⟨hp2, hd⟩ : 2 ≤ r.precedence ∧ Denotes 2 e ts := h10.resolve_left hp
          have hs := slots_iff hd
          rw [← h4] at hs
          by_cases hv : st'.hasValueSlot = true ∧ d = true
          · exact Or.inl ⟨e, ts, hx, hd, hs.1 hv.1, hv.2, key _ (by simp [hv, hp, show r.precedence ≠ 0 by omega])⟩
          · refine Or.inr (Or.inl ⟨e, ts, r.nodeIndex, st'.nodes, hx, hd, fun hd' hs' => hv ⟨hs.2 hs', hd'⟩, ?_, key _ ?_⟩)
            · exact h3.one_inv
            · rw [if_neg (by omega), if_neg hp, if_neg (by simpa using hv)]
  · refine Or.inr (Or.inr (Or.inr (Or.inr (Or.inr ⟨hx, ?_⟩))))
    rcases h0 : resetParser env s with e | ⟨b, st0⟩
    · have h1 : e ≠ .unfinished := by
        rintro rfl
        simp only [resetParser, bind, Except.bind] at h0
        split at h0
        · rename_i h2
          cases h0
          exact advance_total _ h2
        · cases h0
      cases e with
      | unfinished => exact absurd rfl h1
      | error err =>
        have hlow : Low (resetParser env s) := (low_advance _).bind fun _ => Low.ok
        obtain ⟨h2, h3, h4⟩ := hlow err h0
        exact ⟨err, h2, h3, h4, 0, fun fuel _ => by simp [parsePattern, h0, bind, Except.bind]⟩
    · obtain ⟨t, rest, h1, h2, h3⟩ := reset_inv h0
      cases b with
      | false =>
        have ht : t.type = .endOfInput := by simpa using h2
        have h4 := (extract_iff he).1 h1
        cases starts_end h4 ht
        exact absurd ⟨[], .done h4 ht, Or.inl rfl⟩ hx
      | true =>
        obtain ⟨R, ⟨n, hn⟩, hR⟩ := all_ends he st0
        cases R with
        | ok a =>
          obtain ⟨es, ts, h4, h5, _⟩ := all_sound he h0 (hn n (Nat.le_refl _))
          exact absurd ⟨ts, h4, Or.inr ⟨es, h5⟩⟩ hx
        | error e =>
          cases e with
          | unfinished => exact absurd rfl hR
          | error err =>
            obtain ⟨h4, h5, h6⟩ := low_all n st0 err (hn n (Nat.le_refl _))
            refine ⟨err, h4, h5, h6, n, fun fuel hf => ?_⟩
            have := hn fuel hf
            simp only [parsePattern, h0, bind, Except.bind, if_true, this]

/-- C86: what the first token of a text is. -/
theorem C86_token (he : EnvOk env) {s : Str} {t : Token} {rest : Str} : extractNextToken env s = .ok (t, rest) ↔ Starts env s t rest :=
  extract_iff he

/-- C86: the parsing comes to an end, whatever the text. -/
theorem C86_total (he : EnvOk env) (s : Str) (d : Bool) : ∃ R, Parses env s d R ∧ R ≠ .error .unfinished := by
  rcases pattern_cases he s d with ⟨_, h⟩ | ⟨_, _, _, _, _, h⟩ | ⟨_, _, _, _, _, h⟩ | ⟨_, _, _, _, _, _, h⟩ | ⟨_, _, _, _, _, _, _, _, h⟩ |
    ⟨_, _, _, _, _, h⟩ <;> exact ⟨_, h, by simp⟩

/-- C86: a text is at most one pattern expression, and it is divided into tokens in at most one way. -/
theorem C86_unambiguous (he : EnvOk env) {s : Str} {ts ts' : List Token} {e e' : Expr} (hx : Lexes env s ts) (hx' : Lexes env s ts')
    (hd : Denotes 1 e ts) (hd' : Denotes 1 e' ts') : ts = ts' ∧ e = e' := by
  cases lexes_unique he hx hx'
  obtain ⟨st0, r, st1, h1, h2, h3, _⟩ := all_complete he hx (.one hd)
  obtain ⟨st0', r', st1', h1', h2', h3', _⟩ := all_complete he hx (.one hd')
  rw [h1] at h1'
  cases h1'
  cases h2.unique h2'
  exact ⟨rfl, h3.one_inv.unique h3'.one_inv⟩

theorem Denotes.up1 {e : Expr} {ts : List Token} (h : Denotes 2 e ts) : Denotes 1 e ts := .up (by omega) h

theorem listed_unique (he : EnvOk env) {s : Str} {ts ts' : List Token} {es es' : List Expr} (hx : Lexes env s ts) (hx' : Lexes env s ts')
    (hd : Listed es ts) (hd' : Listed es' ts') : ts = ts' ∧ es = es' := by
  cases lexes_unique he hx hx'
  obtain ⟨st0, r, st1, h1, h2, h3, _⟩ := all_complete he hx hd
  obtain ⟨st0', r', st1', h1', h2', h3', _⟩ := all_complete he hx hd'
  rw [h1] at h1'
  cases h1'
  cases h2.unique h2'
  exact ⟨rfl, h3.unique h3'⟩

/-- C86: a text is accepted precisely when it is a pattern expression, other than unparenthesized alternatives, and has no value slots if
the pattern is delegating. The result represents the expression. -/
theorem C86_accepts (he : EnvOk env) {s : Str} {d : Bool} {e : Expr} :
    (∃ i nodes, Parses env s d (.ok (some i, nodes)) ∧ Tree nodes e i) ↔
    (∃ ts, Lexes env s ts ∧ Denotes 2 e ts) ∧ (d = true → ¬ HasSlot e) := by
  constructor
  · rintro ⟨i, nodes, h, hT⟩
    rcases pattern_cases he s d with ⟨_, h'⟩ | ⟨_, _, _, _, _, h'⟩ | ⟨_, _, _, _, _, h'⟩ | ⟨_, _, _, _, _, _, h'⟩ |
      ⟨e', ts, i', nodes', h1, h2, h3, h4, h'⟩ | ⟨_, _, _, _, _, h'⟩ <;> cases h.unique h'
    cases hT.unique h4
    exact ⟨⟨ts, h1, h2⟩, h3⟩
  · rintro ⟨⟨ts, hx, hd⟩, hs⟩
    rcases pattern_cases he s d with ⟨h1, _⟩ | ⟨es, _, h1, h2, h3, _⟩ | ⟨e', ts', h1, h2, h3, _⟩ | ⟨e', ts', h1, h2, h3, h4, _⟩ |
      ⟨e', ts', i, nodes, h1, h2, h3, h4, h⟩ | ⟨h1, _⟩
    · cases lexes_unique he hx h1
      exact absurd rfl hd.ne
    · obtain ⟨rfl, rfl⟩ := listed_unique he hx h1 (.one hd.up1) h2
      simp at h3
    · obtain ⟨rfl, rfl⟩ := C86_unambiguous he hx h1 hd.up1 h2
      exact absurd hd h3
    · obtain ⟨rfl, rfl⟩ := C86_unambiguous he hx h1 hd.up1 h2.up1
      exact absurd h3 (hs h4)
    · obtain ⟨rfl, rfl⟩ := C86_unambiguous he hx h1 hd.up1 h2.up1
      exact ⟨i, nodes, h, h4⟩
    · exact absurd ⟨ts, hx, Or.inr ⟨_, .one hd.up1⟩⟩ h1

/-- C86: whatever is accepted represents an expression, and the symbols in it are well-formed. -/
theorem C86_result (he : EnvOk env) {s : Str} {d : Bool} {i : Nat} {nodes : List Node} (h : Parses env s d (.ok (some i, nodes))) :
    ∃ e ts, Lexes env s ts ∧ Denotes 2 e ts ∧ Tree nodes e i ∧ LeavesOk env e ∧ (d = true → ¬ HasSlot e) := by
  rcases pattern_cases he s d with ⟨_, h'⟩ | ⟨_, _, _, _, _, h'⟩ | ⟨_, _, _, _, _, h'⟩ | ⟨_, _, _, _, _, _, h'⟩ |
    ⟨e', ts, i', nodes', h1, h2, h3, h4, h'⟩ | ⟨_, _, _, _, _, h'⟩ <;> cases h.unique h'
  exact ⟨e', ts, h1, h2, h4, denotes_leaves h2 fun t ht => (lexes_lexeme h1 t ht).1, h3⟩

/-- C86: a text of only spaces is the empty pattern, and nothing else is. -/
theorem C86_empty (he : EnvOk env) {s : Str} {d : Bool} {nodes : List Node} :
    Parses env s d (.ok (none, nodes)) ↔ (∃ n, s = List.replicate n 32) ∧ nodes = [] := by
  have hb : Lexes env s [] ↔ ∃ n, s = List.replicate n 32 := by
    constructor
    · intro h
      cases h with
      | done h1 h2 =>
        obtain ⟨n, h3, _, h4, _⟩ := h1
        rw [h2] at h4
        exact ⟨n, by rw [h3, show _ = [] from h4]; simp⟩
    · rintro ⟨n, rfl⟩
      exact .done (t := ⟨.endOfInput, [], decide (0 < n)⟩) ⟨n, by simp, rfl, rfl, rfl⟩ rfl
  rw [← hb]
  constructor
  · intro h
    rcases pattern_cases he s d with ⟨h1, h'⟩ | ⟨_, _, _, _, _, h'⟩ | ⟨_, _, _, _, _, h'⟩ | ⟨_, _, _, _, _, _, h'⟩ |
      ⟨e', ts, i', nodes', h1, h2, h3, h4, h'⟩ | ⟨_, _, _, _, _, h'⟩ <;> cases h.unique h'
    exact ⟨h1, rfl⟩
  · rintro ⟨h, rfl⟩
    rcases pattern_cases he s d with ⟨h1, h'⟩ | ⟨_, _, h1, h2, _⟩ | ⟨_, _, h1, h2, _⟩ | ⟨_, _, h1, h2, _⟩ |
      ⟨_, _, _, _, h1, h2, _⟩ | ⟨h1, _⟩
    · exact h'
    · cases lexes_unique he h h1
      exact absurd rfl h2.ne
    · cases lexes_unique he h h1
      exact absurd rfl h2.ne
    · cases lexes_unique he h h1
      exact absurd rfl h2.ne
    · cases lexes_unique he h h1
      exact absurd rfl h2.ne
    · exact absurd ⟨_, h, Or.inl rfl⟩ h1

/-- C86: there is a complaint about multiple patterns precisely when the text is a list of more than one expression. -/
theorem C86_multiple (he : EnvOk env) {s : Str} {d : Bool} :
    Parses env s d (.error (.error .multiplePatterns)) ↔ ∃ es ts, Lexes env s ts ∧ Listed es ts ∧ 2 ≤ es.length := by
  constructor
  · intro h
    rcases pattern_cases he s d with ⟨_, h'⟩ | ⟨es, ts, h1, h2, h3, h'⟩ | ⟨_, _, _, _, _, h'⟩ | ⟨_, _, _, _, _, _, h'⟩ |
      ⟨_, _, _, _, _, _, _, _, h'⟩ | ⟨_, _, h1, _, _, h'⟩
    · cases h.unique h'
    · exact ⟨es, ts, h1, h2, h3⟩
    · cases h.unique h'
    · cases h.unique h'
    · cases h.unique h'
    · cases h.unique h'
      exact absurd rfl h1
  · rintro ⟨es, ts, hx, hl, h2⟩
    have one : ∀ {e : Expr} {ts' : List Token}, Lexes env s ts' → Denotes 1 e ts' → False := by
      intro e ts' hx' hd
      obtain ⟨rfl, rfl⟩ := listed_unique he hx hx' hl (.one hd)
      simp at h2
    rcases pattern_cases he s d with ⟨h1, _⟩ | ⟨_, _, _, _, _, h⟩ | ⟨_, _, h1, h2, _⟩ | ⟨_, _, h1, h2, _⟩ |
      ⟨_, _, _, _, h1, h2, _⟩ | ⟨h1, _⟩
    · cases lexes_unique he hx h1
      exact absurd rfl hl.ne
    · exact h
    · exact (one h1 h2).elim
    · exact (one h1 h2.up1).elim
    · exact (one h1 h2.up1).elim
    · exact absurd ⟨ts, hx, Or.inr ⟨_, hl⟩⟩ h1

theorem alt_not_jux (he : EnvOk env) {s : Str} {a b e : Expr} {t : Token} {ts us : List Token} (hx : Lexes env s (ts ++ t :: us))
    (h1 : Denotes 1 a ts) (h2 : t.type = .verticalBar) (h3 : Denotes 2 b us) (hd : Denotes 2 e (ts ++ t :: us)) : False := by
  obtain ⟨t0, rest, u, q, hr, ha, hu⟩ := ahead_of_lexes he hx
  have hu' : u.type ≠ .ellipsis := by simp [hu]
  have hc : isConcat u.type = false := by rw [hu]; rfl
  have hb : u.type ≠ .verticalBar := by simp [hu]
  obtain ⟨r, st1, hP, hp, hev⟩ := complete hd (firstState t0 rest) u q ha hu'
  have e1 : Ev (fun f => parseAlternatives env f (firstState t0 rest)) (.ok (r, st1)) := by
    refine Ev.shift (Ev.congr ?_ fun f => by simp only [parseAlternatives]; rfl)
    exact Ev.bind (hev _ (ev_juxLoop (by rw [hP.next]; exact hc))) (ev_altLoop (by rw [hP.next]; exact hb))
  obtain ⟨u1, q1, ha1, ha2⟩ := ha.split
  cases ha2 with
  | @cons _ t2 _ _ s2 _ _ hx2 ha3 =>
    obtain ⟨r2, st2, hP2, _, hev2⟩ := complete h1 (firstState t0 rest) t q1 ha1 (by simp [h2]) (by rw [h2]; rfl)
    have hn' : st2.next.type = .verticalBar := by rw [hP2.next, h2]
    have hadv := advance_eq (st := st2) (by rw [hP2.rest]; exact hx2)
    obtain ⟨r3, st3, hP3, _, hev3⟩ := complete h3 { st2 with next := t2, rest := s2 } u q ha3 hu'
    have e2 := hev2 _ (Ev.shift (Ev.congr (ev_advance hadv (Ev.bind (hev3 _ (ev_juxLoop (by rw [hP3.next]; exact hc)))
      (ev_altLoop (r := ⟨st3.nodes.length, 1⟩) (st := (st3.push ⟨.alternatives, r2.nodeIndex, r3.nodeIndex, []⟩).1) (by
        show st3.next.type ≠ _
        rw [hP3.next]
        exact hb)))) fun f => by simp only [alternativesLoop, hn', ne_eq, not_true_eq_false, if_false]; rfl))
    cases e1.unique e2
    simp at hp

/-- C86: there is a complaint about unparenthesized alternatives precisely when the text is an expression for alternatives that is not in
parentheses. -/
theorem C86_alternatives (he : EnvOk env) {s : Str} {d : Bool} :
    Parses env s d (.error (.error .unparenthesizedAlternatives)) ↔
    ∃ a b ts t us, Lexes env s (ts ++ t :: us) ∧ Denotes 1 a ts ∧ t.type = .verticalBar ∧ Denotes 2 b us := by
  constructor
  · intro h
    rcases pattern_cases he s d with ⟨_, h'⟩ | ⟨_, _, _, _, _, h'⟩ | ⟨e, ts, h1, h2, h3, h'⟩ | ⟨_, _, _, _, _, _, h'⟩ |
      ⟨_, _, _, _, _, _, _, _, h'⟩ | ⟨_, _, _, h1, _, h'⟩
    · cases h.unique h'
    · cases h.unique h'
    · cases h2 with
      | alt h4 h5 h6 => exact ⟨_, _, _, _, _, h1, h4, h5, h6⟩
      | up _ h4 => exact absurd h4 h3
    · cases h.unique h'
    · cases h.unique h'
    · cases h.unique h'
      exact absurd rfl h1
  · rintro ⟨a, b, ts, t, us, hx, h1, h2, h3⟩
    have hd : Denotes 1 (.alt a b) (ts ++ t :: us) := .alt h1 h2 h3
    rcases pattern_cases he s d with ⟨h4, _⟩ | ⟨_, _, h4, h5, h6, _⟩ | ⟨_, _, _, _, _, h⟩ | ⟨_, _, h4, h5, _⟩ |
      ⟨_, _, _, _, h4, h5, _⟩ | ⟨h4, _⟩
    · exact absurd (lexes_unique he hx h4) hd.ne
    · obtain ⟨rfl, rfl⟩ := listed_unique he hx h4 (.one hd) h5
      simp at h6
    · exact h
    · exact (alt_not_jux he hx h1 h2 h3 (lexes_unique he hx h4 ▸ h5)).elim
    · exact (alt_not_jux he hx h1 h2 h3 (lexes_unique he hx h4 ▸ h5)).elim
    · exact absurd ⟨_, hx, Or.inr ⟨_, .one hd⟩⟩ h4

/-- C86: there is a complaint about value slots precisely when the pattern is delegating, and the text is an acceptable expression with a value
slot in it. -/
theorem C86_slots (he : EnvOk env) {s : Str} {d : Bool} :
    Parses env s d (.error (.error .valueSlotsInDeleg)) ↔ d = true ∧ ∃ e ts, Lexes env s ts ∧ Denotes 2 e ts ∧ HasSlot e := by
  constructor
  · intro h
    rcases pattern_cases he s d with ⟨_, h'⟩ | ⟨_, _, _, _, _, h'⟩ | ⟨_, _, _, _, _, h'⟩ | ⟨e, ts, h1, h2, h3, h4, h'⟩ |
      ⟨_, _, _, _, _, _, _, _, h'⟩ | ⟨_, _, _, _, h1, h'⟩
    · cases h.unique h'
    · cases h.unique h'
    · cases h.unique h'
    · exact ⟨h4, e, ts, h1, h2, h3⟩
    · cases h.unique h'
    · cases h.unique h'
      exact absurd rfl h1
  · rintro ⟨rfl, e, ts, hx, hd, hs⟩
    rcases pattern_cases he s true with ⟨h1, _⟩ | ⟨_, _, h1, h2, h3, _⟩ | ⟨_, _, h1, h2, h3, _⟩ | ⟨_, _, _, _, _, _, h⟩ |
      ⟨_, _, _, _, h1, h2, h3, _⟩ | ⟨h1, _⟩
    · cases lexes_unique he hx h1
      exact absurd rfl hd.ne
    · obtain ⟨rfl, rfl⟩ := listed_unique he hx h1 (.one hd.up1) h2
      simp at h3
    · obtain ⟨rfl, rfl⟩ := C86_unambiguous he hx h1 hd.up1 h2
      exact absurd hd h3
    · exact h
    · obtain ⟨rfl, rfl⟩ := C86_unambiguous he hx h1 hd.up1 h2.up1
      exact absurd hs (h3 rfl)
    · exact absurd ⟨ts, hx, Or.inr ⟨_, .one hd.up1⟩⟩ h1

/-- C86: there is some other complaint precisely when the text is not a list of expressions. -/
theorem C86_syntax (he : EnvOk env) {s : Str} {d : Bool} :
    (∃ err, err ≠ .multiplePatterns ∧ err ≠ .unparenthesizedAlternatives ∧ err ≠ .valueSlotsInDeleg ∧ Parses env s d (.error (.error err))) ↔
    ¬ (∃ ts, Lexes env s ts ∧ (ts = [] ∨ ∃ es, Listed es ts)) := by
  rcases pattern_cases he s d with ⟨h1, h'⟩ | ⟨_, _, h1, h2, _, h'⟩ | ⟨_, _, h1, h2, _, h'⟩ | ⟨_, _, h1, h2, _, _, h'⟩ |
    ⟨_, _, _, _, h1, h2, _, _, h'⟩ | ⟨h1, h2⟩
  · exact ⟨fun ⟨err, _, _, _, h⟩ => (by cases h.unique h'), fun h => absurd ⟨_, h1, Or.inl rfl⟩ h⟩
  · exact ⟨fun ⟨err, h3, _, _, h⟩ => (by cases h.unique h'; exact absurd rfl h3), fun h => absurd ⟨_, h1, Or.inr ⟨_, h2⟩⟩ h⟩
  · exact ⟨fun ⟨err, _, h3, _, h⟩ => (by cases h.unique h'; exact absurd rfl h3), fun h => absurd ⟨_, h1, Or.inr ⟨_, .one h2⟩⟩ h⟩
  · exact ⟨fun ⟨err, _, _, h3, h⟩ => (by cases h.unique h'; exact absurd rfl h3), fun h => absurd ⟨_, h1, Or.inr ⟨_, .one h2.up1⟩⟩ h⟩
  · exact ⟨fun ⟨err, _, _, _, h⟩ => (by cases h.unique h'), fun h => absurd ⟨_, h1, Or.inr ⟨_, .one h2.up1⟩⟩ h⟩
  · exact ⟨fun _ => h1, fun _ => h2⟩

/-- C86: what is recorded for a text is the structure of the expression that the text denotes. -/
theorem C86_recorded (he : EnvOk env) {s : Str} {d : Bool} {ts : List Token} {e : Expr} (hx : Lexes env s ts) (hd : Denotes 2 e ts)
    (hs : d = true → ¬ HasSlot e) {reg : Registry} (hr : RegOk reg) (pi : Nat) (t : Tables) :
    ∃ i nodes, Parses env s d (.ok (some i, nodes)) ∧
      ((∃ r, Records nodes (some i) pi reg t (.ok r)) ↔ ∀ err, ¬ ErrorTrue reg e err) ∧
      ∀ reg' t' j, Records nodes (some i) pi reg t (.ok (reg', t', j)) → Recorded pi e reg t reg' t' j := by
  obtain ⟨i, nodes, h1, h2⟩ := (C86_accepts he).2 ⟨⟨ts, hx, hd⟩, hs⟩
  have hl : LexOk e := (denotes_leaves hd fun t ht => (lexes_lexeme hx t ht).1).lexOk
  exact ⟨i, nodes, h1, C85_accepts h2 hl hr pi t, fun reg' t' j h => C85_structure h2 hl hr h⟩

/-- All tokens are preceded by a space. -/
def Spaced (env : Env) (ts : List Token) : Prop := ∀ t ∈ ts, t.precededBySpace = true ∧ IsLexeme env t.type t.lexeme ∧ t.type ≠ .endOfInput

def printTokens (ts : List Token) : Str := ts.flatMap fun t => 32 :: t.lexeme

theorem lexes_print (he : EnvOk env) : ∀ {ts : List Token}, Spaced env ts → Lexes env (printTokens ts) ts
  | [], _ => .done (t := ⟨.endOfInput, [], false⟩) ⟨0, rfl, rfl, rfl, rfl⟩ rfl
  | t :: ts, h => by
    obtain ⟨h1, h2, h3⟩ := h t (by simp)
    refine .token (rest := printTokens ts) ⟨1, by simp [printTokens], by simp [h1], h2, ?_⟩ h3 (lexes_print he fun t ht => h t (by simp [ht]))
    have hhead : printTokens ts = [] ∨ (printTokens ts).head? = some 32 := by cases ts <;> simp [printTokens]
    have hno : ∀ c, (printTokens ts).head? = some c → ¬ (env.alnum c = true ∨ c = 45) := by
      intro c hc
      rcases hhead with h | h
      · simp [h] at hc
      · rw [h] at hc
        cases hc
        simp [he.alnum 32 (by simp [specials])]
    unfold CanFollow
    split
    · split
      · exact hhead
      · exact hno
    · exact hno
    · contradiction
    · trivial

theorem write_up {e : Expr} {m : Nat} (hm : 1 ≤ m) : ∀ k {ts : List Token}, Denotes (m + k) e ts → Denotes m e ts
  | 0, _, h => h
  | k + 1, _, h => write_up hm k (.up (by omega) h)

theorem write_all {e : Expr} {m : Nat} (hm : 1 ≤ m) (h : ∃ ts, Denotes m e ts ∧ Spaced env ts) (n : Nat) (hn : 1 ≤ n) (hn' : n ≤ 4) :
    ∃ ts, Denotes n e ts ∧ Spaced env ts := by
  obtain ⟨ts, h1, h2⟩ := h
  have h3 : Denotes 1 e ts := write_up (by omega) (m - 1) (by rwa [show 1 + (m - 1) = m by omega])
  have h4 : Denotes 4 e (⟨.leftParenthesis, [40], true⟩ :: (ts ++ [⟨.rightParenthesis, [41], true⟩])) := .paren rfl h3 rfl
  refine ⟨_, write_up hn (4 - n) (by rwa [show n + (4 - n) = 4 by omega]), fun t ht => ?_⟩
  simp only [List.mem_cons, List.mem_append, List.not_mem_nil, or_false] at ht
  rcases ht with rfl | ht | rfl
  · exact ⟨rfl, rfl, by simp⟩
  · exact h2 t ht
  · exact ⟨rfl, rfl, by simp⟩

theorem write_expr : ∀ {e : Expr}, LeavesOk env e → ∀ n, 1 ≤ n → n ≤ 4 → ∃ ts, Denotes n e ts ∧ Spaced env ts
  | .leaf k l, h => write_all (m := 4) (by omega) ⟨[⟨leafToken k, l, true⟩], .leaf (t := ⟨leafToken k, l, true⟩) rfl, fun t ht => by
      cases List.mem_singleton.1 ht
      exact ⟨rfl, h k l .here, by cases k <;> simp [leafToken]⟩⟩
  | .opt e, h => by
    obtain ⟨ts, h1, h2⟩ := write_expr (e := e) (fun k l hw => h k l (.opt hw)) 1 (by omega) (by omega)
    refine write_all (m := 4) (by omega) ⟨_, .opt (t := ⟨.leftSqBracket, [91], true⟩) (t' := ⟨.rightSqBracket, [93], true⟩) rfl h1 rfl, fun t ht => ?_⟩
    simp only [List.mem_cons, List.mem_append, List.not_mem_nil, or_false] at ht
    rcases ht with rfl | ht | rfl
    · exact ⟨rfl, rfl, by simp⟩
    · exact h2 t ht
    · exact ⟨rfl, rfl, by simp⟩
  | .rep e, h => by
    obtain ⟨ts, h1, h2⟩ := write_expr (e := e) (fun k l hw => h k l (.rep hw)) 3 (by omega) (by omega)
    refine write_all (m := 3) (by omega) ⟨_, .rep (t := ⟨.ellipsis, [46, 46, 46], true⟩) h1 rfl, fun t ht => ?_⟩
    simp only [List.mem_append, List.mem_singleton] at ht
    rcases ht with ht | rfl
    · exact h2 t ht
    · exact ⟨rfl, rfl, by simp⟩
  | .jux a b, h => by
    obtain ⟨ts, h1, h2⟩ := write_expr (e := a) (fun k l hw => h k l (.juxLeft hw)) 2 (by omega) (by omega)
    obtain ⟨us, h3, h4⟩ := write_expr (e := b) (fun k l hw => h k l (.juxRight hw)) 3 (by omega) (by omega)
    cases us with
    | nil => exact absurd rfl h3.ne
    | cons u us =>
      refine write_all (m := 2) (by omega) ⟨_, .jux h1 h3 (h4 u (by simp)).1, fun t ht => ?_⟩
      rcases List.mem_append.1 ht with ht | ht
      · exact h2 t ht
      · exact h4 t ht
  | .alt a b, h => by
    obtain ⟨ts, h1, h2⟩ := write_expr (e := a) (fun k l hw => h k l (.altLeft hw)) 1 (by omega) (by omega)
    obtain ⟨us, h3, h4⟩ := write_expr (e := b) (fun k l hw => h k l (.altRight hw)) 2 (by omega) (by omega)
    refine write_all (m := 1) (by omega) ⟨_, .alt (t := ⟨.verticalBar, [124], true⟩) h1 rfl h3, fun t ht => ?_⟩
    simp only [List.mem_cons, List.mem_append] at ht
    rcases ht with ht | rfl | ht
    · exact h2 t ht
    · exact ⟨rfl, rfl, by simp⟩
    · exact h4 t ht

/-- C86: every expression with well-formed symbols can be written, that is, there is a text for which the result represents that
expression. -/
theorem C86_expressible (he : EnvOk env) {e : Expr} (h : LeavesOk env e) : ∃ s i nodes, Parses env s false (.ok (some i, nodes)) ∧ Tree nodes e i := by
  obtain ⟨ts, h1, h2⟩ := write_expr h 2 (by omega) (by omega)
  exact ⟨_, (C86_accepts he).2 ⟨⟨ts, lexes_print he h2, h1⟩, by simp⟩⟩

/-! Examples, where the characters are ASCII. -/

def asciiEnv : Env := ⟨id, fun c => (48 ≤ c && c ≤ 57) || (65 ≤ c && c ≤ 90) || (97 ≤ c && c ≤ 122)⟩

theorem asciiEnv_ok : EnvOk asciiEnv := ⟨fun _ _ _ => Iff.rfl, by decide⟩

/-- C86: `get [<a> | -b]...`. -/
example : parsePattern asciiEnv 30 [103, 101, 116, 32, 91, 60, 97, 62, 32, 124, 32, 45, 98, 93, 46, 46, 46] false =
    .ok (some 6, [⟨.keyword, 0, 0, [103, 101, 116]⟩, ⟨.valueSlot, 0, 0, [60, 97, 62]⟩, ⟨.shortOption, 0, 0, [45, 98]⟩, ⟨.alternatives, 1, 2, []⟩,
      ⟨.optionality, 3, 0, []⟩, ⟨.repetition, 4, 0, []⟩, ⟨.juxtaposition, 0, 5, []⟩]) := rfl

/-- C86: it is not accepted for a delegating pattern. -/
example : parsePattern asciiEnv 30 [103, 101, 116, 32, 91, 60, 97, 62, 32, 124, 32, 45, 98, 93, 46, 46, 46] true = .error (.error .valueSlotsInDeleg) := rfl

/-- C86: two spaces. -/
example : parsePattern asciiEnv 30 [32, 32] true = .ok (none, []) := rfl

/-- C86: `a | b` needs parentheses, which do not show up in the result. -/
example : parsePattern asciiEnv 30 [97, 32, 124, 32, 98] false = .error (.error .unparenthesizedAlternatives) ∧
    parsePattern asciiEnv 30 [40, 97, 32, 124, 32, 98, 41] false = .ok (some 2, [⟨.keyword, 0, 0, [97]⟩, ⟨.keyword, 0, 0, [98]⟩, ⟨.alternatives, 0, 1, []⟩]) :=
  ⟨rfl, rfl⟩

/-- C86: `a, b` is two patterns, and `(a, b)` is not closed. -/
example : parsePattern asciiEnv 30 [97, 44, 32, 98] false = .error (.error .multiplePatterns) ∧
    parsePattern asciiEnv 30 [40, 97, 44, 32, 98, 41] false = .error (.error .unclosedParenthesis) := ⟨rfl, rfl⟩

/-- C86: a space is needed in `a[b]`, but not in `(a)...`. -/
example : parsePattern asciiEnv 30 [97, 91, 98, 93] false = .error (.error .needSpace) ∧
    parsePattern asciiEnv 30 [40, 97, 41, 46, 46, 46] false = .ok (some 1, [⟨.keyword, 0, 0, [97]⟩, ⟨.repetition, 0, 0, []⟩]) := ⟨rfl, rfl⟩

/-- C86: a keyword can be a dash, but in `[-]`, the dash is taken to be the start of a short option, so a space is needed. -/
example : parsePattern asciiEnv 30 [91, 45, 93] false = .error (.error .unclosedSquareBracket) ∧
    parsePattern asciiEnv 30 [91, 45, 32, 93] false = .ok (some 1, [⟨.keyword, 0, 0, [45]⟩, ⟨.optionality, 0, 0, []⟩]) := ⟨rfl, rfl⟩

/-- C86: `foo_bar` is not a keyword, and `<a` is not closed. -/
example : parsePattern asciiEnv 30 [102, 111, 111, 95, 98, 97, 114] false = .error (.error (.invalidToken [95])) ∧
    parsePattern asciiEnv 30 [60, 97] false = .error (.error .missingClosing) := ⟨rfl, rfl⟩

/-- C86: ` -x  --foo-bar` is divided into two tokens. -/
example : Lexes asciiEnv [32, 45, 120, 32, 32, 45, 45, 102, 111, 111, 45, 98, 97, 114] [⟨.shortOption, [45, 120], true⟩, ⟨.longOption, [45, 45, 102, 111, 111, 45, 98, 97, 114], true⟩] :=
  .token (rest := [32, 32, 45, 45, 102, 111, 111, 45, 98, 97, 114]) ⟨1, rfl, rfl, ⟨120, rfl, by decide, by decide⟩, trivial⟩ (by simp)
    (.token (rest := []) ⟨2, rfl, rfl, ⟨[102, 111, 111, 45, 98, 97, 114], rfl, by unfold Word; decide⟩, by simp [CanFollow]⟩ (by simp)
      (.done (t := ⟨.endOfInput, [], false⟩) ⟨0, rfl, rfl, rfl, rfl⟩ rfl))

/-- C86: the expression in the examples for C85 can be written. -/
example : ∃ s i nodes, Parses asciiEnv s false (.ok (some i, nodes)) ∧ Tree nodes exampleExpr i := by
  refine C86_expressible asciiEnv_ok fun k l hw => ?_
  cases hw with
  | juxLeft hw =>
    cases within_leaf.1 hw
    exact Or.inr ⟨103, [101, 116], rfl, rfl, by unfold Word; decide⟩
  | juxRight hw =>
    cases hw with
    | opt hw =>
      cases hw with
      | altLeft hw =>
        cases within_leaf.1 hw
        exact ⟨[97], rfl, by decide⟩
      | altRight hw =>
        cases within_leaf.1 hw
        exact ⟨98, rfl, by decide, by decide⟩

end Verif.CliSpec
