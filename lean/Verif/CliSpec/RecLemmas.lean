import Verif.CliSpec.Recorder
import Verif.CliSpec.EncLemmas
import Verif.CliSpec.RegLemmas
import Verif.CliPattern.Structure
/-!
The recorder follows the structure of the expression.
-/
namespace Verif.CliSpec

open Verif.CliPattern

theorem Within.trans {a b c : Expr} (h : Within a b) (h' : Within b c) : Within a c := by
  induction h' with
  | here => exact h
  | opt _ ih => exact .opt ih
  | rep _ ih => exact .rep ih
  | juxLeft _ ih => exact .juxLeft ih
  | juxRight _ ih => exact .juxRight ih
  | altLeft _ ih => exact .altLeft ih
  | altRight _ ih => exact .altRight ih

theorem ErrorTrue.mono {r : Registry} {a e : Expr} {err : RecError} (h : ErrorTrue r a err) (hw : Within a e) : ErrorTrue r e err := by
  cases err with
  | optNullable | repNullable | repRepeating =>
    obtain ⟨x, h1, h2⟩ := h
    exact ⟨x, h1.trans hw, h2⟩
  | altNullable =>
    obtain ⟨x, y, h1, h2⟩ := h
    exact ⟨x, y, h1.trans hw, h2⟩
  | _ =>
    obtain ⟨k, l, o, h1, h2⟩ := h
    exact ⟨k, l, o, h1.trans hw, h2⟩

theorem ErrorTrue.congr {r r' : Registry} {e : Expr} {err : RecError} (h : ErrorTrue r' e err) (hr : r.Le r') : ErrorTrue r e err := by
  cases err with
  | optNullable | repNullable | repRepeating | altNullable => exact h
  | _ =>
    obtain ⟨k, l, o, h1, h2, h3⟩ := h
    exact ⟨k, l, o, h1, by rw [hr.option]; exact h2, h3⟩

/-- No bad references. -/
def noBad (r : Registry) : Expr → Prop
  | .leaf k l => ∀ o err, optionOf r k l = some o → ¬ BadRef o err
  | .opt e | .rep e => noBad r e
  | .jux a b | .alt a b => noBad r a ∧ noBad r b

theorem noBad.congr {r r' : Registry} (hr : r.Le r') {e : Expr} (h : noBad r' e) : noBad r e := by
  induction e with
  | leaf k l => exact fun o err ho => h o err (by rw [← hr.option]; exact ho)
  | opt e ih | rep e ih => exact ih h
  | jux a b iha ihb | alt a b iha ihb => exact ⟨iha h.1, ihb h.2⟩

theorem Def.mono {r r' : Registry} (hr : r.Le r') {e : Expr} (h : Def r e) : Def r' e := by
  induction e with
  | leaf k l =>
    obtain ⟨s, h⟩ := h
    exact ⟨s, hr.symbol k l s h⟩
  | opt e ih | rep e ih => exact ih h
  | jux a b iha ihb | alt a b iha ihb => exact ⟨iha h.1, ihb h.2⟩

/-- The symbols of an expression, from left to right. -/
def leaves : Expr → List (LeafKind × Str)
  | .leaf k l => [(k, l)]
  | .opt e | .rep e => leaves e
  | .jux a b | .alt a b => leaves a ++ leaves b

/-- Registration of a symbol. -/
def ensureLeaf (pi : Nat) (r : Registry) : LeafKind × Str → Option Registry
  | (.keyword, l) => some (r.ensureKeyword l).1
  | (.slot, _) => some r
  | (.short, l) => match r.ensurePatternOption ⟨false, l⟩ pi with
    | some (.ok (r', _)) => some r'
    | _ => none
  | (.long, l) => match r.ensurePatternOption ⟨true, l⟩ pi with
    | some (.ok (r', _)) => some r'
    | _ => none

/-- Registration of symbols. -/
def ensureLeaves (pi : Nat) : Registry → List (LeafKind × Str) → Option Registry
  | r, [] => some r
  | r, x :: xs => (ensureLeaf pi r x).bind fun r => ensureLeaves pi r xs

theorem ensureLeaves_append {pi : Nat} : ∀ {xs ys : List (LeafKind × Str)} {r r' r'' : Registry}, ensureLeaves pi r xs = some r' →
    ensureLeaves pi r' ys = some r'' → ensureLeaves pi r (xs ++ ys) = some r''
  | [], _, _, _, _, h, h' => by cases h; exact h'
  | x :: xs, ys, r, r', r'', h, h' => by
    simp only [ensureLeaves, List.cons_append, Option.bind_eq_some_iff] at h ⊢
    obtain ⟨r1, h1, h2⟩ := h
    exact ⟨r1, h1, ensureLeaves_append h2 h'⟩

/-! Steps. -/

section
variable (nodes : List Node) (pi : Nat)

def Reaches (a b : Config) : Prop := ∃ n, ∀ fuel, recLoop nodes pi (fuel + n) a = recLoop nodes pi fuel b

def Fails (a : Config) (err : RecError) : Prop := ∃ n, ∀ fuel, recLoop nodes pi (fuel + n) a = some (.error err)

end

variable {nodes : List Node} {pi : Nat}

theorem Reaches.refl (a : Config) : Reaches nodes pi a a := ⟨0, fun _ => rfl⟩

theorem Reaches.trans {a b c : Config} (h : Reaches nodes pi a b) (h' : Reaches nodes pi b c) : Reaches nodes pi a c := by
  obtain ⟨n, hn⟩ := h
  obtain ⟨m, hm⟩ := h'
  exact ⟨m + n, fun fuel => by rw [← Nat.add_assoc, hn, hm]⟩

theorem Reaches.fails {a b : Config} {err : RecError} (h : Reaches nodes pi a b) (h' : Fails nodes pi b err) : Fails nodes pi a err := by
  obtain ⟨n, hn⟩ := h
  obtain ⟨m, hm⟩ := h'
  exact ⟨m + n, fun fuel => by rw [← Nat.add_assoc, hn, hm]⟩

theorem reaches_step {a b : Config} (h : recStep nodes pi a = some (.goto b)) : Reaches nodes pi a b :=
  ⟨1, fun fuel => by simp [recLoop, h]⟩

theorem fails_step {a : Config} {err : RecError} (h : recStep nodes pi a = some (.fail err)) : Fails nodes pi a err :=
  ⟨1, fun fuel => by simp [recLoop, h]⟩

/-- What becomes of the level when an expression is added to the sequence. -/
def advance (lv : SeqLevel) (e : Expr) : SeqLevel :=
  ⟨lv.stagedElemsOffset, lv.numParams + paramsE e, lv.nullable && nulE e, (lv.repeating && nulE e) || (lv.nullable && repE e)⟩

/-- What becomes of the level when the branches of an expression are added. -/
def advanceA (a : AltLevel) (e : Expr) : AltLevel :=
  ⟨a.stagedSeqsOffset, if a.nullable then a.nullableSeqIndex else a.nullableSeqIndex + nIdxE e, a.nullable || nulE e, a.repeating || repE e,
    a.hasSeqWithParams || decide (0 < bparamsE e), a.multipleNullableSeqs || multE e || (a.nullable && nulE e)⟩

structure SeqRes (pi : Nat) (e : Expr) (c c' : Core) (lv : SeqLevel) (es : List Elem) : Prop where
  level : c'.level = .seq (advance lv e)
  levels : c'.levels = c.levels
  stagedSeqs : c'.stagedSeqs = c.stagedSeqs
  stagedElems : c'.stagedElems = c.stagedElems ++ es
  nextPos : c'.nextPos = c.nextPos + sizeE e
  le : c.reg.Le c'.reg
  regOk : RegOk c'.reg
  below : Below c.t c'.t
  enc : ∀ t σ, Below c'.t t → Agrees c'.reg σ → Encs t (flat σ e).1 es c.nextPos
  def' : Def c'.reg e
  clear : clearS e
  refs : noBad c.reg e
  trace : ensureLeaves pi c.reg (leaves e) = some c'.reg

structure AltRes (pi : Nat) (e : Expr) (c c' : Core) (A : AltLevel) (ls : List Level) (sqs : List Seq) : Prop where
  level : c'.level = .alt (advanceA A e)
  levels : c'.levels = ls
  stagedSeqs : c'.stagedSeqs = c.stagedSeqs ++ sqs
  stagedElems : c'.stagedElems = c.stagedElems
  nextPos : c'.nextPos = c.nextPos + sizeE e
  le : c.reg.Le c'.reg
  regOk : RegOk c'.reg
  below : Below c.t c'.t
  enc : ∀ t σ, Below c'.t t → Agrees c'.reg σ → EncSqs t (flat σ e).2 sqs c.nextPos
  def' : Def c'.reg e
  clear : clearB e
  refs : noBad c.reg e
  trace : ensureLeaves pi c.reg (leaves e) = some c'.reg

def isAlt : Expr → Bool
  | .alt _ _ => true
  | _ => false

section
variable (nodes pi)

def GSeq (e : Expr) : Prop := ∀ i f stack c lv, Tree nodes e i → nodes[i]? = some f.node → f.right = false →
  (f.parentType ≠ .alternatives ∨ isAlt e = false) → LexOk e → c.level = .seq lv → RegOk c.reg →
  (∃ err, Fails nodes pi (.node1 f stack c) err ∧ ErrorTrue c.reg e err) ∨
  ∃ c' es, Reaches nodes pi (.node1 f stack c) (.node2 stack c') ∧ SeqRes pi e c c' lv es

def GAlt (e : Expr) : Prop := ∀ i f stack c A ls, Tree nodes e i → nodes[i]? = some f.node → f.right = false →
  f.parentType = .alternatives → LexOk e → c.level = initSeq c.stagedElems.length → c.levels = .alt A :: ls → RegOk c.reg →
  (∃ err, Fails nodes pi (.node1 f stack c) err ∧ ErrorTrue c.reg e err) ∨
  ∃ c1 c2 sqs, Reaches nodes pi (.node1 f stack c) (.node2 stack c1) ∧ closeBranch c1 = some c2 ∧ AltRes pi e c c2 A ls sqs

end

theorem closeSeq_ok {c : Core} {s : SeqLevel} {l : Level} {ls : List Level} {pre es : List Elem} (h1 : c.level = .seq s)
    (h2 : c.levels = l :: ls) (h3 : c.stagedElems = pre ++ es) (h4 : s.stagedElemsOffset = pre.length) :
    closeSeq c = some ({ c with
      t := ⟨c.t.syms, c.t.elems ++ es, c.t.seqs ++ [⟨es.length, c.t.elems.length, s.numParams, c.nextPos, s.nullable⟩], c.t.alts⟩,
      stagedElems := pre, level := l, levels := ls }, c.t.seqs.length) := by
  simp [closeSeq, h1, h2, addSeq, stageSeq, h3, h4]

theorem closeBranch_ok {c : Core} {s : SeqLevel} {a : AltLevel} {ls : List Level} {pre es : List Elem} (h1 : c.level = .seq s)
    (h2 : c.levels = .alt a :: ls) (h3 : c.stagedElems = pre ++ es) (h4 : s.stagedElemsOffset = pre.length) :
    closeBranch c = some { c with
      t := ⟨c.t.syms, c.t.elems ++ es, c.t.seqs, c.t.alts⟩,
      stagedSeqs := c.stagedSeqs ++ [⟨es.length, c.t.elems.length, s.numParams, c.nextPos, s.nullable⟩],
      stagedElems := pre,
      level := .alt ⟨a.stagedSeqsOffset, a.nullableSeqIndex + (if a.nullable || s.nullable then 0 else 1), a.nullable || s.nullable,
        a.repeating || s.repeating, a.hasSeqWithParams || decide (0 < s.numParams), a.multipleNullableSeqs || (a.nullable && s.nullable)⟩,
      levels := ls } := by
  simp [closeBranch, h1, h2, stageSeq, h3, h4]

theorem closeAlt_ok {c : Core} {a : AltLevel} {l : Level} {ls : List Level} {pre sqs : List Seq} (h1 : c.level = .alt a)
    (h2 : c.levels = l :: ls) (h3 : c.stagedSeqs = pre ++ sqs) (h4 : a.stagedSeqsOffset = pre.length) :
    closeAlt c = some ({ c with
      t := ⟨c.t.syms, c.t.elems, c.t.seqs ++ sqs, c.t.alts ++ [⟨sqs.length, c.t.seqs.length, a.nullableSeqIndex⟩]⟩,
      stagedSeqs := pre, level := l, levels := ls }, c.t.alts.length) := by
  simp [closeAlt, h1, h2, addAlt, h3, h4]

theorem encSq_new {t : Tables} {σ : LeafKind → Str → PatternSymbol} {e : Expr} {es : List Elem} {b : Nat} {elems : List Elem} {r : Registry}
    (h1 : Encs t (flat σ e).1 es b) (h2 : elems ++ es <+: t.elems) (hd : Def r e) (hσ : Agrees r σ) :
    EncSq t (seqOf (flat σ e).1) ⟨es.length, elems.length, paramsE e, b + sizeE e, nulE e⟩ b := by
  refine ⟨?_, ?_, ⟨?_, ?_⟩, ?_⟩
  · rw [len_seq, encs_length h1]
  · rw [(flat_size σ e).1]
  · rw [(flat_nul σ e).1]
  · rw [(flat_params σ hσ e hd).1]
  · exact enc_of_encs h1 h2

/-- An expression that is not an alternatives construct is a branch. -/
theorem galt_of_gseq {e : Expr} (h : GSeq nodes pi e) (hna : isAlt e = false) : GAlt nodes pi e := by
  intro i f stack c A ls hT hi hr hp hlex hlv hls hreg
  rcases h i f stack c _ hT hi hr (Or.inr hna) hlex hlv hreg with hf | ⟨c', es, hR, hS⟩
  · exact Or.inl hf
  refine Or.inr ⟨c', _, [⟨es.length, c'.t.elems.length, paramsE e, c.nextPos + sizeE e, nulE e⟩], hR,
    closeBranch_ok hS.level (hS.levels.trans hls) hS.stagedElems rfl, ?_⟩
  have hflat : ∀ σ, (flat σ e).2 = [seqOf (flat σ e).1] := by
    intro σ
    cases e <;> simp_all [flat, isAlt, seqOf]
  have hn : nIdxE e = if nulE e then 0 else 1 := by
    cases e <;> simp_all [nIdxE, isAlt]
  have hb : bparamsE e = paramsE e := by
    cases e <;> simp_all [bparamsE, isAlt]
  have hm : multE e = false := by
    cases e <;> simp_all [multE, isAlt]
  have hc : clearB e := by
    have := hS.clear
    cases e <;> simp_all [clearB, isAlt]
  refine ⟨?_, rfl, ?_, rfl, hS.nextPos, hS.le, hS.regOk, ?_, ?_, hS.def', hc, hS.refs, hS.trace⟩
  · simp only [advance, Bool.true_and, Bool.false_and, Bool.false_or, Nat.zero_add, advanceA, hn, hb, hm, Bool.or_false, Level.alt.injEq,
      AltLevel.mk.injEq, true_and, and_true]
    cases A.nullable <;> cases nulE e <;> simp
  · simp only [hS.stagedSeqs, advance, Bool.true_and, Nat.zero_add, hS.nextPos]
  · exact ⟨hS.below.syms, hS.below.elems.trans (List.prefix_append _ _), hS.below.seqs, hS.below.alts⟩
  · intro t σ hb hσ
    rw [hflat]
    have h1 := hS.enc t σ ⟨hb.syms, (List.prefix_append _ _).trans hb.elems, hb.seqs, hb.alts⟩ hσ
    exact ⟨encSq_new h1 hb.elems hS.def' hσ, trivial⟩

theorem gleaf (k : LeafKind) (l : Str) : GSeq nodes pi (.leaf k l) := by
  intro i f stack c lv hT hi hr _ hlex hlv hreg
  obtain ⟨n, hn, ht, rfl⟩ := hT
  rw [hi] at hn
  cases hn
  have hstage : ∀ (r : Registry) (s : PatternSymbol), c.reg.Le r → RegOk r → symbolOf r k f.node.lexeme = some s →
      (∀ o err, optionOf c.reg k f.node.lexeme = some o → ¬ BadRef o err) → ensureLeaf pi c.reg (k, f.node.lexeme) = some r →
      ∃ c' es, stageSymbol { c with reg := r } s (decide (k = .slot)) = some c' ∧ SeqRes pi (.leaf k f.node.lexeme) c c' lv es := by
    intro r s hle hok hs hbad htr
    refine ⟨_, [⟨.sym, decide (k = .slot), false, c.t.syms.length, c.nextPos + 1⟩], by simp [stageSymbol, stageElem, hlv]; rfl, ?_⟩
    refine ⟨?_, rfl, rfl, rfl, rfl, hle, hok, ?_, ?_, ⟨s, hs⟩, trivial, hbad, by simp [leaves, ensureLeaves, htr]⟩
    · simp only [advance, nulE, repE, Bool.and_false, Bool.or_self]
      cases k <;> simp [paramsE]
    · exact ⟨List.prefix_append _ _, List.prefix_rfl, List.prefix_rfl, List.prefix_rfl⟩
    · intro t σ hb hσ
      refine ⟨⟨rfl, ?_, rfl, ?_, rfl⟩, trivial⟩
      · rw [hσ k _ s hs]
        exact prefix_get hb.syms (by simp)
      · rw [hσ k _ s hs]
        simp only [decide_eq_decide]
        exact (symbolOf_type hs).symm
  cases k with
  | keyword =>
    obtain ⟨h1, h2, h3⟩ := ensureKeyword_ok hreg f.node.lexeme
    have hno : optionOf c.reg .keyword f.node.lexeme = none := by
      rw [optionOf_eq]
      cases hs : symbolOf c.reg .keyword f.node.lexeme with
      | none => rfl
      | some s =>
        simp only [symbolOf, Option.map_eq_some_iff] at hs
        obtain ⟨j, _, rfl⟩ := hs
        simp
    obtain ⟨c', es, h4, h5⟩ := hstage _ _ h2 h1 h3 (by rw [hno]; simp) rfl
    refine Or.inr ⟨c', es, reaches_step ?_, h5⟩
    simp only [decide_false, reduceCtorEq] at h4
    simp only [recStep, stepNode1, ht, leafType, Option.bind_eq_bind, h4, Option.bind_some]
  | slot =>
    have hno : optionOf c.reg .slot f.node.lexeme = none := by
      rw [optionOf_eq]
      simp [symbolOf]
    obtain ⟨c', es, h4, h5⟩ := hstage _ ⟨.valueSlot, 0⟩ (Registry.Le.refl _) hreg rfl (by rw [hno]; simp) rfl
    refine Or.inr ⟨c', es, reaches_step ?_, h5⟩
    simp only [decide_true] at h4
    simp only [recStep, stepNode1, ht, leafType, Option.bind_eq_bind, h4, Option.bind_some]
  | short =>
    rcases ensurePatternOption_ok hreg (isLong := false) hlex pi with ⟨err, o, h1, h2, h3⟩ | ⟨r', j, h1, h2, h3, h4, h5⟩
    · refine Or.inl ⟨err, fails_step ?_, ?_⟩
      · simp only [recStep, stepNode1, ht, leafType, Option.bind_eq_bind, stageOption, h1, Option.bind_some]
      · cases err <;> first | exact h3.elim | exact ⟨_, _, o, .here, h2, h3⟩
    · obtain ⟨c', es, h6, h7⟩ := hstage _ _ h3 h2 h4 h5 (by simp only [ensureLeaf, h1])
      refine Or.inr ⟨c', es, reaches_step ?_, h7⟩
      simp only [decide_false, reduceCtorEq] at h6
      simp only [recStep, stepNode1, ht, leafType, Option.bind_eq_bind, stageOption, h1, Option.bind_some, h6]
  | long =>
    rcases ensurePatternOption_ok hreg (isLong := true) hlex pi with ⟨err, o, h1, h2, h3⟩ | ⟨r', j, h1, h2, h3, h4, h5⟩
    · refine Or.inl ⟨err, fails_step ?_, ?_⟩
      · simp only [recStep, stepNode1, ht, leafType, Option.bind_eq_bind, stageOption, h1, Option.bind_some]
      · cases err <;> first | exact h3.elim | exact ⟨_, _, o, .here, h2, h3⟩
    · obtain ⟨c', es, h6, h7⟩ := hstage _ _ h3 h2 h4 h5 (by simp only [ensureLeaf, h1])
      refine Or.inr ⟨c', es, reaches_step ?_, h7⟩
      simp only [decide_false, reduceCtorEq] at h6
      simp only [recStep, stepNode1, ht, leafType, Option.bind_eq_bind, stageOption, h1, Option.bind_some, h6]

theorem tree_get {e : Expr} {i : Nat} (h : Tree nodes e i) : ∃ n, nodes[i]? = some n := by
  cases e <;> (obtain ⟨n, hn, _⟩ := h; exact ⟨n, hn⟩)

theorem gopt {e : Expr} (ih : GSeq nodes pi e) : GSeq nodes pi (.opt e) := by
  intro i f stack c lv hT hi hr _ hlex hlv hreg
  obtain ⟨n, hn, ht, hT⟩ := hT
  rw [hi] at hn
  cases hn
  obtain ⟨m, hm⟩ := tree_get hT
  have h1 : Reaches nodes pi (.node1 f stack c) (.node1 ⟨.optionality, m, false⟩ (f :: stack) (openSeq c)) :=
    reaches_step (by simp [recStep, stepNode1, ht, enterNode, hm])
  rcases ih _ ⟨.optionality, m, false⟩ (f :: stack) (openSeq c) _ hT hm rfl (Or.inl (by simp)) hlex rfl hreg with
    ⟨err, hf, he⟩ | ⟨c1, es, hR, hS⟩
  · exact Or.inl ⟨err, h1.fails hf, he.mono (.opt .here)⟩
  have hlev : c1.level = .seq ⟨c.stagedElems.length, paramsE e, nulE e, repE e⟩ := by
    rw [hS.level]
    simp [advance]
  have hcl := closeSeq_ok hlev (hS.levels.trans rfl) hS.stagedElems rfl
  cases hn : nulE e with
  | true =>
    refine Or.inl ⟨.optNullable, h1.fails (hR.fails (fails_step ?_)), e, .here, (matches_nil e).2 hn⟩
    simp only [recStep, stepNode2, ht, hlev, hn, if_true]
  | false =>
    rw [hn] at hlev hcl
    refine Or.inr ⟨⟨c1.reg, ⟨c1.t.syms, c1.t.elems ++ es, c1.t.seqs ++ [⟨es.length, c1.t.elems.length, paramsE e, c1.nextPos, false⟩], c1.t.alts⟩,
      .seq (advance lv (.opt e)), c.levels, c1.stagedSeqs, c.stagedElems ++ [⟨.opt, true, decide (paramsE e = 0), c1.t.seqs.length, c1.nextPos⟩],
      c1.nextPos⟩, [⟨.opt, true, decide (paramsE e = 0), c1.t.seqs.length, c1.nextPos⟩], h1.trans (hR.trans (reaches_step ?_)), ?_⟩
    · simp [recStep, stepNode2, ht, hlev, hcl, stageElem, openSeq, hlv, advance, nulE, repE, paramsE]
    · refine ⟨?_, rfl, hS.stagedSeqs, rfl, hS.nextPos, hS.le, hS.regOk, ?_, ?_, hS.def', ⟨hn, hS.clear⟩, hS.refs, hS.trace⟩
      · rfl
      · exact hS.below.trans ⟨List.prefix_rfl, List.prefix_append _ _, List.prefix_append _ _, List.prefix_rfl⟩
      · intro t σ hb hσ
        have hb' : Below c1.t t := ⟨hb.syms, (List.prefix_append _ _).trans hb.elems, (List.prefix_append _ _).trans hb.seqs, hb.alts⟩
        have henc := hS.enc t σ hb' hσ
        refine ⟨⟨rfl, ?_, ⟨rfl, ?_⟩, _, prefix_get hb.seqs List.getElem?_concat_length, ?_⟩, trivial⟩
        · rw [(flat_size σ e).1]; exact hS.nextPos
        · rw [(flat_params σ hσ e hS.def').1]
        · have := encSq_new henc hb.elems hS.def' hσ
          rw [hn] at this
          rw [hS.nextPos]
          exact this

theorem grep {e : Expr} (ih : GSeq nodes pi e) : GSeq nodes pi (.rep e) := by
  intro i f stack c lv hT hi hr _ hlex hlv hreg
  obtain ⟨n, hn, ht, hT⟩ := hT
  rw [hi] at hn
  cases hn
  obtain ⟨m, hm⟩ := tree_get hT
  have h1 : Reaches nodes pi (.node1 f stack c) (.node1 ⟨.repetition, m, false⟩ (f :: stack) (openSeq c)) :=
    reaches_step (by simp [recStep, stepNode1, ht, enterNode, hm])
  rcases ih _ ⟨.repetition, m, false⟩ (f :: stack) (openSeq c) _ hT hm rfl (Or.inl (by simp)) hlex rfl hreg with
    ⟨err, hf, he⟩ | ⟨c1, es, hR, hS⟩
  · exact Or.inl ⟨err, h1.fails hf, he.mono (.rep .here)⟩
  have hlev : c1.level = .seq ⟨c.stagedElems.length, paramsE e, nulE e, repE e⟩ := by
    rw [hS.level]
    simp [advance]
  have hcl := closeSeq_ok hlev (hS.levels.trans rfl) hS.stagedElems rfl
  cases hn : nulE e with
  | true =>
    refine Or.inl ⟨.repNullable, h1.fails (hR.fails (fails_step ?_)), e, .here, (matches_nil e).2 hn⟩
    simp only [recStep, stepNode2, ht, hlev, hn, if_true]
  | false =>
    rw [hn] at hlev hcl
    cases hrep : repE e with
    | true =>
      refine Or.inl ⟨.repRepeating, h1.fails (hR.fails (fails_step ?_)), e, .here, ?_⟩
      · simp only [recStep, stepNode2, ht, hlev, hrep, if_true, Bool.false_eq_true, if_false]
      · intro σ
        exact repeating_all _ 0 .seq (flat_wf σ e).1 ((flat_clear σ e).1.2 hS.clear) ((flat_rep σ e).1.trans hrep)
    | false =>
      rw [hrep] at hlev hcl
      refine Or.inr ⟨⟨c1.reg, ⟨c1.t.syms, c1.t.elems ++ es, c1.t.seqs ++ [⟨es.length, c1.t.elems.length, paramsE e, c1.nextPos, false⟩], c1.t.alts⟩,
      .seq (advance lv (.rep e)), c.levels, c1.stagedSeqs, c.stagedElems ++ [⟨.rep, true, decide (paramsE e = 0), c1.t.seqs.length, c1.nextPos⟩],
      c1.nextPos⟩, [⟨.rep, true, decide (paramsE e = 0), c1.t.seqs.length, c1.nextPos⟩], h1.trans (hR.trans (reaches_step ?_)), ?_⟩
      · simp [recStep, stepNode2, ht, hlev, hcl, stageElem, openSeq, hlv, advance, nulE, repE, paramsE, hn]
      · refine ⟨?_, rfl, hS.stagedSeqs, rfl, hS.nextPos, hS.le, hS.regOk, ?_, ?_, hS.def', ⟨hn, hrep, hS.clear⟩, hS.refs, hS.trace⟩
        · rfl
        · exact hS.below.trans ⟨List.prefix_rfl, List.prefix_append _ _, List.prefix_append _ _, List.prefix_rfl⟩
        · intro t σ hb hσ
          have hb' : Below c1.t t := ⟨hb.syms, (List.prefix_append _ _).trans hb.elems, (List.prefix_append _ _).trans hb.seqs, hb.alts⟩
          have henc := hS.enc t σ hb' hσ
          refine ⟨⟨rfl, ?_, ⟨rfl, ?_⟩, _, prefix_get hb.seqs List.getElem?_concat_length, ?_⟩, trivial⟩
          · rw [(flat_size σ e).1]; exact hS.nextPos
          · rw [(flat_params σ hσ e hS.def').1]
          · have := encSq_new henc hb.elems hS.def' hσ
            rw [hn] at this
            rw [hS.nextPos]
            exact this

theorem gjux {a b : Expr} (iha : GSeq nodes pi a) (ihb : GSeq nodes pi b) : GSeq nodes pi (.jux a b) := by
  intro i f stack c lv hT hi hr _ hlex hlv hreg
  obtain ⟨n, hn, ht, hTa, hTb⟩ := hT
  rw [hi] at hn
  cases hn
  obtain ⟨m, hm⟩ := tree_get hTa
  obtain ⟨m', hm'⟩ := tree_get hTb
  have h1 : Reaches nodes pi (.node1 f stack c) (.node1 ⟨.juxtaposition, m, false⟩ (f :: stack) c) :=
    reaches_step (by simp [recStep, stepNode1, ht, enterNode, hm])
  rcases iha _ ⟨.juxtaposition, m, false⟩ (f :: stack) c lv hTa hm rfl (Or.inl (by simp)) hlex.1 hlv hreg with
    ⟨err, hf, he⟩ | ⟨c1, es1, hR1, hS1⟩
  · exact Or.inl ⟨err, h1.fails hf, he.mono (.juxLeft .here)⟩
  have h2 : Reaches nodes pi (.node2 (f :: stack) c1) (.node1 ⟨.juxtaposition, m', false⟩ ({ f with right := true } :: stack) c1) :=
    reaches_step (by simp [recStep, stepNode2, ht, enterNode, hm', hr])
  rcases ihb _ ⟨.juxtaposition, m', false⟩ ({ f with right := true } :: stack) c1 _ hTb hm' rfl (Or.inl (by simp)) hlex.2 hS1.level hS1.regOk with
    ⟨err, hf, he⟩ | ⟨c2, es2, hR2, hS2⟩
  · exact Or.inl ⟨err, h1.fails (hR1.fails (h2.fails hf)), (he.congr hS1.le).mono (.juxRight .here)⟩
  have h3 : Reaches nodes pi (.node2 ({ f with right := true } :: stack) c2) (.node2 stack c2) :=
    reaches_step (by simp [recStep, stepNode2, ht])
  refine Or.inr ⟨c2, es1 ++ es2, h1.trans (hR1.trans (h2.trans (hR2.trans h3))), ?_⟩
  refine ⟨?_, hS2.levels.trans hS1.levels, hS2.stagedSeqs.trans hS1.stagedSeqs, ?_, ?_, hS1.le.trans hS2.le, hS2.regOk,
    hS1.below.trans hS2.below, ?_, ⟨hS1.def'.mono hS2.le, hS2.def'⟩, ⟨hS1.clear, hS2.clear⟩, ⟨hS1.refs, hS2.refs.congr hS1.le⟩, ensureLeaves_append hS1.trace hS2.trace⟩
  · rw [hS2.level]
    simp only [advance, nulE, repE, paramsE, Level.seq.injEq, SeqLevel.mk.injEq, true_and]
    refine ⟨by omega, ?_, ?_⟩
    · rw [Bool.and_assoc]
    · cases lv.repeating <;> cases lv.nullable <;> cases nulE a <;> cases nulE b <;> cases repE a <;> cases repE b <;> rfl
  · rw [hS2.stagedElems, hS1.stagedElems, List.append_assoc]
  · rw [hS2.nextPos, hS1.nextPos]
    simp only [sizeE]
    omega
  · intro t σ hb hσ
    refine encs_append (hS1.enc t σ (hS2.below.trans hb) (hσ.mono hS2.le)) ?_
    rw [(flat_size σ a).1, ← hS1.nextPos]
    exact hS2.enc t σ hb hσ

/-- The branches of an alternatives node: The common part of the two contexts. -/
theorem galt_branches {a b : Expr} (iha : GAlt nodes pi a) (ihb : GAlt nodes pi b) {f : Frame} {stack : List Frame} {c : Core} {A : AltLevel}
    {ls : List Level} {m : Node} (ht : f.node.type = .alternatives) (hm : nodes[f.node.left]? = some m) (hr : f.right = false)
    (hTa : Tree nodes a f.node.left) (hTb : Tree nodes b f.node.right) (hlex : LexOk (.alt a b)) (hlv : c.level = initSeq c.stagedElems.length)
    (hls : c.levels = .alt A :: ls) (hreg : RegOk c.reg) :
    (∃ err, Fails nodes pi (.node1 ⟨.alternatives, m, false⟩ (f :: stack) c) err ∧ ErrorTrue c.reg (.alt a b) err) ∨
    ∃ c1 c2 sqs, Reaches nodes pi (.node1 ⟨.alternatives, m, false⟩ (f :: stack) c) (.node2 ({ f with right := true } :: stack) c1) ∧
      closeBranch c1 = some c2 ∧ AltRes pi (.alt a b) c c2 A ls sqs := by
  obtain ⟨m', hm'⟩ := tree_get hTb
  rcases iha _ ⟨.alternatives, m, false⟩ (f :: stack) c A ls hTa hm rfl rfl hlex.1 hlv hls hreg with ⟨err, hf, he⟩ | ⟨c1, c2, sqs1, hR1, hcl1, hS1⟩
  · exact Or.inl ⟨err, hf, he.mono (.altLeft .here)⟩
  have h2 : Reaches nodes pi (.node2 (f :: stack) c1) (.node1 ⟨.alternatives, m', false⟩ ({ f with right := true } :: stack) (openSeq c2)) :=
    reaches_step (by simp [recStep, stepNode2, ht, enterNode, hm', hr, hcl1])
  rcases ihb _ ⟨.alternatives, m', false⟩ ({ f with right := true } :: stack) (openSeq c2) (advanceA A a) ls hTb hm' rfl rfl hlex.2 rfl
    (by simp [openSeq, hS1.level, hS1.levels]) hS1.regOk with ⟨err, hf, he⟩ | ⟨c3, c4, sqs2, hR2, hcl2, hS2⟩
  · exact Or.inl ⟨err, hR1.fails (h2.fails hf), (he.congr hS1.le).mono (.altRight .here)⟩
  refine Or.inr ⟨c3, c4, sqs1 ++ sqs2, hR1.trans (h2.trans hR2), hcl2, ?_⟩
  refine ⟨?_, hS2.levels, ?_, hS2.stagedElems.trans hS1.stagedElems, ?_, hS1.le.trans hS2.le, hS2.regOk,
    hS1.below.trans hS2.below, ?_, ⟨hS1.def'.mono hS2.le, hS2.def'⟩, ⟨hS1.clear, hS2.clear⟩, ⟨hS1.refs, hS2.refs.congr hS1.le⟩, ensureLeaves_append hS1.trace hS2.trace⟩
  · rw [hS2.level]
    simp only [advanceA, nulE, repE, bparamsE, nIdxE, multE, Level.alt.injEq, AltLevel.mk.injEq, true_and]
    refine ⟨?_, by rw [Bool.or_assoc], by rw [Bool.or_assoc], ?_, ?_⟩
    · have : ∀ (x y : Bool) (i j k : Nat), (if (x || y) = true then if x = true then i else i + j else (if x = true then i else i + j) + k) =
          if x = true then i else i + if y = true then j else j + k := by
        intro x y i j k
        cases x <;> cases y <;> simp
        omega
      exact this _ _ _ _ _
    · have : (decide (0 < bparamsE a) || decide (0 < bparamsE b)) = decide (0 < bparamsE a + bparamsE b) := by
        rw [← Bool.decide_or]
        exact decide_eq_decide.2 (by omega)
      rw [Bool.or_assoc, this]
      rfl
    · cases A.multipleNullableSeqs <;> cases multE a <;> cases multE b <;> cases A.nullable <;> cases nulE a <;> cases nulE b <;> rfl
  · have : (openSeq c2).stagedSeqs = c2.stagedSeqs := rfl
    rw [hS2.stagedSeqs, this, hS1.stagedSeqs, List.append_assoc]
  · have : (openSeq c2).nextPos = c2.nextPos := rfl
    rw [hS2.nextPos, this, hS1.nextPos]
    simp only [sizeE]
    omega
  · intro t σ hb hσ
    refine encSqs_append (hS1.enc t σ (hS2.below.trans hb) (hσ.mono hS2.le)) ?_
    rw [(flat_size σ a).2, ← hS1.nextPos]
    exact hS2.enc t σ hb hσ

theorem galt_alt {a b : Expr} (iha : GAlt nodes pi a) (ihb : GAlt nodes pi b) : GAlt nodes pi (.alt a b) := by
  intro i f stack c A ls hT hi hr hp hlex hlv hls hreg
  obtain ⟨n, hn, ht, hTa, hTb⟩ := hT
  rw [hi] at hn
  cases hn
  obtain ⟨m, hm⟩ := tree_get hTa
  have h1 : Reaches nodes pi (.node1 f stack c) (.node1 ⟨.alternatives, m, false⟩ (f :: stack) c) :=
    reaches_step (by simp [recStep, stepNode1, ht, enterNode, hm, hp])
  rcases galt_branches iha ihb (stack := stack) ht hm hr hTa hTb hlex hlv hls hreg with ⟨err, hf, he⟩ | ⟨c1, c2, sqs, hR, hcl, hS⟩
  · exact Or.inl ⟨err, h1.fails hf, he⟩
  have h3 : Reaches nodes pi (.node2 ({ f with right := true } :: stack) c1) (.node2 stack c1) :=
    reaches_step (by simp [recStep, stepNode2, ht, hp])
  exact Or.inr ⟨c1, c2, sqs, h1.trans (hR.trans h3), hcl, hS⟩

/-- More than one nullable branch. -/
theorem multE_within : ∀ e, multE e = true → ∃ a b, Within (.alt a b) e ∧ Matches a [] ∧ Matches b []
  | .alt a b, h => by
    simp only [multE, Bool.or_eq_true, Bool.and_eq_true] at h
    rcases h with (h | h) | h
    · obtain ⟨x, y, h1, h2⟩ := multE_within a h
      exact ⟨x, y, .altLeft h1, h2⟩
    · obtain ⟨x, y, h1, h2⟩ := multE_within b h
      exact ⟨x, y, .altRight h1, h2⟩
    · exact ⟨a, b, .here, (matches_nil a).2 h.1, (matches_nil b).2 h.2⟩
  | .leaf _ _, h | .opt _, h | .rep _, h | .jux _ _, h => by simp [multE] at h

theorem gseq_alt {a b : Expr} (iha : GAlt nodes pi a) (ihb : GAlt nodes pi b) : GSeq nodes pi (.alt a b) := by
  intro i f stack c lv hT hi hr hp hlex hlv hreg
  have hp : f.parentType ≠ .alternatives := by
    rcases hp with hp | hp
    · exact hp
    · simp [isAlt] at hp
  obtain ⟨n, hn, ht, hTa, hTb⟩ := hT
  rw [hi] at hn
  cases hn
  obtain ⟨m, hm⟩ := tree_get hTa
  have h1 : Reaches nodes pi (.node1 f stack c) (.node1 ⟨.alternatives, m, false⟩ (f :: stack) (openSeq (openAlt c))) :=
    reaches_step (by simp [recStep, stepNode1, ht, enterNode, hm, hp])
  rcases galt_branches iha ihb (c := openSeq (openAlt c)) (stack := stack) ht hm hr hTa hTb hlex rfl rfl hreg with
    ⟨err, hf, he⟩ | ⟨c1, c2, sqs, hR, hcl, hS⟩
  · exact Or.inl ⟨err, h1.fails hf, he⟩
  have hlev : c2.level = .alt ⟨c.stagedSeqs.length, nIdxE (.alt a b), nulE (.alt a b), repE (.alt a b),
      decide (0 < bparamsE (.alt a b)), multE (.alt a b)⟩ := by
    rw [hS.level]
    simp [advanceA]
  cases hmu : multE (.alt a b) with
  | true =>
    refine Or.inl ⟨.altNullable, h1.fails (hR.fails (fails_step ?_)), multE_within _ hmu⟩
    simp only [recStep, stepNode2, ht, if_true, hp, ne_eq, not_false_eq_true, hcl, Option.bind_eq_bind, Option.bind_some, hlev, hmu]
  | false =>
    rw [hmu] at hlev
    have hse : c2.stagedElems = c.stagedElems := hS.stagedElems.trans rfl
    have hca := closeAlt_ok hlev (hS.levels.trans rfl) hS.stagedSeqs rfl
    refine Or.inr ⟨⟨c2.reg, ⟨c2.t.syms, c2.t.elems, c2.t.seqs ++ sqs, c2.t.alts ++ [⟨sqs.length, c2.t.seqs.length, nIdxE (.alt a b)⟩]⟩,
      .seq (advance lv (.alt a b)), c.levels, c.stagedSeqs,
      c.stagedElems ++ [⟨.alt, true, !decide (0 < bparamsE (.alt a b)), c2.t.alts.length, c2.nextPos⟩], c2.nextPos⟩,
      [⟨.alt, true, !decide (0 < bparamsE (.alt a b)), c2.t.alts.length, c2.nextPos⟩], h1.trans (hR.trans (reaches_step ?_)), ?_⟩
    · simp only [recStep, stepNode2, ht, if_true, hp, ne_eq, not_false_eq_true, hcl, Option.bind_eq_bind, Option.bind_some, hlev,
        Bool.false_eq_true, if_false, hca, stageElem, hlv, advance, paramsE, hse]
      rfl
    · refine ⟨?_, rfl, rfl, rfl, hS.nextPos, hS.le, hS.regOk, ?_, ?_, hS.def', clearS_of_clearB _ hS.clear hmu, hS.refs, hS.trace⟩
      · rfl
      · exact hS.below.trans ⟨List.prefix_rfl, List.prefix_rfl, List.prefix_append _ _, List.prefix_append _ _⟩
      · intro t σ hb hσ
        have hb' : Below c2.t t := ⟨hb.syms, hb.elems, (List.prefix_append _ _).trans hb.seqs, (List.prefix_append _ _).trans hb.alts⟩
        have henc := hS.enc t σ hb' hσ
        have hpos : (openSeq (openAlt c)).nextPos = c.nextPos := rfl
        rw [hpos] at henc
        refine ⟨⟨rfl, ?_, ⟨rfl, ?_⟩, _, prefix_get hb.alts List.getElem?_concat_length, ?_, ?_, ?_⟩, trivial⟩
        · have := (flat_size σ (.alt a b)).2
          simp only [flat] at this
          rw [this]
          exact hS.nextPos
        · have := (flat_params σ hσ _ hS.def').2
          simp only [flat] at this
          rw [this]
          generalize bparamsE (.alt a b) = n
          cases n <;> simp
        · rw [len_alt]
          exact (encSqs_length henc).symm
        · have := flat_nullIndex σ (.alt a b)
          simp only [flat] at this
          rw [this]
        · exact enc_of_encSqs henc hb.seqs

theorem goals : ∀ e : Expr, GSeq nodes pi e ∧ GAlt nodes pi e
  | .leaf k l => ⟨gleaf k l, galt_of_gseq (gleaf k l) rfl⟩
  | .opt e => ⟨gopt (goals e).1, galt_of_gseq (gopt (goals e).1) rfl⟩
  | .rep e => ⟨grep (goals e).1, galt_of_gseq (grep (goals e).1) rfl⟩
  | .jux a b => ⟨gjux (goals a).1 (goals b).1, galt_of_gseq (gjux (goals a).1 (goals b).1) rfl⟩
  | .alt a b => ⟨gseq_alt (goals a).2 (goals b).2, galt_alt (goals a).2 (goals b).2⟩

end Verif.CliSpec
