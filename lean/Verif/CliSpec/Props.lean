import Verif.CliSpec.RecLemmas
import Verif.CliPattern.DescProps
/-!
C85: The structure that is recorded for a pattern is the structure of the pattern expression.
-/
namespace Verif.CliSpec

open Verif.CliPattern

/-- `Records nodes nodeIndex patternIndex reg t r`: The recording ends, and the result is `r`. -/
def Records (nodes : List Node) (nodeIndex : Option Nat) (patternIndex : Nat) (reg : Registry) (t : Tables)
    (r : Except RecError (Registry × Tables × Nat)) : Prop :=
  ∃ n, ∀ fuel, n ≤ fuel → record fuel nodes nodeIndex patternIndex reg t = some r

theorem Records.unique {nodes : List Node} {i : Option Nat} {pi : Nat} {reg : Registry} {t : Tables}
    {r r' : Except RecError (Registry × Tables × Nat)} (h : Records nodes i pi reg t r) (h' : Records nodes i pi reg t r') : r = r' := by
  obtain ⟨n, hn⟩ := h
  obtain ⟨m, hm⟩ := h'
  exact Option.some.inj ((hn (n + m) (by omega)).symm.trans (hm (n + m) (by omega)))

/-- What is known of the result of a successful recording of an expression. -/
structure Recorded (pi : Nat) (e : Expr) (reg : Registry) (t : Tables) (reg' : Registry) (t' : Tables) (i : Nat) : Prop where
  regOk : RegOk reg'
  le : reg.Le reg'
  below : Below t t'
  found : ∀ k l, Within (.leaf k l) e → ∃ s, symbolOf reg' k l = some s
  trace : ensureLeaves pi reg (leaves e) = some reg'
  root : ∀ t'' σ, Below t' t'' → Agrees reg' σ → EncRoot t'' (pat σ e) i

/-- No part of the expression refers to an option in a way that is not allowed. -/
def RefsOk (r : Registry) (e : Expr) : Prop :=
  ∀ k l o err, Within (.leaf k l) e → optionOf r k l = some o → ¬ BadRef o err

theorem noBad_iff {r : Registry} : ∀ {e : Expr}, noBad r e ↔ RefsOk r e := by
  intro e
  induction e with
  | leaf k l =>
    refine ⟨fun h k' l' o err hw ho => ?_, fun h o err ho => h k l o err .here ho⟩
    cases hw
    exact h o err ho
  | opt e ih =>
    refine ih.trans ⟨fun h k l o err hw => ?_, fun h k l o err hw => h k l o err (.opt hw)⟩
    cases hw with | opt hw => exact h k l o err hw
  | rep e ih =>
    refine ih.trans ⟨fun h k l o err hw => ?_, fun h k l o err hw => h k l o err (.rep hw)⟩
    cases hw with | rep hw => exact h k l o err hw
  | jux a b iha ihb =>
    refine ⟨fun h k l o err hw => ?_, fun h => ⟨iha.2 fun k l o err hw => h k l o err (.juxLeft hw), ihb.2 fun k l o err hw => h k l o err (.juxRight hw)⟩⟩
    cases hw with
    | juxLeft hw => exact iha.1 h.1 k l o err hw
    | juxRight hw => exact ihb.1 h.2 k l o err hw
  | alt a b iha ihb =>
    refine ⟨fun h k l o err hw => ?_, fun h => ⟨iha.2 fun k l o err hw => h k l o err (.altLeft hw), ihb.2 fun k l o err hw => h k l o err (.altRight hw)⟩⟩
    cases hw with
    | altLeft hw => exact iha.1 h.1 k l o err hw
    | altRight hw => exact ihb.1 h.2 k l o err hw

theorem Def.found {r : Registry} {e : Expr} (h : Def r e) {k : LeafKind} {l : Str} (hw : Within (.leaf k l) e) : ∃ s, symbolOf r k l = some s := by
  induction hw with
  | here => exact h
  | opt _ ih | rep _ ih => exact ih h
  | juxLeft _ ih | altLeft _ ih => exact ih h.1
  | juxRight _ ih | altRight _ ih => exact ih h.2

theorem clearS_within {a e : Expr} (hw : Within a e) (h : clearS e) : clearS a := by
  induction hw with
  | here => exact h
  | opt _ ih => exact ih h.2
  | rep _ ih => exact ih h.2.2
  | juxLeft _ ih | altLeft _ ih => exact ih h.1
  | juxRight _ ih => exact ih h.2
  | altRight _ ih => exact ih h.2.1

/-- If the structure is unambiguous, no error message is true. -/
theorem error_false {r : Registry} {e : Expr} (h : clearS e) (hr : RefsOk r e) {err : RecError} : ¬ ErrorTrue r e err := by
  have href : ∀ err, ¬ ∃ k l o, Within (.leaf k l) e ∧ optionOf r k l = some o ∧ BadRef o err :=
    fun err ⟨k, l, o, h1, h2, h3⟩ => hr k l o err h1 h2 h3
  cases err with
  | optNullable =>
    rintro ⟨a, h1, h2⟩
    have := (clearS_within h1 h).1
    rw [(matches_nil a).1 h2] at this
    cases this
  | repNullable =>
    rintro ⟨a, h1, h2⟩
    have := (clearS_within h1 h).1
    rw [(matches_nil a).1 h2] at this
    cases this
  | repRepeating =>
    rintro ⟨a, h1, h2⟩
    obtain ⟨h3, h4, h5⟩ := clearS_within h1 h
    have := (C83_repeating (flat_wf (fun _ _ => ⟨.valueSlot, 0⟩) a).1 ((flat_clear _ a).1.2 h5)).2 (h2 _)
    rw [(flat_rep _ a).1, h4] at this
    cases this
  | altNullable =>
    rintro ⟨a, b, h1, h2, h3⟩
    exact (clearS_within h1 h).2.2 ⟨(matches_nil a).1 h2, (matches_nil b).1 h3⟩
  | refTakesArg => exact href _
  | refShortCircuit => exact href _
  | refFurtherArgs => exact href _

/-- The two possible outcomes. -/
theorem record_main {nodes : List Node} {e : Expr} {i : Nat} (hT : Tree nodes e i) (hl : LexOk e) {reg : Registry} (hr : RegOk reg) (pi : Nat)
    (t : Tables) :
    (∃ err, Records nodes (some i) pi reg t (.error err) ∧ ErrorTrue reg e err) ∨
    ∃ reg' t' j, Records nodes (some i) pi reg t (.ok (reg', t', j)) ∧ Recorded pi e reg t reg' t' j ∧ clearS e ∧ noBad reg e := by
  obtain ⟨m, hm⟩ := tree_get hT
  rcases (goals (nodes := nodes) (pi := pi) e).1 i ⟨.juxtaposition, m, false⟩ [] ⟨reg, t, initSeq 0, [], [], [], 0⟩ _ hT hm rfl
    (Or.inl (by simp)) hl rfl hr with ⟨err, ⟨n, hn⟩, he⟩ | ⟨c, es, ⟨n, hn⟩, hS⟩
  · refine Or.inl ⟨err, ⟨n, fun fuel hf => ?_⟩, he⟩
    have := hn (fuel - n)
    rw [Nat.sub_add_cancel hf] at this
    simp only [record, hm, Option.bind_eq_bind, Option.bind_some, this]
  · have hse : c.stagedElems = es := by simpa using hS.stagedElems
    have hfin : finish c = some (c.reg, ⟨c.t.syms, c.t.elems ++ es, c.t.seqs ++ [⟨es.length, c.t.elems.length, paramsE e, c.nextPos, nulE e⟩], c.t.alts⟩,
        c.t.seqs.length) := by
      have hlv := hS.level
      simp only [advance, Bool.true_and, Nat.zero_add] at hlv
      have hls : c.levels = [] := hS.levels
      have hss : c.stagedSeqs = [] := hS.stagedSeqs
      simp [finish, hlv, hls, addSeq, stageSeq, hse, hss]
    refine Or.inr ⟨c.reg, ⟨c.t.syms, c.t.elems ++ es, c.t.seqs ++ [⟨es.length, c.t.elems.length, paramsE e, c.nextPos, nulE e⟩], c.t.alts⟩,
      c.t.seqs.length, ⟨n + 1, fun fuel hf => ?_⟩, ⟨hS.regOk, hS.le, ?_, fun k l hw => hS.def'.found hw, hS.trace, ?_⟩, hS.clear, hS.refs⟩
    · have := hn (fuel - (n + 1) + 1)
      rw [show fuel - (n + 1) + 1 + n = fuel by omega] at this
      simp only [record, hm, Option.bind_eq_bind, Option.bind_some, this, recLoop, recStep, stepNode2, hfin]
    · exact hS.below.trans ⟨List.prefix_rfl, List.prefix_append _ _, List.prefix_append _ _, List.prefix_rfl⟩
    · intro t'' σ hb hσ
      have hb' : Below c.t t'' := ⟨hb.syms, (List.prefix_append _ _).trans hb.elems, (List.prefix_append _ _).trans hb.seqs, hb.alts⟩
      have h1 := encSq_new (hS.enc t'' σ hb' hσ) hb.elems hS.def' hσ
      have hp : c.nextPos = 0 + sizeE e := hS.nextPos
      refine ⟨(flat_wf σ e).1, _, prefix_get hb.seqs List.getElem?_concat_length, ?_⟩
      obtain ⟨h2, h3, h4, h5⟩ := h1
      refine ⟨h2, ?_, h4, h5⟩
      rw [hp]
      simpa [pat] using h3

/-- C85: the recording of a pattern always ends, in success or with an error message; it never fails in any other way. -/
theorem C85_total {nodes : List Node} {e : Expr} {i : Nat} (hT : Tree nodes e i) (hl : LexOk e) {reg : Registry} (hr : RegOk reg) (pi : Nat)
    (t : Tables) : ∃ r, Records nodes (some i) pi reg t r := by
  rcases record_main hT hl hr pi t with ⟨err, h, _⟩ | ⟨_, _, _, h, _⟩ <;> exact ⟨_, h⟩

/-- C85: if the recording succeeds, the recorded structure is the structure of the expression, also after more has been recorded. Everything
recorded before is kept, and all the symbols of the expression can be looked up. -/
theorem C85_structure {nodes : List Node} {e : Expr} {i : Nat} (hT : Tree nodes e i) (hl : LexOk e) {reg : Registry} (hr : RegOk reg) {pi : Nat}
    {t : Tables} {reg' : Registry} {t' : Tables} {j : Nat} (h : Records nodes (some i) pi reg t (.ok (reg', t', j))) :
    Recorded pi e reg t reg' t' j := by
  rcases record_main hT hl hr pi t with ⟨err, h', _⟩ | ⟨_, _, _, h', h1, _⟩
  · cases h.unique h'
  · cases h.unique h'
    exact h1

/-- C85: the recorded structure matches precisely the sequences of symbols that the expression matches. -/
theorem C85_language (σ : LeafKind → Str → PatternSymbol) (e : Expr) (w : List PatternSymbol) :
    Lang (pat σ e) w ↔ ∃ v, Matches e v ∧ w = v.map fun x => σ x.1 x.2 :=
  (flat_lang σ e).1 w

/-- C85: the recording succeeds precisely when none of the error messages would be true. -/
theorem C85_accepts {nodes : List Node} {e : Expr} {i : Nat} (hT : Tree nodes e i) (hl : LexOk e) {reg : Registry} (hr : RegOk reg) (pi : Nat)
    (t : Tables) : (∃ r, Records nodes (some i) pi reg t (.ok r)) ↔ ∀ err, ¬ ErrorTrue reg e err := by
  rcases record_main hT hl hr pi t with ⟨err, h, he⟩ | ⟨_, _, _, h, _, h2, h3⟩
  · constructor
    · rintro ⟨r, h'⟩
      cases h.unique h'
    · exact fun h' => absurd he (h' err)
  · exact ⟨fun _ _ => error_false h2 (noBad_iff.1 h3), fun _ => ⟨_, h⟩⟩

/-- C85: the structure of what is matched by a recorded pattern is unambiguous, in the sense of C83. -/
theorem C85_clear {nodes : List Node} {e : Expr} {i : Nat} (hT : Tree nodes e i) (hl : LexOk e) {reg : Registry} (hr : RegOk reg) {pi : Nat}
    {t : Tables} {r : Registry × Tables × Nat} (h : Records nodes (some i) pi reg t (.ok r)) (σ : LeafKind → Str → PatternSymbol) :
    Clear (pat σ e) := by
  rcases record_main hT hl hr pi t with ⟨err, h', he⟩ | ⟨_, _, _, h', _, h2, h3⟩
  · cases h.unique h'
  · exact (flat_clear σ e).1.2 h2

/-- C85: an error message is true. -/
theorem C85_errors {nodes : List Node} {e : Expr} {i : Nat} (hT : Tree nodes e i) (hl : LexOk e) {reg : Registry} (hr : RegOk reg) {pi : Nat}
    {t : Tables} {err : RecError} (h : Records nodes (some i) pi reg t (.error err)) : ErrorTrue reg e err := by
  rcases record_main hT hl hr pi t with ⟨err', h', h1⟩ | ⟨_, _, _, h', _⟩
  · cases h.unique h'
    exact h1
  · cases h.unique h'

theorem matches_some : ∀ e : Expr, ∃ w, w ≠ [] ∧ Matches e w
  | .leaf k l => ⟨[(k, l)], by simp, rfl⟩
  | .opt e => by
    obtain ⟨w, h1, h2⟩ := matches_some e
    exact ⟨w, h1, Or.inr h2⟩
  | .rep e => by
    obtain ⟨w, h1, h2⟩ := matches_some e
    exact ⟨w, h1, [w], by simp, by simpa using h2, by simp⟩
  | .jux a b => by
    obtain ⟨w, h1, h2⟩ := matches_some a
    obtain ⟨v, _, h3⟩ := matches_some b
    exact ⟨w ++ v, by simp [h1], w, v, h2, h3, rfl⟩
  | .alt a b => by
    obtain ⟨w, h1, h2⟩ := matches_some a
    exact ⟨w, h1, Or.inl h2⟩

theorem repE_words : ∀ e : Expr, repE e = true → ∃ w, w ≠ [] ∧ ∀ n, 0 < n → Matches e (List.replicate n w).flatten
  | .opt e, h => by
    obtain ⟨w, h1, h2⟩ := repE_words e h
    exact ⟨w, h1, fun n hn => Or.inr (h2 n hn)⟩
  | .rep e, _ => by
    obtain ⟨w, h1, h2⟩ := matches_some e
    refine ⟨w, h1, fun n hn => ⟨List.replicate n w, ?_, ?_, rfl⟩⟩
    · intro h
      have := congrArg List.length h
      simp at this
      omega
    · intro v hv
      rw [List.eq_of_mem_replicate hv]
      exact h2
  | .jux a b, h => by
    simp only [repE, Bool.or_eq_true, Bool.and_eq_true] at h
    rcases h with ⟨h1, h2⟩ | ⟨h1, h2⟩
    · obtain ⟨w, h3, h4⟩ := repE_words a h1
      exact ⟨w, h3, fun n hn => ⟨_, [], h4 n hn, (matches_nil b).2 h2, by simp⟩⟩
    · obtain ⟨w, h3, h4⟩ := repE_words b h2
      exact ⟨w, h3, fun n hn => ⟨[], _, (matches_nil a).2 h1, h4 n hn, by simp⟩⟩
  | .alt a b, h => by
    simp only [repE, Bool.or_eq_true] at h
    rcases h with h | h
    · obtain ⟨w, h3, h4⟩ := repE_words a h
      exact ⟨w, h3, fun n hn => Or.inl (h4 n hn)⟩
    · obtain ⟨w, h3, h4⟩ := repE_words b h
      exact ⟨w, h3, fun n hn => Or.inr (h4 n hn)⟩
  | .leaf _ _, h => by simp [repE] at h

/-- C85: when the error message is that a repeating pattern is repeated, there is a construct `a...` in the expression, such that `a` matches
something nonempty and all repetitions of it. -/
theorem C85_repeats {nodes : List Node} {e : Expr} {i : Nat} (hT : Tree nodes e i) (hl : LexOk e) {reg : Registry} (hr : RegOk reg) {pi : Nat}
    {t : Tables} (h : Records nodes (some i) pi reg t (.error .repRepeating)) :
    ∃ a, Within (.rep a) e ∧ ∃ w, w ≠ [] ∧ ∀ n, 0 < n → Matches a (List.replicate n w).flatten := by
  obtain ⟨a, h1, h2⟩ := C85_errors hT hl hr h
  obtain ⟨xs, h3, h4⟩ := h2 fun _ _ => ⟨.valueSlot, 0⟩
  have h5 := repeating_of_twice _ 0 xs h3 (by simpa using h4 1 (by omega)) (by simpa [List.replicate_succ] using h4 2 (by omega))
  exact ⟨a, h1, repE_words a ((flat_rep _ a).1.symm.trans h5)⟩

/-- C85: an empty pattern is recorded as an empty sequence. -/
theorem C85_empty (nodes : List Node) (pi : Nat) (reg : Registry) (t : Tables) :
    ∃ t' j, Records nodes none pi reg t (.ok (reg, t', j)) ∧ Below t t' ∧ ∀ t'', Below t' t'' → EncRoot t'' .nil j := by
  refine ⟨⟨t.syms, t.elems, t.seqs ++ [⟨0, t.elems.length, 0, 0, true⟩], t.alts⟩, t.seqs.length, ⟨0, fun fuel _ => ?_⟩,
    ⟨List.prefix_rfl, List.prefix_rfl, List.prefix_append _ _, List.prefix_rfl⟩, fun t'' hb => ?_⟩
  · simp [record, finish, initSeq, addSeq, stageSeq]
  · exact ⟨trivial, _, prefix_get hb.seqs List.getElem?_concat_length, rfl, rfl, ⟨rfl, rfl⟩, trivial⟩

/-! The expression `get [<a> | -b]...`, with and without the repetition, and with the option `-b` declared. -/

def exampleNodes : List Node :=
  [⟨.keyword, 0, 0, [103, 101, 116]⟩, ⟨.valueSlot, 0, 0, [60, 97, 62]⟩, ⟨.shortOption, 0, 0, [45, 98]⟩, ⟨.alternatives, 1, 2, []⟩,
    ⟨.optionality, 3, 0, []⟩, ⟨.juxtaposition, 0, 4, []⟩, ⟨.repetition, 4, 0, []⟩, ⟨.juxtaposition, 0, 6, []⟩]

def exampleExpr : Expr := .jux (.leaf .keyword [103, 101, 116]) (.opt (.alt (.leaf .slot [60, 97, 62]) (.leaf .short [45, 98])))

def exampleExpr2 : Expr := .jux (.leaf .keyword [103, 101, 116]) (.rep (.opt (.alt (.leaf .slot [60, 97, 62]) (.leaf .short [45, 98]))))

/-- No keywords, and no options. -/
def exampleReg : Registry := ⟨[], [], [], [], [], [], []⟩

/-- The option `-b` takes an argument. -/
def exampleReg2 : Registry := ⟨[], [⟨none, some 0⟩], [⟨false, [45, 98]⟩], [⟨0, 1, ⟨true, false⟩, false, false⟩], [], [(98, 0)], []⟩

theorem exampleReg_ok : RegOk exampleReg :=
  ⟨by simp [exampleReg, Registry.findKeyword], by simp [exampleReg, Registry.findShort], by simp [exampleReg, Registry.findLong], by simp [exampleReg]⟩

theorem example_tree : Tree exampleNodes exampleExpr 5 := by simp [Tree, exampleNodes, exampleExpr, leafType]

theorem example_tree2 : Tree exampleNodes exampleExpr2 7 := by simp [Tree, exampleNodes, exampleExpr2, leafType]

example : LexOk exampleExpr := by simp [LexOk, exampleExpr]

/-- C85: `get [<a> | -b]`. -/
example : record 20 exampleNodes (some 5) 0 exampleReg ⟨[], [], [], []⟩ = some (.ok
    (⟨[[103, 101, 116]], [⟨some 0, none⟩], [], [], [([103, 101, 116], 0)], [(98, 0)], []⟩,
      ⟨[⟨.keyword, 0⟩, ⟨.valueSlot, 0⟩, ⟨.protoOption, 0⟩],
        [⟨.sym, true, false, 1, 2⟩, ⟨.sym, false, false, 2, 3⟩, ⟨.alt, true, false, 0, 3⟩, ⟨.sym, false, false, 0, 1⟩, ⟨.opt, true, false, 2, 3⟩],
        [⟨1, 0, 1, 2, false⟩, ⟨1, 1, 0, 3, false⟩, ⟨1, 2, 1, 3, false⟩, ⟨2, 3, 1, 3, false⟩], [⟨2, 0, 2⟩]⟩, 3)) := rfl

/-- C85: `get [<a> | -b]...`. -/
example : record 20 exampleNodes (some 7) 0 exampleReg ⟨[], [], [], []⟩ = some (.error .repNullable) := rfl

/-- C85: `get [<a> | -b]` where `-b` takes an argument. -/
example : record 20 exampleNodes (some 5) 0 exampleReg2 ⟨[], [], [], []⟩ = some (.error .refTakesArg) := rfl

/-- C85: what `get [<a> | -b]` matches. -/
example : Matches exampleExpr [(.keyword, [103, 101, 116]), (.short, [45, 98])] ∧ ¬ Matches exampleExpr [(.short, [45, 98])] := by
  refine ⟨⟨[(.keyword, [103, 101, 116])], [(.short, [45, 98])], rfl, Or.inr (Or.inr rfl), rfl⟩, ?_⟩
  rintro ⟨u, v, h1, h2, h3⟩
  cases h1
  simp at h3

/-- C85: the pattern that `get [<a> | -b]` stands for. -/
example : pat (fun k _ => match k with | .keyword => ⟨.keyword, 0⟩ | .slot => ⟨.valueSlot, 0⟩ | _ => ⟨.protoOption, 0⟩) exampleExpr =
    .cons (.sym ⟨.keyword, 0⟩) (.cons (.opt (.cons (.alt (.or (.cons (.sym ⟨.valueSlot, 0⟩) .nil) (.or (.cons (.sym ⟨.protoOption, 0⟩) .nil)
      .none))) .nil)) .nil) := rfl

/-- C85: `(<a>...)...` repeats a repeating pattern. -/
example : record 20 [⟨.valueSlot, 0, 0, []⟩, ⟨.repetition, 0, 0, []⟩, ⟨.repetition, 1, 0, []⟩] (some 2) 0 exampleReg ⟨[], [], [], []⟩ =
    some (.error .repRepeating) := rfl

end Verif.CliSpec
