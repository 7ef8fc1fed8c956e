import Verif.CliSpec.Attr
/-!
Tables that describe patterns.
-/
namespace Verif.CliSpec

open Verif.CliPattern

theorem Below.refl (t : Tables) : Below t t := ⟨List.prefix_rfl, List.prefix_rfl, List.prefix_rfl, List.prefix_rfl⟩

theorem Below.trans {t t' t'' : Tables} (h : Below t t') (h' : Below t' t'') : Below t t'' :=
  ⟨h.syms.trans h'.syms, h.elems.trans h'.elems, h.seqs.trans h'.seqs, h.alts.trans h'.alts⟩

theorem prefix_get {α : Type} {l l' : List α} (h : l <+: l') {i : Nat} {x : α} (hx : l[i]? = some x) : l'[i]? = some x := by
  obtain ⟨m, rfl⟩ := h
  rw [List.getElem?_append_left (List.getElem?_eq_some_iff.1 hx).1, hx]

/-- A sequence that describes a pattern. -/
def EncSq (t : Tables) (s : Pat) (sq : Seq) (b : Nat) : Prop :=
  sq.numElems = len s ∧ sq.endPos = b + size s ∧ (sq.nullable = nul s ∧ sq.numParams = params s) ∧ Enc t s sq.elemsOffset b

/-- An element that describes a pattern. -/
def EncEl (t : Tables) : Pat → Elem → Nat → Prop
  | .sym s, el, b => el.type = .sym ∧ t.syms[el.index]? = some s ∧ el.endPos = b + 1 ∧
      (el.isParam = decide (s.type = .valueSlot) ∧ el.collapsible = false)
  | .opt p, el, b => el.type = .opt ∧ el.endPos = b + size p ∧ (el.isParam = true ∧ el.collapsible = decide (params p = 0)) ∧
      ∃ sq, t.seqs[el.index]? = some sq ∧ EncSq t p sq b
  | .rep p, el, b => el.type = .rep ∧ el.endPos = b + size p ∧ (el.isParam = true ∧ el.collapsible = decide (params p = 0)) ∧
      ∃ sq, t.seqs[el.index]? = some sq ∧ EncSq t p sq b
  | .alt p, el, b => el.type = .alt ∧ el.endPos = b + size p ∧ (el.isParam = true ∧ el.collapsible = decide (params p = 0)) ∧
      ∃ a, t.alts[el.index]? = some a ∧ a.numSeqs = len p ∧ a.nullableSeqIndex = nullIndex p ∧ Enc t p a.seqsOffset b
  | _, _, _ => False

theorem enc_el {t : Tables} {p : Pat} {el : Elem} {i b : Nat} (hel : t.elems[i]? = some el) (h : EncEl t p el b) : Enc t p i b := by
  cases p <;> first | exact h.elim | exact ⟨el, hel, h⟩

def Encs (t : Tables) : List Pat → List Elem → Nat → Prop
  | [], [], _ => True
  | p :: ps, el :: es, b => EncEl t p el b ∧ Encs t ps es (b + size p)
  | _, _, _ => False

def EncSqs (t : Tables) : List Pat → List Seq → Nat → Prop
  | [], [], _ => True
  | p :: ps, sq :: sqs, b => EncSq t p sq b ∧ EncSqs t ps sqs (b + size p)
  | _, _, _ => False

theorem encs_length {t : Tables} : ∀ {ps : List Pat} {es : List Elem} {b : Nat}, Encs t ps es b → ps.length = es.length
  | [], [], _, _ => rfl
  | _ :: _, _ :: _, _, h => by simp [encs_length h.2]
  | [], _ :: _, _, h | _ :: _, [], _, h => h.elim

theorem encSqs_length {t : Tables} : ∀ {ps : List Pat} {sqs : List Seq} {b : Nat}, EncSqs t ps sqs b → ps.length = sqs.length
  | [], [], _, _ => rfl
  | _ :: _, _ :: _, _, h => by simp [encSqs_length h.2]
  | [], _ :: _, _, h | _ :: _, [], _, h => h.elim

theorem encs_append {t : Tables} : ∀ {ps qs : List Pat} {es fs : List Elem} {b : Nat}, Encs t ps es b →
    Encs t qs fs (b + size (seqOf ps)) → Encs t (ps ++ qs) (es ++ fs) b
  | [], _, [], _, b, _, h => by simpa [seqOf, size] using h
  | p :: ps, _, el :: es, _, b, h, h' => by
    refine ⟨h.1, encs_append h.2 ?_⟩
    simpa [seqOf, size, Nat.add_assoc] using h'
  | [], _, _ :: _, _, _, h, _ | _ :: _, _, [], _, _, h, _ => h.elim

theorem encSqs_append {t : Tables} : ∀ {ps qs : List Pat} {es fs : List Seq} {b : Nat}, EncSqs t ps es b →
    EncSqs t qs fs (b + size (altOf ps)) → EncSqs t (ps ++ qs) (es ++ fs) b
  | [], _, [], _, b, _, h => by simpa [altOf, size] using h
  | p :: ps, _, el :: es, _, b, h, h' => by
    refine ⟨h.1, encSqs_append h.2 ?_⟩
    simpa [altOf, size, Nat.add_assoc] using h'
  | [], _, _ :: _, _, _, h, _ | _ :: _, _, [], _, _, h, _ => h.elim

theorem prefix_mid {α : Type} {pre es l : List α} {x : α} (h : pre ++ x :: es <+: l) : l[pre.length]? = some x :=
  prefix_get h (by simp)

theorem enc_of_encs {t : Tables} : ∀ {ps : List Pat} {es : List Elem} {b : Nat} {pre : List Elem}, Encs t ps es b → pre ++ es <+: t.elems →
    Enc t (seqOf ps) pre.length b
  | [], [], _, _, _, _ => trivial
  | p :: ps, el :: es, b, pre, h, hp => by
    refine ⟨enc_el (prefix_mid hp) h.1, ?_⟩
    have := enc_of_encs (pre := pre ++ [el]) h.2 (by simpa using hp)
    simpa using this
  | [], _ :: _, _, _, h, _ | _ :: _, [], _, _, h, _ => h.elim

theorem enc_of_encSqs {t : Tables} : ∀ {ps : List Pat} {es : List Seq} {b : Nat} {pre : List Seq}, EncSqs t ps es b → pre ++ es <+: t.seqs →
    Enc t (altOf ps) pre.length b
  | [], [], _, _, _, _ => trivial
  | p :: ps, el :: es, b, pre, h, hp => by
    refine ⟨⟨el, prefix_mid hp, h.1⟩, ?_⟩
    have := enc_of_encSqs (pre := pre ++ [el]) h.2 (by simpa using hp)
    simpa using this
  | [], _ :: _, _, _, h, _ | _ :: _, [], _, _, h, _ => h.elim

end Verif.CliSpec
