import Verif.CliSpec.Spec
/-!
Registration of keywords and options.
-/
namespace Verif.CliSpec

open Verif.CliPattern

theorem Registry.Le.refl (r : Registry) : r.Le r := ⟨fun _ _ _ h => h, fun _ _ => rfl⟩

theorem Registry.Le.trans {r r' r'' : Registry} (h : r.Le r') (h' : r'.Le r'') : r.Le r'' :=
  ⟨fun k l s hs => h'.symbol k l s (h.symbol k l s hs), fun k l => (h.option k l).trans (h'.option k l)⟩

theorem Agrees.mono {r r' : Registry} {σ : LeafKind → Str → PatternSymbol} (h : r.Le r') (hσ : Agrees r' σ) : Agrees r σ :=
  fun k l s hs => hσ k l s (h.symbol k l s hs)

theorem lookup_emplace {κ : Type} [BEq κ] [LawfulBEq κ] (m : List (κ × Nat)) (k : κ) (v : Nat) :
    (emplace m k v).1.lookup k = some (emplace m k v).2.1 ∧ (∀ k' v', m.lookup k' = some v' → (emplace m k v).1.lookup k' = some v') ∧
    ((emplace m k v).2.2 = false → (emplace m k v).1 = m) ∧
    ((emplace m k v).2.2 = true → (emplace m k v).2.1 = v ∧ m.lookup k = none ∧
      ∀ k' v', (emplace m k v).1.lookup k' = some v' → (k' = k ∧ v' = v) ∨ m.lookup k' = some v') := by
  unfold emplace
  cases h : m.lookup k with
  | some v0 => simp [h]
  | none =>
    refine ⟨by simp [List.lookup], ?_, by simp, fun _ => ⟨rfl, rfl, ?_⟩⟩
    · intro k' v' h'
      by_cases he : k' = k
      · subst he; rw [h] at h'; cases h'
      · have : (k' == k) = false := by simpa using he
        simp [List.lookup, this, h']
    · intro k' v' h'
      by_cases he : k' = k
      · subst he
        simp [List.lookup] at h'
        exact Or.inl ⟨rfl, h'.symm⟩
      · have : (k' == k) = false := by simpa using he
        simp only [List.lookup, this] at h'
        exact Or.inr h'

/-- The index of the declared option of a proto option. -/
def protoIdx (r : Registry) (i : Nat) : Option Nat := r.protos[i]?.bind Proto.optionIndex

theorem optionOf_eq (r : Registry) (k : LeafKind) (l : Str) : optionOf r k l =
    (symbolOf r k l).bind fun s => if s.type = .protoOption then (protoIdx r s.index).bind (r.options[·]?) else none := by
  unfold optionOf protoIdx
  cases symbolOf r k l with
  | none => rfl
  | some s =>
    simp only [Option.bind_eq_bind, Option.bind_some]
    split
    · cases r.protos[s.index]? <;> simp
    · rfl

theorem proto_lt {r : Registry} (h : RegOk r) {k : LeafKind} {l : Str} {s : PatternSymbol} (hs : symbolOf r k l = some s)
    (ht : s.type = .protoOption) : s.index < r.protos.length := by
  cases k <;> simp only [symbolOf, Option.map_eq_some_iff, Option.some.injEq, Option.bind_eq_some_iff] at hs
  · obtain ⟨i, _, rfl⟩ := hs; simp at ht
  · obtain ⟨i, ⟨c, _, hc⟩, rfl⟩ := hs; exact h.short c i hc
  · obtain ⟨i, hc, rfl⟩ := hs; exact h.long _ i hc
  · subst hs; simp at ht

theorem optionOf_congr {r r' : Registry} (h : RegOk r) (h1 : ∀ k l s, symbolOf r k l = some s → symbolOf r' k l = some s)
    (h2 : ∀ k l s, symbolOf r k l = none → symbolOf r' k l = some s → s.type = .protoOption → protoIdx r' s.index = none)
    (h3 : r'.options = r.options) (h4 : ∀ i, i < r.protos.length → protoIdx r' i = protoIdx r i) (k : LeafKind) (l : Str) :
    optionOf r k l = optionOf r' k l := by
  rw [optionOf_eq, optionOf_eq]
  cases hs : symbolOf r k l with
  | some s =>
    rw [h1 k l s hs]
    simp only [Option.bind_some]
    split
    · rename_i ht
      rw [h4 _ (proto_lt h hs ht), h3]
    · rfl
  | none =>
    simp only [Option.bind_none]
    cases hs' : symbolOf r' k l with
    | none => rfl
    | some s =>
      simp only [Option.bind_some]
      split
      · rename_i ht
        rw [h2 k l s hs hs' ht]
        rfl
      · rfl

theorem ensureKeyword_ok {r : Registry} (h : RegOk r) (l : Str) : RegOk (r.ensureKeyword l).1 ∧ r.Le (r.ensureKeyword l).1 ∧
    symbolOf (r.ensureKeyword l).1 .keyword l = some ⟨.keyword, (r.ensureKeyword l).2⟩ := by
  have hl := lookup_emplace r.keywordMap l r.keywords.length
  unfold Registry.ensureKeyword
  rcases e : emplace r.keywordMap l r.keywords.length with ⟨m, i, b⟩
  simp only [e] at hl
  obtain ⟨h1, h2, h3, h4⟩ := hl
  cases b with
  | false =>
    have hm := h3 rfl
    subst hm
    refine ⟨h, Registry.Le.refl _, ?_⟩
    simp [symbolOf, Registry.findKeyword, h1]
  | true =>
    obtain ⟨rfl, h5, h6⟩ := h4 rfl
    refine ⟨⟨?_, h.short, h.long, h.option⟩, ⟨?_, ?_⟩, ?_⟩
    · intro l' j hj
      rcases h6 l' j hj with ⟨rfl, rfl⟩ | hj
      · simp
      · have := h.keyword l' j hj
        rw [List.getElem?_append_left]
        · exact this
        · exact (List.getElem?_eq_some_iff.1 this).1
    · intro k l' s hs
      cases k with
      | keyword =>
        simp only [symbolOf, Option.map_eq_some_iff] at hs ⊢
        obtain ⟨j, hj, rfl⟩ := hs
        exact ⟨j, h2 l' j hj, rfl⟩
      | _ => exact hs
    · refine optionOf_congr h ?_ ?_ rfl (fun _ _ => rfl)
      · intro k l' s hs
        cases k with
        | keyword =>
          simp only [symbolOf, Option.map_eq_some_iff] at hs ⊢
          obtain ⟨j, hj, rfl⟩ := hs
          exact ⟨j, h2 l' j hj, rfl⟩
        | _ => exact hs
      · intro k l' s hs hs' ht
        cases k with
        | keyword =>
          simp only [symbolOf, Option.map_eq_some_iff] at hs'
          obtain ⟨j, hj, rfl⟩ := hs'
          simp at ht
        | short => exact absurd (hs.symm.trans hs') (by simp)
        | long => exact absurd (hs.symm.trans hs') (by simp)
        | slot => exact absurd (hs.symm.trans hs') (by simp)
    · simp [symbolOf, Registry.findKeyword, h1]

def optKind (isLong : Bool) : LeafKind := if isLong then .long else .short

theorem ensureProto_ok {r : Registry} (h : RegOk r) {isLong : Bool} {l : Str} (hl : 2 ≤ l.length) : ∃ r' i,
    r.ensureProto ⟨isLong, l⟩ = some (r', i) ∧ RegOk r' ∧ r.Le r' ∧ symbolOf r' (optKind isLong) l = some ⟨.protoOption, i⟩ := by
  have hpi : ∀ (i : Nat) (x : Proto), i < r.protos.length → (r.protos ++ [x])[i]?.bind Proto.optionIndex = r.protos[i]?.bind Proto.optionIndex := by
    intro i x hi
    rw [List.getElem?_append_left hi]
  have hopt : ∀ (i : Nat) (p : Proto) (j : Nat), (r.protos ++ [⟨none, none⟩])[i]? = some p → p.optionIndex = some j → j < r.options.length := by
    intro i p j hp hj
    by_cases hi : i < r.protos.length
    · rw [List.getElem?_append_left hi] at hp
      exact h.option i p j hp hj
    · rw [List.getElem?_append_right (by omega)] at hp
      cases hq : i - r.protos.length with
      | zero =>
        rw [hq] at hp
        simp only [List.getElem?_cons_zero, Option.some.injEq] at hp
        subst hp
        simp at hj
      | succ n => rw [hq] at hp; simp at hp
  cases isLong with
  | false =>
    obtain ⟨c, hc⟩ : ∃ c, l[1]? = some c := ⟨_, List.getElem?_eq_some_iff.2 ⟨by omega, rfl⟩⟩
    have he := lookup_emplace r.shortMap c r.protos.length
    rcases e : emplace r.shortMap c r.protos.length with ⟨m, i, b⟩
    simp only [e] at he
    obtain ⟨h1, h2, h3, h4⟩ := he
    simp only [Registry.ensureProto, hc, e, Bool.not_false, if_true, Option.bind_eq_bind, Option.bind_some, optKind]
    cases b with
    | false =>
      have hm := h3 rfl
      subst hm
      exact ⟨_, _, rfl, h, Registry.Le.refl _, by simp [symbolOf, Registry.findShort, hc, h1]⟩
    | true =>
      obtain ⟨rfl, h5, h6⟩ := h4 rfl
      have hmono : ∀ k l' s, symbolOf r k l' = some s →
          symbolOf { r with shortMap := m, protos := r.protos ++ [⟨none, none⟩] } k l' = some s := by
        intro k l' s hs
        cases k with
        | short =>
          simp only [symbolOf, Option.map_eq_some_iff, Option.bind_eq_some_iff] at hs ⊢
          obtain ⟨j, ⟨c', hc', hj⟩, rfl⟩ := hs
          exact ⟨j, ⟨c', hc', h2 c' j hj⟩, rfl⟩
        | _ => exact hs
      refine ⟨_, _, rfl, ⟨h.keyword, ?_, ?_, hopt⟩, ⟨hmono, ?_⟩, by simp [symbolOf, Registry.findShort, hc, h1]⟩
      · intro c' j hj
        simp only [List.length_append, List.length_cons, List.length_nil]
        rcases h6 c' j hj with ⟨rfl, rfl⟩ | hj
        · omega
        · have := h.short c' j hj
          omega
      · intro l' j hj
        have := h.long l' j hj
        simp only [List.length_append, List.length_cons, List.length_nil]
        omega
      · refine optionOf_congr h hmono ?_ rfl (fun i hi => hpi i _ hi)
        intro k l' s hs hs' ht
        cases k with
        | short =>
          simp only [symbolOf, Option.map_eq_some_iff, Option.bind_eq_some_iff] at hs'
          obtain ⟨j, ⟨c', hc', hj⟩, rfl⟩ := hs'
          rcases h6 c' j hj with ⟨rfl, rfl⟩ | hj
          · simp [protoIdx]
          · simp [symbolOf, hc', Registry.findShort, hj] at hs
        | keyword => exact absurd (hs.symm.trans hs') (by simp)
        | long => exact absurd (hs.symm.trans hs') (by simp)
        | slot => exact absurd (hs.symm.trans hs') (by simp)
  | true =>
    have he := lookup_emplace r.longMap (l.drop 2) r.protos.length
    rcases e : emplace r.longMap (l.drop 2) r.protos.length with ⟨m, i, b⟩
    simp only [e] at he
    obtain ⟨h1, h2, h3, h4⟩ := he
    simp only [Registry.ensureProto, hl, e, Bool.not_true, Bool.false_eq_true, if_false, if_true, optKind]
    cases b with
    | false =>
      have hm := h3 rfl
      subst hm
      exact ⟨_, _, rfl, h, Registry.Le.refl _, by simp [symbolOf, Registry.findLong, h1]⟩
    | true =>
      obtain ⟨rfl, h5, h6⟩ := h4 rfl
      have hmono : ∀ k l' s, symbolOf r k l' = some s →
          symbolOf { r with longMap := m, protos := r.protos ++ [⟨none, none⟩] } k l' = some s := by
        intro k l' s hs
        cases k with
        | long =>
          simp only [symbolOf, Option.map_eq_some_iff] at hs ⊢
          obtain ⟨j, hj, rfl⟩ := hs
          exact ⟨j, h2 _ j hj, rfl⟩
        | _ => exact hs
      refine ⟨_, _, rfl, ⟨h.keyword, ?_, ?_, hopt⟩, ⟨hmono, ?_⟩, by simp [symbolOf, Registry.findLong, h1]⟩
      · intro l' j hj
        have := h.short l' j hj
        simp only [List.length_append, List.length_cons, List.length_nil]
        omega
      · intro c' j hj
        simp only [List.length_append, List.length_cons, List.length_nil]
        rcases h6 c' j hj with ⟨rfl, rfl⟩ | hj
        · omega
        · have := h.long c' j hj
          omega
      · refine optionOf_congr h hmono ?_ rfl (fun i hi => hpi i _ hi)
        intro k l' s hs hs' ht
        cases k with
        | long =>
          simp only [symbolOf, Option.map_eq_some_iff] at hs'
          obtain ⟨j, hj, rfl⟩ := hs'
          rcases h6 _ j hj with ⟨_, rfl⟩ | hj
          · simp [protoIdx]
          · simp [symbolOf, Registry.findLong, hj] at hs
        | keyword => exact absurd (hs.symm.trans hs') (by simp)
        | short => exact absurd (hs.symm.trans hs') (by simp)
        | slot => exact absurd (hs.symm.trans hs') (by simp)

theorem ensurePatternOption_ok {r : Registry} (h : RegOk r) {isLong : Bool} {l : Str} (hl : 2 ≤ l.length) (patternIndex : Nat) :
    (∃ err o, r.ensurePatternOption ⟨isLong, l⟩ patternIndex = some (.error err) ∧ optionOf r (optKind isLong) l = some o ∧ BadRef o err) ∨
    ∃ r' i, r.ensurePatternOption ⟨isLong, l⟩ patternIndex = some (.ok (r', i)) ∧ RegOk r' ∧ r.Le r' ∧
      symbolOf r' (optKind isLong) l = some ⟨.protoOption, i⟩ ∧ ∀ o err, optionOf r (optKind isLong) l = some o → ¬ BadRef o err := by
  obtain ⟨r1, i, h1, h2, h3, h4⟩ := ensureProto_ok h (isLong := isLong) hl
  have hi : i < r1.protos.length := proto_lt h2 h4 rfl
  obtain ⟨proto, hp⟩ : ∃ p, r1.protos[i]? = some p := ⟨_, List.getElem?_eq_some_iff.2 ⟨hi, rfl⟩⟩
  have hopt : optionOf r (optKind isLong) l = proto.optionIndex.bind (r1.options[·]?) := by
    rw [h3.option, optionOf_eq, h4]
    simp [protoIdx, hp]
  have hmain : ∃ e, r1.refError proto = some e ∧ match e with
      | some err => ∃ o, optionOf r (optKind isLong) l = some o ∧ BadRef o err
      | none => ∀ o err, optionOf r (optKind isLong) l = some o → ¬ BadRef o err := by
    rw [hopt]
    unfold Registry.refError
    cases hj : proto.optionIndex with
    | none => exact ⟨none, rfl, by simp⟩
    | some j =>
      obtain ⟨o, ho⟩ : ∃ o, r1.options[j]? = some o := ⟨_, List.getElem?_eq_some_iff.2 ⟨h2.option i proto j hp hj, rfl⟩⟩
      simp only [Option.bind_eq_bind, Option.bind_some, ho]
      split
      · rename_i ha
        exact ⟨_, rfl, o, rfl, ha⟩
      · rename_i ha
        split
        · rename_i hb
          exact ⟨_, rfl, o, rfl, hb⟩
        · rename_i hb
          split
          · rename_i hc
            exact ⟨_, rfl, o, rfl, hc⟩
          · rename_i hc
            refine ⟨_, rfl, ?_⟩
            intro o' err ho'
            cases ho'
            cases err <;> simp [BadRef, ha, hb, hc]
  obtain ⟨e, he1, he2⟩ := hmain
  simp only [Registry.ensurePatternOption, h1, Option.bind_eq_bind, Option.bind_some, hp, he1]
  cases e with
  | some err =>
    obtain ⟨o, ho1, ho2⟩ := he2
    exact Or.inl ⟨err, o, rfl, ho1, ho2⟩
  | none =>
    refine Or.inr ⟨_, i, rfl, ?_, h3.trans ?_, h4, he2⟩
    · refine ⟨h2.keyword, ?_, ?_, ?_⟩
      · intro c j hj; simpa using h2.short c j hj
      · intro c j hj; simpa using h2.long c j hj
      · intro j p k hp' hk
        simp only [List.getElem?_set] at hp'
        split at hp'
        · rename_i hij
          subst hij
          simp only [hi, if_true, Option.some.injEq] at hp'
          refine h2.option i proto k hp ?_
          rw [← hk, ← hp']
          split <;> rfl
        · exact h2.option j p k hp' hk
    · refine ⟨fun k l s hs => hs, optionOf_congr h2 (fun k l s hs => hs) (fun k l s hs hs' => absurd (hs.symm.trans hs') (by simp)) rfl ?_⟩
      intro j hj
      simp only [protoIdx, List.getElem?_set]
      split
      · rename_i hij
        subst hij
        simp only [hi, if_true, hp, Option.bind_some]
        split <;> rfl
      · rfl

end Verif.CliSpec
