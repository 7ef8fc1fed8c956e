import Verif.CliSpec.NameLemmas
import Verif.CliPattern.ArgsProps
import Verif.CliPattern.Props
import Mathlib.Data.List.Forall2
/-!
The addition of patterns to a specification.
-/
namespace Verif.CliSpec

open Verif.CliPattern

variable {env : Env}

/-! Symbols matter for parameters only through whether they are value slots. -/

/-- Replace symbols. -/
def mapSym (f : PatternSymbol → PatternSymbol) : Pat → Pat
  | .sym s => .sym (f s)
  | .opt p => .opt (mapSym f p)
  | .rep p => .rep (mapSym f p)
  | .alt p => .alt (mapSym f p)
  | .nil => .nil
  | .cons e s => .cons (mapSym f e) (mapSym f s)
  | .none => .none
  | .or s b => .or (mapSym f s) (mapSym f b)

theorem mapSym_seqOf (f : PatternSymbol → PatternSymbol) (ps : List Pat) : mapSym f (seqOf ps) = seqOf (ps.map (mapSym f)) := by
  induction ps with
  | nil => rfl
  | cons p ps ih => simp only [seqOf, List.foldr_cons, List.map_cons, mapSym] at *; rw [ih]

theorem mapSym_altOf (f : PatternSymbol → PatternSymbol) (ps : List Pat) : mapSym f (altOf ps) = altOf (ps.map (mapSym f)) := by
  induction ps with
  | nil => rfl
  | cons p ps ih => simp only [altOf, List.foldr_cons, List.map_cons, mapSym] at *; rw [ih]

theorem mapSym_flat (f : PatternSymbol → PatternSymbol) (σ : LeafKind → Str → PatternSymbol) : ∀ e : Expr,
    (flat (fun k l => f (σ k l)) e).1 = (flat σ e).1.map (mapSym f) ∧ (flat (fun k l => f (σ k l)) e).2 = (flat σ e).2.map (mapSym f)
  | .leaf k l => by simp [flat, mapSym, mapSym_seqOf]
  | .opt e => by simp [flat, mapSym, mapSym_seqOf, (mapSym_flat f σ e).1]
  | .rep e => by simp [flat, mapSym, mapSym_seqOf, (mapSym_flat f σ e).1]
  | .jux a b => by simp [flat, mapSym_seqOf, (mapSym_flat f σ a).1, (mapSym_flat f σ b).1]
  | .alt a b => by simp [flat, mapSym, mapSym_altOf, (mapSym_flat f σ a).2, (mapSym_flat f σ b).2]

theorem mapSym_pat (f : PatternSymbol → PatternSymbol) (σ : LeafKind → Str → PatternSymbol) (oe : Option Expr) :
    patOf (fun k l => f (σ k l)) oe = mapSym f (patOf σ oe) := by
  cases oe with
  | none => rfl
  | some e => simp only [patOf, pat, mapSym_seqOf, (mapSym_flat f σ e).1]

section
variable {f : PatternSymbol → PatternSymbol} (hf : ∀ s, (f s).type = .valueSlot ↔ s.type = .valueSlot)
include hf

theorem params_mapSym : ∀ p : Pat, params (mapSym f p) = params p
  | .sym s => by simp [mapSym, params, hf]
  | .opt _ | .rep _ | .alt _ | .nil | .none => rfl
  | .cons e s => by simp [mapSym, params, params_mapSym e, params_mapSym s]
  | .or e s => by simp [mapSym, params, params_mapSym e, params_mapSym s]

theorem repFirst_mapSym : ∀ p : Pat, repFirst (mapSym f p) ↔ repFirst p
  | .sym s | .opt _ | .rep _ | .alt _ | .nil | .none | .or _ _ => Iff.rfl
  | .cons e s => by
    simp only [mapSym, repFirst, params_mapSym hf, repFirst_mapSym s]
    have : (∃ q, mapSym f e = .rep q) ↔ ∃ q, e = .rep q := by cases e <;> simp [mapSym]
    rw [this]

theorem fitsTuple_congr {R R' : Ty → Prop} (h : ∀ ts, R ts ↔ R' ts) (τ : Ty) : FitsTuple R τ ↔ FitsTuple R' τ := by
  cases τ <;> simp only [FitsTuple, h]

theorem fits_mapSym : ∀ (p : Pat) (ts : Ty), Fits (mapSym f p) ts ↔ Fits p ts
  | .sym s, ts => by simp [mapSym, Fits]
  | .opt p, ts => by
    cases ts <;> simp only [mapSym, Fits, params_mapSym hf, repFirst_mapSym hf, fits_mapSym p]
    exact fitsTuple_congr hf (fits_mapSym p) _
  | .rep p, ts => by
    cases ts <;> simp only [mapSym, Fits, params_mapSym hf]
    exact fitsTuple_congr hf (fits_mapSym p) _
  | .alt p, ts => by cases ts <;> simp only [mapSym, Fits, params_mapSym hf, fits_mapSym p]
  | .nil, ts => by cases ts <;> simp only [mapSym, Fits]
  | .none, ts => by cases ts <;> simp only [mapSym, Fits]
  | .cons e s, ts => by simp only [mapSym, Fits, params_mapSym hf, fits_mapSym e, fits_mapSym s]
  | .or e s, ts => by
    cases ts <;> simp only [mapSym, Fits, fits_mapSym s]
    rw [fitsTuple_congr hf (fits_mapSym e)]

end

theorem getD_type {o : Option Nat} {c : Nat → PatternSymbol} {d : PatternSymbol} (hc : ∀ i, (c i).type ≠ .valueSlot) (hd : d.type ≠ .valueSlot) :
    ((o.map c).getD d).type ≠ .valueSlot := by
  cases o with
  | none => exact hd
  | some i => exact hc i

theorem fits_any {r : Registry} (oe : Option Expr) (ts : Ty) :
    ∃ σ, Agrees r σ ∧ (Fits (patOf σ oe) ts ↔ Fits (patOf slotOrNot oe) ts) := by
  refine ⟨fun k l => (symbolOf r k l).getD (slotOrNot k l), fun k l s h => by simp [h], ?_⟩
  have hf : ∀ s : PatternSymbol, (if s.type = .valueSlot then (⟨.valueSlot, 0⟩ : PatternSymbol) else ⟨.keyword, 0⟩).type = .valueSlot ↔
      s.type = .valueSlot := by intro s; split <;> simp_all
  rw [← fits_mapSym hf, ← mapSym_pat]
  have : (fun k l => if ((symbolOf r k l).getD (slotOrNot k l)).type = .valueSlot then (⟨.valueSlot, 0⟩ : PatternSymbol) else ⟨.keyword, 0⟩) =
      slotOrNot := by
    funext k l
    cases k with
    | slot => simp [symbolOf, slotOrNot]
    | keyword => exact if_neg (getD_type (fun _ => by simp) (by simp [slotOrNot]))
    | long => exact if_neg (getD_type (fun _ => by simp) (by simp [slotOrNot]))
    | short => exact if_neg (getD_type (fun _ => by simp) (by simp [slotOrNot]))
  rw [this]

/-! Meanings of texts. -/

theorem lexes_nil_denotes {n : Nat} {e : Expr} : ¬ Denotes n e [] := by
  intro h
  generalize hts : ([] : List Token) = ts at h
  induction h with
  | leaf => cases hts
  | opt => cases hts
  | paren => cases hts
  | rep => simp at hts
  | jux => simp at hts
  | alt => simp at hts
  | up _ _ ih => exact ih hts

theorem listed_nil {es : List Expr} : ¬ Listed es [] := by
  intro h
  generalize hts : ([] : List Token) = ts at h
  cases h with
  | one h => cases hts; exact lexes_nil_denotes h
  | more => simp at hts

theorem Means.unique (he : EnvOk env) {s : Str} {oe oe' : Option Expr} (h : Means env s oe) (h' : Means env s oe') : oe = oe' := by
  cases oe with
  | none =>
    cases oe' with
    | none => rfl
    | some e =>
      obtain ⟨ts, h1, h2⟩ := h'
      cases lexes_unique he h h1
      exact absurd h2 lexes_nil_denotes
  | some e =>
    obtain ⟨ts, h1, h2⟩ := h
    cases oe' with
    | none =>
      cases lexes_unique he h' h1
      exact absurd h2 lexes_nil_denotes
    | some e' =>
      obtain ⟨ts', h1', h2'⟩ := h'
      rw [(C86_unambiguous he h1 h1' h2.up1 h2'.up1).2]

/-- The two outcomes of the parsing of a pattern. -/
theorem parse_outcome (he : EnvOk env) (s : Str) (d : Bool) :
    (∃ err, Parses env s d (.error (.error err)) ∧ ¬ ∃ oe, Means env s oe ∧ (d = true → ∀ e, oe = some e → ¬ HasSlot e)) ∨
    (∃ nodes, Parses env s d (.ok (none, nodes)) ∧ Means env s none) ∨
    ∃ e i nodes, Parses env s d (.ok (some i, nodes)) ∧ Means env s (some e) ∧ (d = true → ¬ HasSlot e) ∧ Tree nodes e i ∧ LexOk e := by
  rcases pattern_cases he s d with ⟨h1, h⟩ | ⟨es, ts, h1, h2, h3, h⟩ | ⟨e, ts, h1, h2, h3, h⟩ | ⟨e, ts, h1, h2, h3, h4, h⟩ |
    ⟨e, ts, i, nodes, h1, h2, h3, h4, h⟩ | ⟨h1, err, _, _, _, h⟩
  · exact Or.inr (Or.inl ⟨_, h, h1⟩)
  · refine Or.inl ⟨_, h, ?_⟩
    rintro ⟨oe, h4, h5⟩
    cases oe with
    | none =>
      obtain ⟨nodes, h6⟩ : ∃ nodes, Parses env s d (.ok (none, nodes)) := by
        rcases pattern_cases he s d with ⟨_, h'⟩ | ⟨es', ts', h1', h2', _⟩ | ⟨e, ts', h1', h2', _⟩ | ⟨e, ts', h1', h2', _⟩ |
          ⟨e, ts', _, _, h1', h2', _⟩ | ⟨h1', _⟩
        · exact ⟨_, h'⟩
        · cases lexes_unique he h4 h1'; exact absurd h2' listed_nil
        · cases lexes_unique he h4 h1'; exact absurd h2' lexes_nil_denotes
        · cases lexes_unique he h4 h1'; exact absurd h2' lexes_nil_denotes
        · cases lexes_unique he h4 h1'; exact absurd h2' lexes_nil_denotes
        · exact absurd ⟨_, h4, Or.inl rfl⟩ h1'
      cases h.unique h6
    | some e =>
      obtain ⟨i, nodes, h6, _⟩ := (C86_accepts he).2 ⟨h4, fun hd => h5 hd e rfl⟩
      cases h.unique h6
  · refine Or.inl ⟨_, h, ?_⟩
    rintro ⟨oe, h4, h5⟩
    cases oe with
    | none => cases lexes_unique he h4 h1; exact lexes_nil_denotes h2
    | some e =>
      obtain ⟨i, nodes, h6, _⟩ := (C86_accepts he).2 ⟨h4, fun hd => h5 hd e rfl⟩
      cases h.unique h6
  · refine Or.inl ⟨_, h, ?_⟩
    rintro ⟨oe, h5, h6⟩
    cases Means.unique he (oe := some e) ⟨ts, h1, h2⟩ h5
    exact h6 h4 e rfl h3
  · exact Or.inr (Or.inr ⟨e, i, nodes, h, ⟨ts, h1, h2⟩, h3, h4, (denotes_leaves h2 fun t ht => (lexes_lexeme h1 t ht).1).lexOk⟩)
  · refine Or.inl ⟨_, h, ?_⟩
    rintro ⟨oe, h4, _⟩
    cases oe with
    | none => exact h1 ⟨_, h4, Or.inl rfl⟩
    | some e =>
      obtain ⟨ts, h5, h6⟩ := h4
      exact h1 ⟨ts, h5, Or.inr ⟨_, .one h6.up1⟩⟩

/-! Errors found when an expression is recorded. -/

theorem lexOk_leaf {k : LeafKind} {l : Str} : ∀ {e : Expr}, LexOk e → Within (.leaf k l) e → LexOk (.leaf k l)
  | .leaf _ _, h, hw => by cases hw; exact h
  | .opt e, h, hw => by cases hw with | opt hw => exact lexOk_leaf (e := e) h hw
  | .rep e, h, hw => by cases hw with | rep hw => exact lexOk_leaf (e := e) h hw
  | .jux _ _, h, hw => by
    cases hw with
    | juxLeft hw => exact lexOk_leaf h.1 hw
    | juxRight hw => exact lexOk_leaf h.2 hw
  | .alt _ _, h, hw => by
    cases hw with
    | altLeft hw => exact lexOk_leaf h.1 hw
    | altRight hw => exact lexOk_leaf h.2 hw

theorem symbolOf_name {r : Registry} {k : LeafKind} {l : Str} (hl : LexOk (.leaf k l)) {n : OptName} (hn : leafName k l = some n) :
    symbolOf r k l = (protoNamed r n).map fun i => ⟨.protoOption, i⟩ := by
  cases k with
  | keyword => cases hn
  | slot => cases hn
  | short =>
    cases hn
    have : l[1]? = some (l.getD 1 0) := by
      have : 1 < l.length := hl
      simp [List.getD_eq_getElem?_getD, this]
    simp only [symbolOf, this, Option.bind_some]
    rfl
  | long => cases hn; rfl

theorem optionOf_declared {ds : List OptionDecl} {os : List (List Form × ArgSpec)} {R : Registry} (hi : RegInv ds os R) {k : LeafKind} {l : Str}
    (hl : LexOk (.leaf k l)) {o : OptionInfo} :
    optionOf R k l = some o ↔ ∃ n i, leafName k l = some n ∧ Has os i n ∧ R.options[i]? = some o := by
  cases hn : leafName k l with
  | none =>
    have : optionOf R k l = none := by
      cases k with
      | keyword => simp only [optionOf, symbolOf]; cases R.findKeyword l <;> simp
      | slot => simp [optionOf, symbolOf]
      | short => cases hn
      | long => cases hn
    simp [this]
  | some n =>
    simp only [optionOf, symbolOf_name hl hn]
    cases hp : protoNamed R n with
    | none =>
      simp only [Option.map_none, Option.bind_eq_bind, Option.bind_none, reduceCtorEq, Option.some.injEq, false_iff]
      rintro ⟨n', i, rfl, h1, h2⟩
      rw [(hi.named n i).2 h1] at hp
      cases hp
    | some i =>
      simp only [Option.map_some, Option.bind_eq_bind, Option.bind_some, if_true, hi.proto hp, Option.some.injEq]
      constructor
      · intro h; exact ⟨n, i, rfl, (hi.named n i).1 hp, h⟩
      · rintro ⟨n', j, rfl, h1, h2⟩
        rw [(hi.named n j).2 h1] at hp
        cases hp
        exact h2

theorem flawed_iff {ds : List OptionDecl} {os : List (List Form × ArgSpec)} {R : Registry} (hi : RegInv ds os R) {r : Registry} (hle : R.Le r)
    {e : Expr} (hl : LexOk e) (err : RecError) : ErrorTrue r e err ↔ Flawed ds os e err := by
  have hd : ∀ {i : Nat} {p : List Form × ArgSpec}, os[i]? = some p → ∃ d, ds[i]? = some d := by
    intro i p hp
    have := (List.getElem?_eq_some_iff.1 hp).1
    exact ⟨_, List.getElem?_eq_some_iff.2 ⟨by rw [hi.declared]; exact this, rfl⟩⟩
  cases err with
  | optNullable => rfl
  | repNullable => rfl
  | repRepeating => rfl
  | altNullable => rfl
  | refTakesArg =>
    constructor
    · rintro ⟨k, l, o, hw, h1, h2⟩
      rw [← hle.option] at h1
      obtain ⟨n, i, h3, ⟨p, hp, hn⟩, h4⟩ := (optionOf_declared hi (lexOk_leaf hl hw)).1 h1
      obtain ⟨d, hd⟩ := hd hp
      obtain ⟨o', ho', h5, _⟩ := hi.options i d p hd hp
      cases h4.symm.trans ho'
      exact ⟨k, l, n, i, p, hw, h3, ⟨p, hp, hn⟩, hp, h5 ▸ h2⟩
    · rintro ⟨k, l, n, i, p, hw, h3, hH, hp, h2⟩
      obtain ⟨d, hd⟩ := hd hp
      obtain ⟨o, ho, h5, _⟩ := hi.options i d p hd hp
      refine ⟨k, l, o, hw, ?_, ?_⟩
      · rw [← hle.option]; exact (optionOf_declared hi (lexOk_leaf hl hw)).2 ⟨n, i, h3, hH, ho⟩
      · simp only [BadRef]; rw [h5]; exact h2
  | refShortCircuit =>
    constructor
    · rintro ⟨k, l, o, hw, h1, h2⟩
      rw [← hle.option] at h1
      obtain ⟨n, i, h3, ⟨p, hp, hn⟩, h4⟩ := (optionOf_declared hi (lexOk_leaf hl hw)).1 h1
      obtain ⟨d, hd⟩ := hd hp
      obtain ⟨o', ho', _, h5, _⟩ := hi.options i d p hd hp
      cases h4.symm.trans ho'
      exact ⟨k, l, n, i, d, hw, h3, ⟨p, hp, hn⟩, hd, h5.1 h2⟩
    · rintro ⟨k, l, n, i, d, hw, h3, ⟨p, hp, hn⟩, hd, h2⟩
      obtain ⟨o, ho, _, h5, _⟩ := hi.options i d p hd hp
      refine ⟨k, l, o, hw, ?_, h5.2 h2⟩
      rw [← hle.option]; exact (optionOf_declared hi (lexOk_leaf hl hw)).2 ⟨n, i, h3, ⟨p, hp, hn⟩, ho⟩
  | refFurtherArgs =>
    constructor
    · rintro ⟨k, l, o, hw, h1, h2⟩
      rw [← hle.option] at h1
      obtain ⟨n, i, h3, ⟨p, hp, hn⟩, h4⟩ := (optionOf_declared hi (lexOk_leaf hl hw)).1 h1
      obtain ⟨d, hd⟩ := hd hp
      obtain ⟨o', ho', _, _, h5, _⟩ := hi.options i d p hd hp
      cases h4.symm.trans ho'
      exact ⟨k, l, n, i, d, hw, h3, ⟨p, hp, hn⟩, hd, h5.1 h2⟩
    · rintro ⟨k, l, n, i, d, hw, h3, ⟨p, hp, hn⟩, hd, h2⟩
      obtain ⟨o, ho, _, _, h5, _⟩ := hi.options i d p hd hp
      refine ⟨k, l, o, hw, ?_, h5.2 h2⟩
      rw [← hle.option]; exact (optionOf_declared hi (lexOk_leaf hl hw)).2 ⟨n, i, h3, ⟨p, hp, hn⟩, ho⟩

end Verif.CliSpec
