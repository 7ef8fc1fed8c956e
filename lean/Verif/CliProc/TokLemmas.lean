import Verif.CliSpec.ConstructProps
import Verif.CliPattern.Props
import Verif.CliProc.ProcessSpec
/-!
The specification as seen by the processor.
-/
namespace Verif.CliProc

open Verif.CliPattern Verif.CliSpec

/-- The symbol that the pattern matcher is given. -/
def symOf (r : Registry) : Tok → Option PatternSymbol
  | .keyword l => (r.findKeyword l).map fun i => ⟨.keyword, i⟩
  | .option n => (protoNamed r n).map fun i => ⟨.protoOption, i⟩
  | .value => some ⟨.valueSlot, 0⟩

/-- What a symbol in a pattern is matched by. -/
def tokOf (x : LeafKind × Str) : Tok :=
  match x.1 with
  | .keyword => .keyword x.2
  | .short => .option (.short (x.2.getD 1 0))
  | .long => .option (.long (x.2.drop 2))
  | .slot => .value

/-- The pattern matcher has consumed what is in `u`. -/
def Tracks (c : Ctx) (m : Matcher) (u : List (Tok × Nat)) (m' : Matcher) : Prop :=
  ∃ l, Ran m l m' ∧ List.Forall₂ (fun (x : Tok × Nat) (y : PatternSymbol × Nat) => symOf c.reg x.1 = some y.1 ∧ x.2 = y.2) u l

/-- What is needed about the specification object and the pattern matcher. -/
structure Serves (D : Cmd) (c : Ctx) (m : Matcher) : Prop where
  known : ∀ n, protoNamed c.reg n ≠ none ↔ D.Known n
  proto : ∀ n i, protoNamed c.reg n = some i → ∃ p, c.reg.protos[i]? = some p ∧ (p.patternIndex.isSome = true ↔ D.InPattern n) ∧
    ∀ j, p.optionIndex = some j ↔ Has D.os j n
  option : ∀ n j, Has D.os j n → ∃ o, c.reg.options[j]? = some o ∧ (o.arg.allow = true ↔ D.Allows n) ∧ (o.arg.require = true ↔ D.Requires n) ∧
    (o.shortCircuit = true ↔ D.Shorts n) ∧ (o.furtherArgs = true ↔ D.EndsOptions n)
  unique : ∀ n j j', Has D.os j n → Has D.os j' n → j = j'
  plain : ∀ n, D.InPattern n → ¬ D.Allows n ∧ ¬ D.Shorts n ∧ ¬ D.EndsOptions n
  requires : ∀ n, D.Requires n → D.Allows n
  allows : ∀ n, D.Allows n → ¬ D.Shorts n ∧ ¬ D.EndsOptions n
  keyword : ∀ u l, D.Begins (u ++ [.keyword l]) → c.reg.findKeyword l ≠ none
  start : Tracks c m [] m
  consume : ∀ u m' t a i, Tracks c m u m' → i < c.args.length → symOf c.reg t = some a →
    (D.Begins (u.map Prod.fst ++ [t]) ∧ ∃ m'', m'.consume a i = some (some m'') ∧ Tracks c m (u ++ [(t, i)]) m'') ∨
    (¬ D.Begins (u.map Prod.fst ++ [t]) ∧ m'.consume a i = some none)
  isMatch : ∀ u m', Tracks c m u m' → (∃ k, m'.isMatch = some (some k) ∧ D.First k (u.map Prod.fst)) ∨
    (m'.isMatch = some none ∧ ∀ k, ¬ D.Accepts k (u.map Prod.fst))
  canConsume : ∀ u m', Tracks c m u m' → ∃ b, m'.canConsume = some b ∧ (b = true ↔ D.GoesOn (u.map Prod.fst))
  canDelegate : ∀ u m', Tracks c m u m' → ∃ b, m'.canDelegate = some b ∧ (b = true ↔ D.MayDelegate (u.map Prod.fst))
  deleg : ∀ k u, D.Accepts k u → ∃ p, c.patterns[k]? = some p ∧ (p.action.isDeleg = true ↔ D.IsDeleg k)
  last : ∀ k u v, D.First k u → D.IsDeleg k → v ≠ [] → ∀ j, ¬ D.Accepts j (u ++ v)

theorem within_of_matches {k : LeafKind} {l : Str} : ∀ {e : Expr} {v : List (LeafKind × Str)}, Matches e v → (k, l) ∈ v → Within (.leaf k l) e
  | .leaf _ _, v, h, hm => by
    simp only [Matches] at h
    subst h
    simp only [List.mem_singleton, Prod.mk.injEq] at hm
    obtain ⟨rfl, rfl⟩ := hm
    exact .here
  | .opt e, v, h, hm => by
    rcases h with rfl | h
    · cases hm
    · exact .opt (within_of_matches h hm)
  | .rep e, v, h, hm => by
    obtain ⟨ws, _, h1, rfl⟩ := h
    obtain ⟨w, h2, h3⟩ := List.mem_flatten.1 hm
    exact .rep (within_of_matches (h1 w h2) h3)
  | .jux a b, v, h, hm => by
    obtain ⟨x, y, h1, h2, rfl⟩ := h
    rcases List.mem_append.1 hm with h3 | h3
    · exact .juxLeft (within_of_matches h1 h3)
    · exact .juxRight (within_of_matches h2 h3)
  | .alt a b, v, h, hm => by
    rcases h with h | h
    · exact .altLeft (within_of_matches h hm)
    · exact .altRight (within_of_matches h hm)

theorem uses_of_matches {es : List (Option Expr)} {i : Nat} {oe : Option Expr} (hi : es[i]? = some oe) {v : List (LeafKind × Str)} (h : MatchesOpt oe v)
    {x : LeafKind × Str} (hm : x ∈ v) : Uses es x.1 x.2 := by
  cases oe with
  | none => simp only [MatchesOpt] at h; subst h; cases hm
  | some e => exact ⟨e, List.mem_of_getElem? hi, within_of_matches h hm⟩

theorem patOf_lang (σ : LeafKind → Str → PatternSymbol) (oe : Option Expr) (w : List PatternSymbol) :
    Lang (patOf σ oe) w ↔ ∃ v, MatchesOpt oe v ∧ w = v.map fun x => σ x.1 x.2 := by
  cases oe with
  | none => simp [patOf, Lang, MatchesOpt]
  | some e => exact C85_language σ e w

theorem forall₂_get {α β : Type} {P : α → β → Prop} : ∀ {xs : List α} {ys : List β}, List.Forall₂ P xs ys → ∀ {i : Nat} {y : β}, ys[i]? = some y →
    ∃ x, xs[i]? = some x ∧ P x y
  | _, _, .nil, i, y, h => by simp at h
  | _, _, .cons hp hr, 0, y, h => by simp only [List.getElem?_cons_zero, Option.some.injEq] at h; subst h; exact ⟨_, rfl, hp⟩
  | _, _, .cons hp hr, i + 1, y, h => by simp only [List.getElem?_cons_succ] at h ⊢; exact forall₂_get hr h

theorem forall₂_get' {α β : Type} {P : α → β → Prop} {xs : List α} {ys : List β} (h : List.Forall₂ P xs ys) {i : Nat} {x : α} (hx : xs[i]? = some x) :
    ∃ y, ys[i]? = some y ∧ P x y := forall₂_get (P := fun b a => P a b) h.flip hx

section
variable {env : Env} {D : Cmd} {c : Ctx} {m : Matcher}

theorem Made.lexOk (h : Made env D c m) {k : LeafKind} {l : Str} (hu : Uses D.es k l) : LexOk (.leaf k l) := by
  obtain ⟨e, h1, h2⟩ := hu
  obtain ⟨i, hi⟩ := List.mem_iff_getElem?.1 h1
  obtain ⟨d, hd, h3⟩ := forall₂_get h.patterns hi
  obtain ⟨ts, h4, h5⟩ := h3.means
  exact lexOk_leaf (denotes_leaves h5 fun t ht => (lexes_lexeme h4 t ht).1).lexOk h2

theorem Made.symbol (h : Made env D c m) {k : LeafKind} {l : Str} (hu : Uses D.es k l) : symbolOf c.reg k l ≠ none := by
  obtain ⟨ps, t, config, hty, hps, hb, hc⟩ := h.built
  have hE := h.patterns
  rw [hps] at hE
  obtain ⟨hkw, hkwu, hknown, hsame, hopt⟩ := C88_names h.he hty hb h.options hE
  have hl := h.lexOk hu
  cases k with
  | keyword => simpa [symbolOf] using (hkw l).2 hu
  | slot => simp [symbolOf]
  | short =>
    rw [symbolOf_name hl (n := .short (l.getD 1 0)) rfl]
    simpa using (hknown _).2 (Or.inr ⟨.short, l, hu, rfl⟩)
  | long =>
    rw [symbolOf_name hl (n := .long (l.drop 2)) rfl]
    simpa using (hknown _).2 (Or.inr ⟨.long, l, hu, rfl⟩)

theorem Made.takes (h : Made env D c m) {k : LeafKind} {l : Str} (hu : Uses D.es k l) (tk : Tok) : D.Takes tk k l ↔ symOf c.reg tk = symbolOf c.reg k l := by
  obtain ⟨ps, t, config, hty, hps, hb, hc⟩ := h.built
  have hE := h.patterns
  rw [hps] at hE
  obtain ⟨hkw, hkwu, hknown, hsame, hopt⟩ := C88_names h.he hty hb h.options hE
  have hl := h.lexOk hu
  cases hn : leafName k l with
  | none =>
    cases k with
    | keyword =>
      obtain ⟨i, hi⟩ := Option.ne_none_iff_exists'.1 ((hkw l).2 hu)
      simp only [symbolOf, hi]
      cases tk with
      | keyword l' =>
        simp only [Cmd.Takes, symOf, true_and, Option.map_some]
        constructor
        · rintro rfl; rw [hi]; rfl
        · intro h1
          obtain ⟨i', h2, h3⟩ := Option.map_eq_some_iff.1 h1
          cases h3
          exact hkwu l l' i hi h2
      | option n => simp [Cmd.Takes, symOf, leafName]
      | value => simp [Cmd.Takes, symOf]
    | slot =>
      cases tk with
      | keyword l' => simp [Cmd.Takes, symOf, symbolOf]
      | option n => simp [Cmd.Takes, symOf, leafName, symbolOf]
      | value => simp [Cmd.Takes, symOf, symbolOf]
    | short => cases hn
    | long => cases hn
  | some n' =>
    have hk : k ≠ .keyword ∧ k ≠ .slot := by constructor <;> rintro rfl <;> cases hn
    obtain ⟨i, hi⟩ := Option.ne_none_iff_exists'.1 ((hknown n').2 (Or.inr ⟨k, l, hu, hn⟩))
    rw [symbolOf_name hl hn, hi]
    cases tk with
    | keyword l' => simp [Cmd.Takes, symOf, hk.1]
    | value => simp [Cmd.Takes, symOf, hk.2]
    | option n =>
      simp only [Cmd.Takes, symOf, hn, Option.some.injEq, exists_eq_left', Option.map_some, Option.map_eq_some_iff, PatternSymbol.mk.injEq, true_and,
        exists_eq_right]
      rw [hsame n' n i hi]
      constructor
      · rintro (rfl | ⟨j, h1, h2⟩)
        · exact Or.inl rfl
        · exact Or.inr ⟨j, h2, h1⟩
      · rintro (rfl | ⟨j, h1, h2⟩)
        · exact Or.inl rfl
        · exact Or.inr ⟨j, h2, h1⟩

theorem Made.serves (h : Made env D c m) : Serves D c m := by
  obtain ⟨ps, t, config, hty, hps, hb, hc⟩ := h.built
  have hE := h.patterns
  rw [hps] at hE
  obtain ⟨hkw, hkwu, hknown, hsame, hopt⟩ := C88_names h.he hty hb h.options hE
  obtain ⟨⟨hlen, hops⟩, hmark, hplain⟩ := C88_options h.he hty hb h.options hE
  have hAU : ∀ n j j', Has D.os j n → Has D.os j' n → j = j' := by
    rintro n j j' ⟨p, hp, hn⟩ ⟨p', hp', hn'⟩
    exact h.options.2 j j' p p' n hp hp' hn hn'
  have hD : ∀ (n : OptName) (j : Nat), Has D.os j n → ∃ d p, D.ds[j]? = some d ∧ D.os[j]? = some p ∧ Declared env d p.1 p.2 := by
    rintro n j ⟨p, hp, _⟩
    obtain ⟨d, hd, h1⟩ := forall₂_get h.options.1 hp
    exact ⟨d, p, hd, hp, h1⟩
  let σ : LeafKind → Str → PatternSymbol := fun k l => (symbolOf c.reg k l).getD ⟨.keyword, 0⟩
  have hσ : Agrees c.reg σ := by intro k l s hs; simp [σ, hs]
  obtain ⟨hdesc, hclear, hne, hinfo⟩ := C88_patterns h.he hty hb h.options hE hσ
  -- symbols of what is used
  have hsymbol : ∀ x : LeafKind × Str, Uses D.es x.1 x.2 → symbolOf c.reg x.1 x.2 = some (σ x.1 x.2) := by
    rintro ⟨k, l⟩ hu
    obtain ⟨s, hs⟩ := Option.ne_none_iff_exists'.1 (h.symbol hu)
    simp [σ, hs]
  have htok : ∀ x : LeafKind × Str, Uses D.es x.1 x.2 → symOf c.reg (tokOf x) = some (σ x.1 x.2) ∧ D.Takes (tokOf x) x.1 x.2 := by
    rintro ⟨k, l⟩ hu
    rw [← hsymbol _ hu]
    have hl := h.lexOk hu
    cases k with
    | keyword => exact ⟨rfl, rfl, rfl⟩
    | slot => exact ⟨rfl, rfl⟩
    | short => exact ⟨(symbolOf_name hl (n := .short (l.getD 1 0)) rfl).symm, _, rfl, Or.inl rfl⟩
    | long => exact ⟨(symbolOf_name hl (n := .long (l.drop 2)) rfl).symm, _, rfl, Or.inl rfl⟩
  have htakes : ∀ (x : LeafKind × Str) (tk : Tok), Uses D.es x.1 x.2 → (D.Takes tk x.1 x.2 ↔ symOf c.reg tk = some (σ x.1 x.2)) := by
    intro x tk hu
    rw [← hsymbol _ hu]
    exact h.takes hu tk
  -- sequences
  have hseq : ∀ (u : List Tok) (w : List PatternSymbol) (v : List (LeafKind × Str)), (∀ x ∈ v, Uses D.es x.1 x.2) →
      List.Forall₂ (fun x y => symOf c.reg x = some y) u w →
      (List.Forall₂ (fun t (x : LeafKind × Str) => D.Takes t x.1 x.2) u v ↔ w = v.map fun x => σ x.1 x.2) := by
    intro u w v
    induction v generalizing u w with
    | nil =>
      intro _ h2
      constructor
      · intro h3; cases h3; cases h2; rfl
      · intro h3; subst h3; cases h2; exact .nil
    | cons x v ih =>
      intro h1 h2
      constructor
      · intro h3
        cases h3 with
        | cons h3 h4 =>
          cases h2 with
          | cons h5 h6 =>
            have := (htakes x _ (h1 x (by simp))).1 h3
            rw [h5] at this
            cases this
            simp only [List.map_cons, List.cons.injEq, true_and]
            exact (ih _ _ (fun y hy => h1 y (by simp [hy])) h6).1 h4
      · intro h3
        subst h3
        cases h2 with
        | cons h5 h6 =>
          exact .cons ((htakes x _ (h1 x (by simp))).2 h5) ((ih _ _ (fun y hy => h1 y (by simp [hy])) h6).2 rfl)
  have haccept : ∀ (k : Nat) (u : List Tok) (w : List PatternSymbol), List.Forall₂ (fun x y => symOf c.reg x = some y) u w →
      (D.Accepts k u ↔ ∃ p, (D.es.map (patOf σ))[k]? = some p ∧ Lang p w) := by
    intro k u w hw
    constructor
    · rintro ⟨oe, v, h1, h2, h3⟩
      refine ⟨patOf σ oe, by simp [h1], (patOf_lang σ oe w).2 ⟨v, h2, ?_⟩⟩
      exact (hseq u w v (fun x hx => uses_of_matches h1 h2 hx) hw).1 h3
    · rintro ⟨p, h1, h2⟩
      simp only [List.getElem?_map, Option.map_eq_some_iff] at h1
      obtain ⟨oe, h1, rfl⟩ := h1
      obtain ⟨v, h3, h4⟩ := (patOf_lang σ oe w).1 h2
      exact ⟨oe, v, h1, h3, (hseq u w v (fun x hx => uses_of_matches h1 h3 hx) hw).2 h4⟩
  -- a sequence of symbols that is part of a match is the symbols of some tokens
  have hcover : ∀ (k : Nat) (p : Pat) (w w' : List PatternSymbol), (D.es.map (patOf σ))[k]? = some p → Lang p (w ++ w') →
      ∃ u, List.Forall₂ (fun x y => symOf c.reg x = some y) u w' := by
    intro k p w w' h1 h2
    simp only [List.getElem?_map, Option.map_eq_some_iff] at h1
    obtain ⟨oe, h1, rfl⟩ := h1
    obtain ⟨v, h3, h4⟩ := (patOf_lang σ oe _).1 h2
    obtain ⟨v1, v2, rfl, h5, h6⟩ := List.map_eq_append_iff.1 h4.symm
    refine ⟨v2.map tokOf, ?_⟩
    subst h6
    rw [List.forall₂_map_left_iff, List.forall₂_map_right_iff, List.forall₂_same]
    exact fun x hx => (htok x (uses_of_matches h1 h3 (by simp [hx]))).1
  -- a sequence of tokens that is part of a match has symbols
  have hsyms : ∀ (k : Nat) (u : List Tok), D.Accepts k u → ∃ w, List.Forall₂ (fun x y => symOf c.reg x = some y) u w := by
    rintro k u ⟨oe, v, h1, h2, h3⟩
    refine ⟨v.map fun x => σ x.1 x.2, ?_⟩
    rw [List.forall₂_map_right_iff]
    have : ∀ x ∈ v, Uses D.es x.1 x.2 := fun x hx => uses_of_matches h1 h2 hx
    clear h2
    induction h3 with
    | nil => exact .nil
    | cons h4 _ ih => exact .cons ((htakes _ _ (this _ (by simp))).1 h4) (ih fun x hx => this x (by simp [hx]))
  have hext : ∀ (u : List Tok) (w : List PatternSymbol), List.Forall₂ (fun x y => symOf c.reg x = some y) u w → ∀ (Q : Nat → Prop) (E : Nat → Prop),
      ((∃ k v, Q k ∧ E v.length ∧ D.Accepts k (u ++ v)) ↔ ∃ k p w', Q k ∧ E w'.length ∧ (D.es.map (patOf σ))[k]? = some p ∧ Lang p (w ++ w')) := by
    intro u w hw Q E
    constructor
    · rintro ⟨k, v, h1, h2, h3⟩
      obtain ⟨w2, h4⟩ := hsyms k _ h3
      have hl : u.length ≤ w2.length := by have := h4.length_eq; simp at this; omega
      have h5 : List.Forall₂ (fun x y => symOf c.reg x = some y) v (w2.drop u.length) := by
        have := List.forall₂_drop u.length h4
        simpa using this
      have h6 : List.Forall₂ (fun x y => symOf c.reg x = some y) (u ++ v) (w ++ w2.drop u.length) := List.rel_append hw h5
      obtain ⟨p, h7, h8⟩ := (haccept k _ _ h6).1 h3
      exact ⟨k, p, _, h1, by rw [← h5.length_eq]; exact h2, h7, h8⟩
    · rintro ⟨k, p, w', h1, h2, h3, h4⟩
      obtain ⟨v, h5⟩ := hcover k p w w' h3 h4
      exact ⟨k, v, h1, by rw [h5.length_eq]; exact h2, (haccept k _ _ (List.rel_append hw h5)).2 ⟨p, h3, h4⟩⟩
  have hdl : ∀ k, D.IsDeleg k ↔ ∃ sp, (c.patterns.map PatternInfo.spec)[k]? = some sp ∧ sp.isDeleg = true := by
    intro k
    rw [← hps] at hinfo
    simp only [Cmd.IsDeleg, List.getElem?_map, Option.map_eq_some_iff]
    constructor
    · rintro ⟨d, h1, h2⟩
      obtain ⟨p, h3, h4⟩ := forall₂_get' hinfo h1
      exact ⟨p.spec, ⟨p, h3, rfl⟩, by rw [← h2, ← h4.1]; rfl⟩
    · rintro ⟨sp, ⟨p, h1, rfl⟩, h2⟩
      obtain ⟨d, h3, h4⟩ := forall₂_get hinfo h1
      exact ⟨d, h3, by rw [← h4.1]; exact h2⟩
  have hrel : ∀ {u : List (Tok × Nat)} {l : List (PatternSymbol × Nat)},
      List.Forall₂ (fun (x : Tok × Nat) (y : PatternSymbol × Nat) => symOf c.reg x.1 = some y.1 ∧ x.2 = y.2) u l →
      List.Forall₂ (fun x y => symOf c.reg x = some y) (u.map Prod.fst) (l.map Prod.fst) := by
    intro u l h1
    rw [List.forall₂_map_left_iff, List.forall₂_map_right_iff]
    exact h1.imp fun _ _ h => h.1
  have hne' : c.patterns.map PatternInfo.spec ≠ [] := by simpa using hne
  have hnum : m.numArgs = c.args.length := (constructed hdesc hne' hc).2.2.1
  exact {
    known := fun n => (hknown n)
    proto := by
      intro n i hi
      obtain ⟨p, h1, h2⟩ := hmark n i hi
      refine ⟨p, h1, ?_, ?_⟩
      · rw [Option.isSome_iff_ne_none]; exact h2
      · intro j
        rw [← hopt n j]
        simp [optionNamed, hi, h1]
    option := by
      intro n j hj
      obtain ⟨d, p, hd, hp, h1⟩ := hD n j hj
      obtain ⟨o, h2, h3, h4, h5, _⟩ := hops j d p hd hp
      refine ⟨o, h2, ?_, ?_, ?_, ?_⟩
      · rw [h3]
        constructor
        · intro h6; exact ⟨j, p, hj, hp, h6⟩
        · rintro ⟨j', p', h6, h7, h8⟩; cases hAU n j j' hj h6; rw [hp] at h7; cases h7; exact h8
      · rw [h3]
        constructor
        · intro h6; exact ⟨j, p, hj, hp, h6⟩
        · rintro ⟨j', p', h6, h7, h8⟩; cases hAU n j j' hj h6; rw [hp] at h7; cases h7; exact h8
      · rw [h4]
        constructor
        · intro h6; exact ⟨j, d, hj, hd, h6⟩
        · rintro ⟨j', p', h6, h7, h8⟩; cases hAU n j j' hj h6; rw [hd] at h7; cases h7; exact h8
      · rw [h5]
        constructor
        · intro h6; exact ⟨j, d, hj, hd, h6⟩
        · rintro ⟨j', p', h6, h7, h8⟩; cases hAU n j j' hj h6; rw [hd] at h7; cases h7; exact h8
    unique := hAU
    plain := by
      intro n hn
      have key := hplain n
      refine ⟨?_, ?_, ?_⟩
      · rintro ⟨j, p, h1, h2, h3⟩
        obtain ⟨d, _, hd, _⟩ := hD n j h1
        have := (key j d p hn h1 hd h2).1
        simp [this] at h3
      · rintro ⟨j, d, h1, h2, h3⟩
        obtain ⟨_, p, _, hp, _⟩ := hD n j h1
        exact (key j d p hn h1 h2 hp).2.1 h3
      · rintro ⟨j, d, h1, h2, h3⟩
        obtain ⟨_, p, _, hp, _⟩ := hD n j h1
        exact (key j d p hn h1 h2 hp).2.2 h3
    requires := by
      rintro n ⟨j, p, h1, h2, h3⟩
      obtain ⟨d, p', hd, hp, h4⟩ := hD n j h1
      rw [hp] at h2
      cases h2
      refine ⟨j, p, h1, hp, ?_⟩
      have := h4.arg
      generalize hq : p.2 = q at this h3
      cases this <;> simp_all
    allows := by
      rintro n ⟨j, p, h1, h2, h3⟩
      obtain ⟨d, p', hd, hp, h4⟩ := hD n j h1
      rw [hp] at h2
      cases h2
      obtain ⟨h5, h6⟩ := h4.plain h3
      constructor
      · rintro ⟨j', d', h7, h8, h9⟩; cases hAU n j j' h1 h7; rw [hd] at h8; cases h8; exact h5 h9
      · rintro ⟨j', d', h7, h8, h9⟩; cases hAU n j j' h1 h7; rw [hd] at h8; cases h8; exact h6 h9
    keyword := by
      rintro u l ⟨k, v, h1⟩
      obtain ⟨w, h2⟩ := hsyms k _ h1
      have h3 : List.Forall₂ (fun x y => symOf c.reg x = some y) ([.keyword l] ++ v) (w.drop u.length) := by
        have := List.forall₂_drop u.length h2
        simpa using this
      generalize w.drop u.length = w' at h3
      cases h3 with
      | cons h4 _ =>
        intro h5
        simp [symOf, h5] at h4
    start := ⟨[], .start, .nil⟩
    consume := by
      rintro u m' tk a i ⟨l, h1, h2⟩ hi ha
      obtain ⟨h3, h4⟩ := C80_consume hdesc hne' hc h1 a hi
      have h5 : D.Begins (u.map Prod.fst ++ [tk]) ↔ ∃ p ∈ D.es.map (patOf σ), ∃ v, Lang p (l.map Prod.fst ++ a :: v) := by
        have := hext (u.map Prod.fst ++ [tk]) (l.map Prod.fst ++ [a]) (List.rel_append (hrel h2) (.cons ha .nil)) (fun _ => True) (fun _ => True)
        simp only [true_and] at this
        rw [Cmd.Begins, this]
        constructor
        · rintro ⟨k, p, w', h6, h7⟩
          exact ⟨p, List.mem_of_getElem? h6, w', by simpa using h7⟩
        · rintro ⟨p, h6, w', h7⟩
          obtain ⟨k, h8⟩ := List.mem_iff_getElem?.1 h6
          exact ⟨k, p, w', h8, by simpa using h7⟩
      rw [← h5] at h3 h4
      by_cases hB : D.Begins (u.map Prod.fst ++ [tk])
      · obtain ⟨m'', h6⟩ := h3.2 hB
        exact Or.inl ⟨hB, m'', h6, l ++ [(a, i)], .step h1 (by rw [hnum]; exact hi) h6, List.rel_append h2 (.cons ⟨ha, rfl⟩ .nil)⟩
      · exact Or.inr ⟨hB, h4.2 hB⟩
    isMatch := by
      rintro u m' ⟨l, h1, h2⟩
      obtain ⟨r, h3, h4, h5⟩ := C80_is_match hdesc hne' hc h1
      have h6 := fun k => haccept k _ _ (hrel h2)
      cases r with
      | none =>
        refine Or.inr ⟨h3, fun k hk => ?_⟩
        obtain ⟨p, h7, h8⟩ := (h6 k).1 hk
        exact h5.1 rfl p (List.mem_of_getElem? h7) h8
      | some k =>
        refine Or.inl ⟨k, h3, ?_⟩
        obtain ⟨h7, h8⟩ := (h4 k).1 rfl
        refine ⟨(h6 k).2 h7, fun j hj hA => ?_⟩
        obtain ⟨p, h9, h10⟩ := (h6 j).1 hA
        exact h8 j p hj h9 h10
    canConsume := by
      rintro u m' ⟨l, h1, h2⟩
      obtain ⟨b, h3, h4⟩ := C80_can_consume hdesc hne' hc h1
      refine ⟨b, h3, h4.trans ?_⟩
      have := hext _ _ (hrel h2) (fun _ => True) (fun n => n ≠ 0)
      simp only [true_and, ne_eq, List.length_eq_zero_iff] at this
      rw [Cmd.GoesOn]
      simp only [ne_eq]
      rw [this]
      constructor
      · rintro ⟨p, h6, w', h7, h8⟩
        obtain ⟨k, h9⟩ := List.mem_iff_getElem?.1 h6
        exact ⟨k, p, w', h7, h9, h8⟩
      · rintro ⟨k, p, w', h6, h7, h8⟩
        exact ⟨p, List.mem_of_getElem? h7, w', h6, h8⟩
    canDelegate := by
      rintro u m' ⟨l, h1, h2⟩
      obtain ⟨b, h3, h4⟩ := C80_can_delegate hdesc hne' hc h1
      refine ⟨b, h3, h4.trans ?_⟩
      have := hext _ _ (hrel h2) D.IsDeleg (fun _ => True)
      simp only [true_and] at this
      rw [Cmd.MayDelegate, this]
      constructor
      · rintro ⟨k, sp, p, h5, h6, h7, v, h8⟩
        exact ⟨k, p, v, (hdl k).2 ⟨sp, h5, h6⟩, h7, h8⟩
      · rintro ⟨k, p, v, h5, h6, h7⟩
        obtain ⟨sp, h8, h9⟩ := (hdl k).1 h5
        exact ⟨k, sp, p, h8, h9, h6, v, h7⟩
    deleg := by
      rintro k u ⟨oe, v, h1, _⟩
      rw [← hps] at hinfo
      obtain ⟨d, h2, _⟩ := forall₂_get h.patterns h1
      obtain ⟨p, h3, h4⟩ := forall₂_get' hinfo h2
      refine ⟨p, h3, ?_⟩
      rw [h4.1]
      constructor
      · exact fun h5 => ⟨d, h2, h5⟩
      · rintro ⟨d', h5, h6⟩; rw [h2] at h5; cases h5; exact h6
    last := by
      rintro k u v ⟨hA, hF⟩ hk hv j hj
      obtain ⟨w, hw⟩ := hsyms k u hA
      obtain ⟨sp, h1, h2⟩ := (hdl k).1 hk
      obtain ⟨p, h3, h4⟩ := (haccept k u w hw).1 hA
      have := (hext u w hw (fun _ => True) (fun n => n ≠ 0)).1 ⟨j, v, trivial, by simpa using hv, hj⟩
      obtain ⟨k', p', w', _, h5, h6, h7⟩ := this
      have h8 := ((C81_succeeds hdesc hne' config c.args.length).1 ⟨m, hc⟩).2.2 k sp p w w' h1 h2 h3 h4 (by
        intro j' q hj' hq hl
        exact hF j' hj' ((haccept j' u w hw).2 ⟨q, hq, hl⟩)) (by rintro rfl; simp at h5) p' (List.mem_of_getElem? h6)
      exact h8 h7 }

end

end Verif.CliProc
