import Verif.CliSpec.OptionsSpec
import Verif.CliSpec.ParserProps
/-!
Parsing of the forms and the argument of an option.
-/
namespace Verif.CliSpec

open Verif.CliPattern

variable {env : Env}

/-- The outcome if the limit on the depth of recursion is high enough. -/
def Evt {α : Type} (F : Nat → α) (R : α) : Prop := ∃ n, ∀ f, n ≤ f → F f = R

theorem Evt.unique {α : Type} {F : Nat → α} {R R' : α} (h : Evt F R) (h' : Evt F R') : R = R' := by
  obtain ⟨n, hn⟩ := h
  obtain ⟨m, hm⟩ := h'
  exact (hn (n + m) (by omega)).symm.trans (hm (n + m) (by omega))

theorem Evt.shift {α : Type} {F : Nat → α} {R : α} (h : Evt (fun f => F (f + 1)) R) : Evt F R := by
  obtain ⟨n, hn⟩ := h
  refine ⟨n + 1, fun f hf => ?_⟩
  have := hn (f - 1) (by omega)
  dsimp only at this
  rwa [Nat.sub_add_cancel (by omega)] at this

theorem Evt.of {α : Type} {F : Nat → α} {R : α} (h : ∀ f, F f = R) : Evt F R := ⟨0, fun f _ => h f⟩

theorem Evt.congr {α : Type} {F G : Nat → α} {R : α} (h : Evt G R) (hF : ∀ f, F f = G f) : Evt F R := by
  obtain ⟨n, hn⟩ := h
  exact ⟨n, fun f hf => (hF f).trans (hn f hf)⟩

theorem Evt.then {α β : Type} {F : Nat → α} {a : α} {G : Nat → α → β} {R : β} (h : Evt F a) (h' : Evt (fun f => G f a) R) :
    Evt (fun f => G f (F f)) R := by
  obtain ⟨n, hn⟩ := h
  obtain ⟨m, hm⟩ := h'
  refine ⟨n + m, fun f hf => ?_⟩
  dsimp only
  rw [hn f (by omega)]
  exact hm f (by omega)

/-- The ways in which the parsing of a list of expressions can go. -/
theorem list_cases (he : EnvOk env) (s : Str) :
    (Lexes env s [] ∧ ∃ st, resetParser env s = .ok (false, st)) ∨
    (∃ es ts st0 r st', Lexes env s ts ∧ Listed es ts ∧ resetParser env s = .ok (true, st0) ∧ Ev (fun f => parseAll env f st0) (.ok (r, st')) ∧
      Forest st'.nodes es r.nodeIndex) ∨
    (¬ (∃ ts, Lexes env s ts ∧ (ts = [] ∨ ∃ es, Listed es ts)) ∧ ((∃ err, resetParser env s = .error (.error err)) ∨
      ∃ st0 err, resetParser env s = .ok (true, st0) ∧ Ev (fun f => parseAll env f st0) (.error (.error err)))) := by
  by_cases hx : ∃ ts, Lexes env s ts ∧ (ts = [] ∨ ∃ es, Listed es ts)
  · obtain ⟨ts, hx, rfl | ⟨es, hl⟩⟩ := hx
    · left
      refine ⟨hx, ?_⟩
      cases hx with
      | done h1 h2 =>
        have := reset_eq ((extract_iff he).2 h1)
        exact ⟨firstState _ _, by rw [this]; simp [h2]; rfl⟩
    · obtain ⟨st0, r, st', h1, h2, h3, _⟩ := all_complete he hx hl
      exact Or.inr (Or.inl ⟨es, ts, st0, r, st', hx, hl, h1, h2, h3⟩)
  · refine Or.inr (Or.inr ⟨hx, ?_⟩)
    rcases h0 : resetParser env s with e | ⟨b, st0⟩
    · cases e with
      | error err => exact Or.inl ⟨err, rfl⟩
      | unfinished =>
        simp only [resetParser, bind, Except.bind] at h0
        split at h0
        · rename_i h2
          cases h0
          exact absurd h2 (advance_total _)
        · cases h0
    · obtain ⟨t, rest, h1, h2, h3⟩ := reset_inv h0
      cases b with
      | false =>
        have ht : t.type = .endOfInput := by simpa using h2
        have h4 := (extract_iff he).1 h1
        cases starts_end h4 ht
        exact absurd ⟨[], .done h4 ht, Or.inl rfl⟩ hx
      | true =>
        obtain ⟨R, ⟨n, hn⟩, hR⟩ := all_ends he st0
        cases R with
        | ok a =>
          obtain ⟨es, ts, h4, h5, _⟩ := all_sound he h0 (hn n (Nat.le_refl _))
          exact absurd ⟨ts, h4, Or.inr ⟨es, h5⟩⟩ hx
        | error e =>
          cases e with
          | unfinished => exact absurd rfl hR
          | error err => exact Or.inr ⟨st0, err, rfl, n, hn⟩

theorem forms_tree {nodes : List Node} {e : Expr} {i : Nat} (h : Tree nodes e i) :
    (∃ f, e = formExpr f ∧ ∀ fuel buf, getOptionForms nodes (fuel + 1) i buf = some (true, buf ++ [f])) ∨
    ((∀ f, e ≠ formExpr f) ∧ ∀ fuel buf, getOptionForms nodes (fuel + 1) i buf = some (false, buf)) := by
  cases e with
  | leaf k l =>
    obtain ⟨n, h1, h2, h3⟩ := h
    cases k with
    | short => exact Or.inl ⟨⟨false, l⟩, rfl, fun fuel buf => by simp [getOptionForms, h1, h2, leafType, h3]⟩
    | long => exact Or.inl ⟨⟨true, l⟩, rfl, fun fuel buf => by simp [getOptionForms, h1, h2, leafType, h3]⟩
    | keyword =>
      refine Or.inr ⟨fun f hf => ?_, fun fuel buf => by simp [getOptionForms, h1, h2, leafType]⟩
      simp only [formExpr, Expr.leaf.injEq] at hf
      split at hf <;> cases hf.1
    | slot =>
      refine Or.inr ⟨fun f hf => ?_, fun fuel buf => by simp [getOptionForms, h1, h2, leafType]⟩
      simp only [formExpr, Expr.leaf.injEq] at hf
      split at hf <;> cases hf.1
  | _ =>
    obtain ⟨n, h1, h2, h3⟩ := h
    exact Or.inr ⟨fun f hf => (by cases hf), fun fuel buf => by simp [getOptionForms, h1, h2]⟩

theorem forms_forest {nodes : List Node} {es : List Expr} {i : Nat} (h : Forest nodes es i) :
    (∃ fs, es = fs.map formExpr ∧ ∀ buf, Evt (fun f => getOptionForms nodes f i buf) (some (true, buf ++ fs))) ∨
    ((∀ fs : List Form, es ≠ fs.map formExpr) ∧ ∀ buf, ∃ b, Evt (fun f => getOptionForms nodes f i buf) (some (false, b))) := by
  induction h with
  | one h =>
    rcases forms_tree h with ⟨f, rfl, hf⟩ | ⟨hn, hf⟩
    · exact Or.inl ⟨[f], rfl, fun buf => Evt.shift (Evt.of fun fuel => hf fuel buf)⟩
    · refine Or.inr ⟨fun fs hfs => ?_, fun buf => ⟨buf, Evt.shift (Evt.of fun fuel => hf fuel buf)⟩⟩
      cases fs with
      | nil => cases hfs
      | cons f fs =>
        simp only [List.map_cons, List.cons.injEq] at hfs
        exact hn f hfs.1
  | @more es e i n h1 h2 _ h3 ih =>
    rcases ih with ⟨fs, rfl, hf⟩ | ⟨hn, hf⟩
    · rcases forms_tree h3 with ⟨f, rfl, hf'⟩ | ⟨hn, hf'⟩
      · refine Or.inl ⟨fs ++ [f], by simp, fun buf => Evt.shift ?_⟩
        refine Evt.congr (G := fun fuel => do
          let (good, buffer) ← getOptionForms nodes fuel n.left buf
          if good then getOptionForms nodes fuel n.right buffer else some (false, buffer)) ?_ fun fuel => by simp [getOptionForms, h1, h2]
        obtain ⟨m, hm⟩ := hf buf
        refine ⟨m + 1, fun fuel hfl => ?_⟩
        obtain ⟨k, rfl⟩ : ∃ k, fuel = k + 1 := ⟨fuel - 1, by omega⟩
        simp [hm (k + 1) (by omega), hf']
      · refine Or.inr ⟨fun gs hgs => ?_, fun buf => ⟨buf ++ fs, Evt.shift ?_⟩⟩
        · obtain ⟨g, hg⟩ : ∃ g, e = formExpr g := by
            have : e ∈ gs.map formExpr := hgs ▸ (by simp)
            obtain ⟨g, _, hg⟩ := List.mem_map.1 this
            exact ⟨g, hg.symm⟩
          exact hn g hg
        · refine Evt.congr (G := fun fuel => do
            let (good, buffer) ← getOptionForms nodes fuel n.left buf
            if good then getOptionForms nodes fuel n.right buffer else some (false, buffer)) ?_ fun fuel => by simp [getOptionForms, h1, h2]
          obtain ⟨m, hm⟩ := hf buf
          refine ⟨m + 1, fun fuel hfl => ?_⟩
          obtain ⟨k, rfl⟩ : ∃ k, fuel = k + 1 := ⟨fuel - 1, by omega⟩
          simp [hm (k + 1) (by omega), hf']
    · refine Or.inr ⟨fun gs hgs => ?_, fun buf => ?_⟩
      · have h4 : es = (gs.take es.length).map formExpr := by
          rw [List.map_take, ← hgs]; simp
        exact hn _ h4
      · obtain ⟨b, m, hm⟩ := hf buf
        refine ⟨b, Evt.shift ⟨m, fun fuel hfl => ?_⟩⟩
        simp [getOptionForms, h1, h2, hm fuel hfl]

theorem lexes_nil_not_listed (he : EnvOk env) {s : Str} {ts : List Token} {es : List Expr} (h : Lexes env s []) (h' : Lexes env s ts)
    (hl : Listed es ts) : False := by
  cases lexes_unique he h h'
  exact hl.ne rfl

/-- The ways in which the parsing of option forms can go. -/
theorem forms_cases (he : EnvOk env) (s : Str) :
    (∃ fs, FormsOf env s fs ∧ Evt (fun f => parseOptionForms env f s) (some (.ok fs))) ∨
    ((¬ ∃ fs, FormsOf env s fs) ∧ ∃ err, Evt (fun f => parseOptionForms env f s) (some (.error (.error err)))) := by
  rcases list_cases he s with ⟨h1, st, h2⟩ | ⟨es, ts, st0, r, st', h1, h2, h3, h4, h5⟩ | ⟨h1, h2⟩
  · exact Or.inl ⟨[], Or.inl ⟨h1, rfl⟩, Evt.of fun f => by simp [parseOptionForms, h2]⟩
  · obtain ⟨n, hn⟩ := h4
    rcases forms_forest h5 with ⟨fs, rfl, hf⟩ | ⟨hf1, hf2⟩
    · refine Or.inl ⟨fs, Or.inr ⟨ts, h1, h2⟩, ?_⟩
      obtain ⟨m, hm⟩ := hf []
      refine ⟨n + m, fun f hfl => ?_⟩
      have e1 := hn f (by omega)
      have e2 := hm f (by omega)
      dsimp only at e1 e2
      simp [parseOptionForms, h3, e1, e2]
    · refine Or.inr ⟨?_, .syntaxError, ?_⟩
      · rintro ⟨fs, ⟨hx, _⟩ | ⟨ts', hx, hl⟩⟩
        · exact lexes_nil_not_listed he hx h1 h2
        · exact hf1 fs (listed_unique he h1 hx h2 hl).2
      · obtain ⟨b, m, hm⟩ := hf2 []
        refine ⟨n + m, fun f hfl => ?_⟩
        have e1 := hn f (by omega)
        have e2 := hm f (by omega)
        dsimp only at e1 e2
        simp [parseOptionForms, h3, e1, e2]
  · refine Or.inr ⟨?_, ?_⟩
    · rintro ⟨fs, ⟨hx, _⟩ | ⟨ts', hx, hl⟩⟩
      · exact h1 ⟨_, hx, Or.inl rfl⟩
      · exact h1 ⟨_, hx, Or.inr ⟨_, hl⟩⟩
    · rcases h2 with ⟨err, h2⟩ | ⟨st0, err, h2, n, hn⟩
      · exact ⟨err, Evt.of fun f => by simp [parseOptionForms, h2]⟩
      · refine ⟨err, n, fun f hfl => ?_⟩
        have e1 := hn f hfl
        dsimp only at e1
        simp [parseOptionForms, h2, e1]

theorem formExpr_inj {f g : Form} (h : formExpr f = formExpr g) : f = g := by
  rcases f with ⟨b, l⟩
  rcases g with ⟨b', l'⟩
  simp only [formExpr, Expr.leaf.injEq] at h
  obtain ⟨h1, rfl⟩ := h
  cases b <;> cases b' <;> simp at h1 ⊢

theorem FormsOf.unique (he : EnvOk env) {s : Str} {fs fs' : List Form} (h : FormsOf env s fs) (h' : FormsOf env s fs') : fs = fs' := by
  rcases h with ⟨h1, rfl⟩ | ⟨ts, h1, h2⟩ <;> rcases h' with ⟨h1', rfl⟩ | ⟨ts', h1', h2'⟩
  · rfl
  · exact (lexes_nil_not_listed he h1 h1' h2').elim
  · exact (lexes_nil_not_listed he h1' h1 h2).elim
  · exact List.map_injective_iff.2 (fun _ _ => formExpr_inj) (listed_unique he h1 h1' h2 h2').2

theorem Listed.leaves {es : List Expr} {ts : List Token} (h : Listed es ts) (hl : ∀ t ∈ ts, IsLexeme env t.type t.lexeme) :
    ∀ e ∈ es, LeavesOk env e := by
  induction h with
  | one h =>
    intro e he
    cases List.mem_singleton.1 he
    exact denotes_leaves h hl
  | more _ _ h ih =>
    intro e he
    rcases List.mem_append.1 he with he | he
    · exact ih (fun t ht => hl t (by simp [ht])) e he
    · cases List.mem_singleton.1 he
      exact denotes_leaves h fun t ht => hl t (by simp [ht])

/-- The forms of an option are well-formed. -/
theorem FormsOf.lexeme {s : Str} {fs : List Form} (h : FormsOf env s fs) : ∀ f ∈ fs, IsLexeme env (if f.isLong then .longOption else .shortOption) f.lexeme := by
  intro f hf
  rcases h with ⟨_, rfl⟩ | ⟨ts, h1, h2⟩
  · cases hf
  · have := h2.leaves (fun t ht => (lexes_lexeme h1 t ht).1) (formExpr f) (List.mem_map_of_mem hf) _ _ .here
    cases hb : f.isLong <;> simpa [hb, leafToken] using this

theorem FormsOf.long {s : Str} {fs : List Form} (h : FormsOf env s fs) : ∀ f ∈ fs, 2 ≤ f.lexeme.length := by
  intro f hf
  have := h.lexeme f hf
  cases hb : f.isLong <;> simp only [hb] at this
  · obtain ⟨c, h1, _⟩ := this
    simp [h1]
  · obtain ⟨c, h1, _⟩ := this
    simp [h1]

theorem arg_tree {nodes : List Node} {e : Expr} {i : Nat} (h : Tree nodes e i) :
    (∃ l, e = .leaf .slot l ∧ ∀ fuel b, getOptionArgSpec nodes (fuel + 1) i b = some (some ⟨true, !b⟩)) ∨
    ((∀ l, e ≠ .leaf .slot l) ∧ ∀ fuel, getOptionArgSpec nodes (fuel + 1) i true = some none) := by
  cases e with
  | leaf k l =>
    obtain ⟨n, h1, h2, h3⟩ := h
    cases k with
    | slot => exact Or.inl ⟨l, rfl, fun fuel b => by simp [getOptionArgSpec, h1, h2, leafType]⟩
    | _ => exact Or.inr ⟨fun l hl => (by cases hl), fun fuel => by simp [getOptionArgSpec, h1, h2, leafType]⟩
  | _ =>
    obtain ⟨n, h1, h2, h3⟩ := h
    exact Or.inr ⟨fun f hf => (by cases hf), fun fuel => by simp [getOptionArgSpec, h1, h2]⟩

theorem arg_tree2 {nodes : List Node} {e : Expr} {i : Nat} (h : Tree nodes e i) :
    ((∃ l, e = .leaf .slot l) ∧ Evt (fun f => getOptionArgSpec nodes f i false) (some (some ⟨true, true⟩))) ∨
    ((∃ l, e = .opt (.leaf .slot l)) ∧ Evt (fun f => getOptionArgSpec nodes f i false) (some (some ⟨true, false⟩))) ∨
    ((∀ l, e ≠ .leaf .slot l) ∧ (∀ l, e ≠ .opt (.leaf .slot l)) ∧ Evt (fun f => getOptionArgSpec nodes f i false) (some none)) := by
  cases e with
  | leaf k l =>
    obtain ⟨n, h1, h2, h3⟩ := h
    cases k with
    | slot => exact Or.inl ⟨⟨l, rfl⟩, Evt.shift (Evt.of fun fuel => by simp [getOptionArgSpec, h1, h2, leafType])⟩
    | _ => exact Or.inr (Or.inr ⟨fun l hl => (by cases hl), fun l hl => (by cases hl), Evt.shift (Evt.of fun fuel => by simp [getOptionArgSpec, h1, h2, leafType])⟩)
  | opt a =>
    obtain ⟨n, h1, h2, h3⟩ := h
    rcases arg_tree h3 with ⟨l, rfl, h4⟩ | ⟨h4, h5⟩
    · exact Or.inr (Or.inl ⟨⟨l, rfl⟩, Evt.shift (Evt.shift (Evt.of fun fuel => by simp [getOptionArgSpec, h1, h2]; exact h4 fuel true))⟩)
    · refine Or.inr (Or.inr ⟨fun l hl => (by cases hl), fun l hl => ?_, Evt.shift (Evt.shift (Evt.of fun fuel => by simp [getOptionArgSpec, h1, h2]; exact h5 fuel))⟩)
      cases hl
      exact h4 l rfl
  | _ =>
    obtain ⟨n, h1, h2, h3⟩ := h
    exact Or.inr (Or.inr ⟨fun f hf => (by cases hf), fun f hf => (by cases hf), Evt.shift (Evt.of fun fuel => by simp [getOptionArgSpec, h1, h2])⟩)

theorem arg_forest {nodes : List Node} {es : List Expr} {i : Nat} (h : Forest nodes es i) :
    ((∃ l, es = [.leaf .slot l]) ∧ Evt (fun f => getOptionArgSpec nodes f i false) (some (some ⟨true, true⟩))) ∨
    ((∃ l, es = [.opt (.leaf .slot l)]) ∧ Evt (fun f => getOptionArgSpec nodes f i false) (some (some ⟨true, false⟩))) ∨
    ((∀ l, es ≠ [.leaf .slot l]) ∧ (∀ l, es ≠ [.opt (.leaf .slot l)]) ∧ Evt (fun f => getOptionArgSpec nodes f i false) (some none)) := by
  cases h with
  | one h => simpa using arg_tree2 h
  | @more es e _ n h1 h2 h3 h4 =>
    have hp : 0 < es.length := by cases h3 <;> simp
    have hne : ∀ x, es ++ [e] ≠ [x] := by
      intro x hx
      have := congrArg List.length hx
      simp only [List.length_append, List.length_cons, List.length_nil] at this
      omega
    exact Or.inr (Or.inr ⟨fun l => hne _, fun l => hne _, Evt.shift (Evt.of fun fuel => by simp [getOptionArgSpec, h1, h2])⟩)

theorem ArgOf.listed {s : Str} {a : ArgSpec} (h : ArgOf env s a) : (Lexes env s [] ∧ a = ⟨false, false⟩) ∨
    ∃ ts l, Lexes env s ts ∧ ((Listed [.leaf .slot l] ts ∧ a = ⟨true, true⟩) ∨ (Listed [.opt (.leaf .slot l)] ts ∧ a = ⟨true, false⟩)) := by
  cases h with
  | absent h => exact Or.inl ⟨h, rfl⟩
  | required h h' => exact Or.inr ⟨_, _, h, Or.inl ⟨.one h', rfl⟩⟩
  | optional h h' => exact Or.inr ⟨_, _, h, Or.inr ⟨.one h', rfl⟩⟩

/-- The ways in which the parsing of an option argument can go. -/
theorem arg_cases (he : EnvOk env) (s : Str) :
    (∃ a, ArgOf env s a ∧ Evt (fun f => parseOptionArg env f s) (some (.ok a))) ∨
    ((¬ ∃ a, ArgOf env s a) ∧ ∃ err, Evt (fun f => parseOptionArg env f s) (some (.error (.error err)))) := by
  rcases list_cases he s with ⟨h1, st, h2⟩ | ⟨es, ts, st0, r, st', h1, h2, h3, h4, h5⟩ | ⟨h1, h2⟩
  · exact Or.inl ⟨_, .absent h1, Evt.of fun f => by simp [parseOptionArg, h2]⟩
  · obtain ⟨n, hn⟩ := h4
    have key : ∀ R : Option ArgSpec, Evt (fun f => getOptionArgSpec st'.nodes f r.nodeIndex false) (some R) →
        Evt (fun f => parseOptionArg env f s) (some (match R with | some a => .ok a | none => .error (.error .syntaxError))) := by
      rintro R ⟨m, hm⟩
      refine ⟨n + m, fun f hfl => ?_⟩
      have e1 := hn f (by omega)
      have e2 := hm f (by omega)
      dsimp only at e1 e2
      cases R <;> simp [parseOptionArg, h3, e1, e2]
    rcases arg_forest h5 with ⟨⟨l, rfl⟩, hf⟩ | ⟨⟨l, rfl⟩, hf⟩ | ⟨hf1, hf2, hf⟩
    · exact Or.inl ⟨_, .required h1 h2.one_inv, key _ hf⟩
    · exact Or.inl ⟨_, .optional h1 h2.one_inv, key _ hf⟩
    · refine Or.inr ⟨?_, .syntaxError, key _ hf⟩
      rintro ⟨a, ha⟩
      rcases ha.listed with ⟨hx, _⟩ | ⟨ts', l, hx, ⟨hl, _⟩ | ⟨hl, _⟩⟩
      · exact lexes_nil_not_listed he hx h1 h2
      · exact hf1 l (listed_unique he h1 hx h2 hl).2
      · exact hf2 l (listed_unique he h1 hx h2 hl).2
  · refine Or.inr ⟨?_, ?_⟩
    · rintro ⟨a, ha⟩
      rcases ha.listed with ⟨hx, _⟩ | ⟨ts', l, hx, ⟨hl, _⟩ | ⟨hl, _⟩⟩
      · exact h1 ⟨_, hx, Or.inl rfl⟩
      · exact h1 ⟨_, hx, Or.inr ⟨_, hl⟩⟩
      · exact h1 ⟨_, hx, Or.inr ⟨_, hl⟩⟩
    · rcases h2 with ⟨err, h2⟩ | ⟨st0, err, h2, n, hn⟩
      · exact ⟨err, Evt.of fun f => by simp [parseOptionArg, h2]⟩
      · refine ⟨err, n, fun f hfl => ?_⟩
        have e1 := hn f hfl
        dsimp only at e1
        simp [parseOptionArg, h2, e1]

theorem ArgOf.unique (he : EnvOk env) {s : Str} {a a' : ArgSpec} (h : ArgOf env s a) (h' : ArgOf env s a') : a = a' := by
  rcases h.listed with ⟨h1, rfl⟩ | ⟨ts, l, h1, h2⟩ <;> rcases h'.listed with ⟨h1', rfl⟩ | ⟨ts', l', h1', h2'⟩
  · rfl
  · rcases h2' with ⟨h2', _⟩ | ⟨h2', _⟩ <;> exact (lexes_nil_not_listed he h1 h1' h2').elim
  · rcases h2 with ⟨h2, _⟩ | ⟨h2, _⟩ <;> exact (lexes_nil_not_listed he h1' h1 h2).elim
  · rcases h2 with ⟨h2, rfl⟩ | ⟨h2, rfl⟩ <;> rcases h2' with ⟨h2', rfl⟩ | ⟨h2', rfl⟩
    · rfl
    · cases (listed_unique he h1 h1' h2 h2').2
    · cases (listed_unique he h1 h1' h2 h2').2
    · rfl

end Verif.CliSpec
