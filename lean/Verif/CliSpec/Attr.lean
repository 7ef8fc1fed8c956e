import Verif.CliSpec.Spec
import Mathlib.Tactic.Tauto
import Mathlib.Data.List.Forall2
/-!
Attributes of expressions, and how they relate to the attributes of patterns.
-/
namespace Verif.CliSpec

open Verif.CliPattern

def sizeE : Expr → Nat
  | .leaf _ _ => 1
  | .opt e | .rep e => sizeE e
  | .jux a b | .alt a b => sizeE a + sizeE b

def nulE : Expr → Bool
  | .leaf _ _ => false
  | .opt _ => true
  | .rep e => nulE e
  | .jux a b => nulE a && nulE b
  | .alt a b => nulE a || nulE b

def repE : Expr → Bool
  | .leaf _ _ => false
  | .opt e => repE e
  | .rep _ => true
  | .jux a b => (repE a && nulE b) || (nulE a && repE b)
  | .alt a b => repE a || repE b

/-- Number of parameters in the sequence. -/
def paramsE : Expr → Nat
  | .leaf .slot _ => 1
  | .leaf _ _ => 0
  | .opt _ | .rep _ | .alt _ _ => 1
  | .jux a b => paramsE a + paramsE b

/-- Number of parameters in the branches. -/
def bparamsE : Expr → Nat
  | .alt a b => bparamsE a + bparamsE b
  | e => paramsE e

/-- Index of the first nullable branch, or number of branches. -/
def nIdxE : Expr → Nat
  | .alt a b => if nulE a then nIdxE a else nIdxE a + nIdxE b
  | e => if nulE e then 0 else 1

/-- More than one nullable branch. -/
def multE : Expr → Bool
  | .alt a b => multE a || multE b || (nulE a && nulE b)
  | _ => false

def clearS : Expr → Prop
  | .leaf _ _ => True
  | .opt e => nulE e = false ∧ clearS e
  | .rep e => nulE e = false ∧ repE e = false ∧ clearS e
  | .jux a b => clearS a ∧ clearS b
  | .alt a b => clearS a ∧ clearS b ∧ ¬ (nulE a = true ∧ nulE b = true)

def clearB : Expr → Prop
  | .alt a b => clearB a ∧ clearB b
  | e => clearS e

theorem clearS_of_clearB : ∀ e, clearB e → multE e = false → clearS e
  | .alt a b, h, hm => by
    simp only [multE, Bool.or_eq_false_iff, Bool.and_eq_false_iff] at hm
    refine ⟨clearS_of_clearB a h.1 hm.1.1, clearS_of_clearB b h.2 hm.1.2, ?_⟩
    rintro ⟨h1, h2⟩
    simp [h1, h2] at hm
  | .leaf _ _, h, _ | .opt _, h, _ | .rep _, h, _ | .jux _ _, h, _ => h

/-! Sequences. -/

theorem size_seq (xs ys : List Pat) : size (seqOf (xs ++ ys)) = size (seqOf xs) + size (seqOf ys) := by
  induction xs with
  | nil => simp [seqOf, size]
  | cons x xs ih => simp [seqOf, size, ih]; omega

theorem params_seq (xs ys : List Pat) : params (seqOf (xs ++ ys)) = params (seqOf xs) + params (seqOf ys) := by
  induction xs with
  | nil => simp [seqOf, params]
  | cons x xs ih => simp [seqOf, params, ih]; omega

theorem len_seq (xs : List Pat) : len (seqOf xs) = xs.length := by
  induction xs with
  | nil => rfl
  | cons x xs ih => simp [seqOf, len, ih]

theorem nul_seq (xs ys : List Pat) : nul (seqOf (xs ++ ys)) = (nul (seqOf xs) && nul (seqOf ys)) := by
  induction xs with
  | nil => simp [seqOf, nul]
  | cons x xs ih => simp [seqOf, nul, ih, Bool.and_assoc]

theorem repeating_seq (xs ys : List Pat) : repeating (seqOf (xs ++ ys)) =
    ((repeating (seqOf xs) && nul (seqOf ys)) || (nul (seqOf xs) && repeating (seqOf ys))) := by
  induction xs with
  | nil => simp [seqOf, repeating, nul]
  | cons x xs ih =>
    simp only [List.cons_append, seqOf, repeating, nul, ih, nul_seq]
    cases repeating x <;> cases nul x <;> cases repeating (seqOf xs) <;> cases nul (seqOf xs) <;> cases nul (seqOf ys) <;>
      cases repeating (seqOf ys) <;> rfl

theorem clear_seq (xs ys : List Pat) : Clear (seqOf (xs ++ ys)) ↔ Clear (seqOf xs) ∧ Clear (seqOf ys) := by
  induction xs with
  | nil => simp [seqOf, Clear]
  | cons x xs ih => simp [seqOf, Clear, ih, and_assoc]

theorem wf_seq (xs ys : List Pat) : Wf (seqOf (xs ++ ys)) .seq ↔ Wf (seqOf xs) .seq ∧ Wf (seqOf ys) .seq := by
  induction xs with
  | nil => simp [seqOf, Wf]
  | cons x xs ih => simp [seqOf, Wf, ih, and_assoc]

theorem lang_seq (xs ys : List Pat) (w : List PatternSymbol) : Lang (seqOf (xs ++ ys)) w ↔
    ∃ u v, Lang (seqOf xs) u ∧ Lang (seqOf ys) v ∧ w = u ++ v := by
  induction xs generalizing w with
  | nil => simp [seqOf, Lang]
  | cons x xs ih =>
    simp only [List.cons_append, seqOf, Lang, ih]
    constructor
    · rintro ⟨u, v, h1, ⟨u', v', h2, h3, rfl⟩, rfl⟩
      exact ⟨u ++ u', v', ⟨u, u', h1, h2, rfl⟩, h3, by simp⟩
    · rintro ⟨u, v, ⟨u', v', h1, h2, rfl⟩, h3, rfl⟩
      exact ⟨u', v' ++ v, h1, ⟨v', v, h2, h3, rfl⟩, by simp⟩

/-! Branches. -/

theorem size_alt (xs ys : List Pat) : size (altOf (xs ++ ys)) = size (altOf xs) + size (altOf ys) := by
  induction xs with
  | nil => simp [altOf, size]
  | cons x xs ih => simp [altOf, size, ih]; omega

theorem params_alt (xs ys : List Pat) : params (altOf (xs ++ ys)) = params (altOf xs) + params (altOf ys) := by
  induction xs with
  | nil => simp [altOf, params]
  | cons x xs ih => simp [altOf, params, ih]; omega

theorem len_alt (xs : List Pat) : len (altOf xs) = xs.length := by
  induction xs with
  | nil => rfl
  | cons x xs ih => simp [altOf, len, ih]

theorem nul_alt (xs ys : List Pat) : nul (altOf (xs ++ ys)) = (nul (altOf xs) || nul (altOf ys)) := by
  induction xs with
  | nil => simp [altOf, nul]
  | cons x xs ih => simp [altOf, nul, ih, Bool.or_assoc]

theorem repeating_alt (xs ys : List Pat) : repeating (altOf (xs ++ ys)) = (repeating (altOf xs) || repeating (altOf ys)) := by
  induction xs with
  | nil => simp [altOf, repeating]
  | cons x xs ih => simp [altOf, repeating, ih, Bool.or_assoc]

theorem nullIndex_alt (xs ys : List Pat) : nullIndex (altOf (xs ++ ys)) =
    if nul (altOf xs) then nullIndex (altOf xs) else nullIndex (altOf xs) + nullIndex (altOf ys) := by
  induction xs with
  | nil => simp [altOf, nullIndex, nul]
  | cons x xs ih =>
    simp only [List.cons_append, altOf, nullIndex, nul, ih]
    cases nul x <;> cases nul (altOf xs) <;> simp <;> omega

theorem clear_alt (xs ys : List Pat) : Clear (altOf (xs ++ ys)) ↔ Clear (altOf xs) ∧ Clear (altOf ys) ∧
    ¬ (nul (altOf xs) = true ∧ nul (altOf ys) = true) := by
  induction xs with
  | nil => simp [altOf, Clear, nul]
  | cons x xs ih =>
    simp only [List.cons_append, altOf, Clear, nul, ih, nul_alt, Bool.or_eq_true]
    tauto

theorem wf_alt (xs ys : List Pat) : Wf (altOf (xs ++ ys)) .branches ↔ Wf (altOf xs) .branches ∧ Wf (altOf ys) .branches := by
  induction xs with
  | nil => simp [altOf, Wf]
  | cons x xs ih => simp [altOf, Wf, ih, and_assoc]

theorem lang_alt (xs ys : List Pat) (w : List PatternSymbol) : Lang (altOf (xs ++ ys)) w ↔ Lang (altOf xs) w ∨ Lang (altOf ys) w := by
  induction xs with
  | nil => simp [altOf, Lang]
  | cons x xs ih => simp [altOf, Lang, ih, or_assoc]

/-! Expressions. -/

variable (σ : LeafKind → Str → PatternSymbol)

theorem flat_ne (e : Expr) : (flat σ e).2 ≠ [] := by
  induction e <;> simp_all [flat]

theorem flat_size (e : Expr) : size (seqOf (flat σ e).1) = sizeE e ∧ size (altOf (flat σ e).2) = sizeE e := by
  induction e with
  | leaf k l => simp [flat, seqOf, altOf, size, sizeE]
  | opt e ih | rep e ih => simp [flat, seqOf, altOf, size, sizeE, ih.1]
  | jux a b iha ihb => simp [flat, altOf, size, size_seq, sizeE, iha.1, ihb.1]
  | alt a b iha ihb => simp [flat, seqOf, size, size_alt, sizeE, iha.2, ihb.2]

theorem flat_nul (e : Expr) : nul (seqOf (flat σ e).1) = nulE e ∧ nul (altOf (flat σ e).2) = nulE e := by
  induction e with
  | leaf k l => simp [flat, seqOf, altOf, nul, nulE]
  | opt e ih | rep e ih => simp [flat, seqOf, altOf, nul, nulE, ih.1]
  | jux a b iha ihb => simp [flat, altOf, nul, nul_seq, nulE, iha.1, ihb.1]
  | alt a b iha ihb => simp [flat, seqOf, nul, nul_alt, nulE, iha.2, ihb.2]

theorem flat_rep (e : Expr) : repeating (seqOf (flat σ e).1) = repE e ∧ repeating (altOf (flat σ e).2) = repE e := by
  induction e with
  | leaf k l => simp [flat, seqOf, altOf, repeating, repE, nul]
  | opt e ih | rep e ih => simp [flat, seqOf, altOf, repeating, repE, ih.1, nul]
  | jux a b iha ihb => simp [flat, altOf, repeating, repeating_seq, repE, iha.1, ihb.1, (flat_nul σ a).1, (flat_nul σ b).1]
  | alt a b iha ihb => simp [flat, seqOf, repeating, repeating_alt, repE, iha.2, ihb.2, nul]

theorem flat_nullIndex (e : Expr) : nullIndex (altOf (flat σ e).2) = nIdxE e := by
  induction e with
  | leaf k l => simp [flat, seqOf, altOf, nullIndex, nIdxE, nul, nulE]
  | opt e ih => simp [flat, seqOf, altOf, nullIndex, nIdxE, nul, nulE]
  | rep e ih => cases h : nulE e <;> simp [flat, seqOf, altOf, nullIndex, nIdxE, nul, nulE, (flat_nul σ e).1, h]
  | jux a b iha ihb => simp [flat, altOf, nullIndex, nIdxE, nul_seq, nulE, (flat_nul σ a).1, (flat_nul σ b).1]
  | alt a b iha ihb => simp [flat, nullIndex_alt, nIdxE, iha, ihb, (flat_nul σ a).2]

theorem flat_clear (e : Expr) : (Clear (seqOf (flat σ e).1) ↔ clearS e) ∧ (Clear (altOf (flat σ e).2) ↔ clearS e) := by
  induction e with
  | leaf k l => simp [flat, seqOf, altOf, Clear, clearS, nul]
  | opt e ih => simp [flat, seqOf, altOf, Clear, clearS, nul, ih.1, (flat_nul σ e).1]
  | rep e ih => simp [flat, seqOf, altOf, Clear, clearS, nul, ih.1, (flat_nul σ e).1, (flat_rep σ e).1]
  | jux a b iha ihb => simp [flat, altOf, Clear, clear_seq, clearS, iha.1, ihb.1, nul]
  | alt a b iha ihb => simp [flat, seqOf, Clear, clear_alt, clearS, iha.2, ihb.2, (flat_nul σ a).2, (flat_nul σ b).2]

theorem altOf_ne {xs : List Pat} (h : xs ≠ []) : altOf xs ≠ .none := by
  cases xs <;> simp_all [altOf]

theorem flat_wf (e : Expr) : Wf (seqOf (flat σ e).1) .seq ∧ Wf (altOf (flat σ e).2) .branches := by
  induction e with
  | leaf k l => simp [flat, seqOf, altOf, Wf]
  | opt e ih | rep e ih => simp [flat, seqOf, altOf, Wf, ih.1]
  | jux a b iha ihb => simp [flat, altOf, Wf, wf_seq, iha.1, ihb.1]
  | alt a b iha ihb =>
    simp only [flat, seqOf, Wf, wf_alt, iha.2, ihb.2, and_self, true_and, and_true]
    exact altOf_ne (by simp [flat_ne])

/-- All symbols have been registered. -/
def Def (r : Registry) : Expr → Prop
  | .leaf k l => ∃ s, symbolOf r k l = some s
  | .opt e | .rep e => Def r e
  | .jux a b | .alt a b => Def r a ∧ Def r b

theorem symbolOf_type {r : Registry} {k : LeafKind} {l : Str} {s : PatternSymbol} (h : symbolOf r k l = some s) :
    s.type = .valueSlot ↔ k = .slot := by
  cases k <;> simp only [symbolOf, Option.map_eq_some_iff, Option.some.injEq] at h
  · obtain ⟨i, _, rfl⟩ := h; simp
  · obtain ⟨i, _, rfl⟩ := h; simp
  · obtain ⟨i, _, rfl⟩ := h; simp
  · subst h; simp

theorem flat_params {r : Registry} (hσ : Agrees r σ) : ∀ e, Def r e → params (seqOf (flat σ e).1) = paramsE e ∧
    params (altOf (flat σ e).2) = bparamsE e := by
  intro e
  induction e with
  | leaf k l =>
    rintro ⟨s, hs⟩
    have h1 := symbolOf_type hs
    rw [← hσ k l s hs] at h1
    cases k <;> simp [flat, seqOf, altOf, params, paramsE, bparamsE, h1]
  | opt e ih | rep e ih => intro _; simp [flat, seqOf, altOf, params, paramsE, bparamsE]
  | jux a b iha ihb => intro h; simp [flat, altOf, params, params_seq, paramsE, bparamsE, iha h.1, ihb h.2]
  | alt a b iha ihb => intro h; simp [flat, seqOf, params, params_alt, paramsE, bparamsE, iha h.1, ihb h.2]

theorem matches_nil : ∀ e, Matches e [] ↔ nulE e = true := by
  intro e
  induction e with
  | leaf k l => simp [Matches, nulE]
  | opt e ih => simp [Matches, nulE]
  | rep e ih =>
    simp only [Matches, nulE, ← ih]
    constructor
    · rintro ⟨ws, h1, h2, h3⟩
      cases ws with
      | nil => exact absurd rfl h1
      | cons w ws =>
        simp only [List.flatten_cons] at h3
        have := (List.append_eq_nil_iff.1 h3.symm).1
        rw [← this]
        exact h2 w (by simp)
    · intro h
      exact ⟨[[]], by simp, by simpa using h, by simp⟩
  | jux a b iha ihb =>
    simp only [Matches, nulE, Bool.and_eq_true, ← iha, ← ihb]
    constructor
    · rintro ⟨u, v, h1, h2, h3⟩
      obtain ⟨rfl, rfl⟩ := List.append_eq_nil_iff.1 h3.symm
      exact ⟨h1, h2⟩
    · rintro ⟨h1, h2⟩
      exact ⟨[], [], h1, h2, rfl⟩
  | alt a b iha ihb => simp [Matches, nulE, iha, ihb]

theorem choose_list {α β : Type} {R : α → β → Prop} : ∀ l : List α, (∀ a ∈ l, ∃ b, R a b) → ∃ l' : List β, List.Forall₂ R l l'
  | [], _ => ⟨[], .nil⟩
  | a :: l, h => by
    obtain ⟨b, hb⟩ := h a (by simp)
    obtain ⟨l', hl⟩ := choose_list l fun x hx => h x (by simp [hx])
    exact ⟨b :: l', .cons hb hl⟩

/-- What an expression matches is what the pattern matches. -/
theorem flat_lang (e : Expr) : (∀ w, Lang (seqOf (flat σ e).1) w ↔ ∃ v, Matches e v ∧ w = v.map fun x => σ x.1 x.2) ∧
    (∀ w, Lang (altOf (flat σ e).2) w ↔ ∃ v, Matches e v ∧ w = v.map fun x => σ x.1 x.2) := by
  have hone : ∀ (p : Pat) w, Lang (seqOf [p]) w ↔ Lang p w := by simp [seqOf, Lang]
  have hone' : ∀ (p : Pat) w, Lang (altOf [p]) w ↔ Lang p w := by simp [altOf, Lang]
  induction e with
  | leaf k l => simp [flat, seqOf, altOf, Lang, Matches]
  | opt e ih =>
    have h : ∀ w, Lang (.opt (seqOf (flat σ e).1)) w ↔ ∃ v, Matches (.opt e) v ∧ w = v.map fun x => σ x.1 x.2 := by
      intro w
      simp only [Lang, Matches, ih.1]
      constructor
      · rintro (rfl | ⟨v, h1, h2⟩)
        · exact ⟨[], Or.inl rfl, rfl⟩
        · exact ⟨v, Or.inr h1, h2⟩
      · rintro ⟨v, rfl | h1, h2⟩
        · exact Or.inl h2
        · exact Or.inr ⟨v, h1, h2⟩
    exact ⟨fun w => (hone _ w).trans (h w), fun w => (hone' _ w).trans ((hone _ w).trans (h w))⟩
  | rep e ih =>
    have h : ∀ w, Lang (.rep (seqOf (flat σ e).1)) w ↔ ∃ v, Matches (.rep e) v ∧ w = v.map fun x => σ x.1 x.2 := by
      intro w
      simp only [Lang, Matches, ih.1]
      constructor
      · rintro ⟨ws, h1, h2, rfl⟩
        obtain ⟨vs, hvs⟩ := choose_list ws h2
        refine ⟨vs.flatten, ⟨vs, ?_, ?_, rfl⟩, ?_⟩
        · rintro rfl
          cases hvs
          exact h1 rfl
        · clear h1 h2
          induction hvs with
          | nil => simp
          | cons h _ ih' =>
            intro v hv
            rcases List.mem_cons.1 hv with rfl | hv
            · exact h.1
            · exact ih' v hv
        · clear h1 h2
          induction hvs with
          | nil => rfl
          | cons h _ ih' => simp only [List.flatten_cons, List.map_append, ih', h.2]
      · rintro ⟨v, ⟨vs, h1, h2, rfl⟩, rfl⟩
        refine ⟨vs.map (List.map fun x => σ x.1 x.2), by simpa using h1, ?_, by simp [List.map_flatten]⟩
        intro w hw
        obtain ⟨v, hv, rfl⟩ := List.mem_map.1 hw
        exact ⟨v, h2 v hv, rfl⟩
    exact ⟨fun w => (hone _ w).trans (h w), fun w => (hone' _ w).trans ((hone _ w).trans (h w))⟩
  | jux a b iha ihb =>
    have h : ∀ w, Lang (seqOf ((flat σ a).1 ++ (flat σ b).1)) w ↔ ∃ v, Matches (.jux a b) v ∧ w = v.map fun x => σ x.1 x.2 := by
      intro w
      simp only [lang_seq, Matches, iha.1, ihb.1]
      constructor
      · rintro ⟨u, v, ⟨u', h1, rfl⟩, ⟨v', h2, rfl⟩, rfl⟩
        exact ⟨u' ++ v', ⟨u', v', h1, h2, rfl⟩, by simp⟩
      · rintro ⟨v, ⟨u', v', h1, h2, rfl⟩, rfl⟩
        exact ⟨_, _, ⟨u', h1, rfl⟩, ⟨v', h2, rfl⟩, by simp⟩
    exact ⟨h, fun w => (hone' _ w).trans (h w)⟩
  | alt a b iha ihb =>
    have h : ∀ w, Lang (altOf ((flat σ a).2 ++ (flat σ b).2)) w ↔ ∃ v, Matches (.alt a b) v ∧ w = v.map fun x => σ x.1 x.2 := by
      intro w
      simp only [lang_alt, Matches, iha.2, ihb.2]
      constructor
      · rintro (⟨v, h1, h2⟩ | ⟨v, h1, h2⟩)
        · exact ⟨v, Or.inl h1, h2⟩
        · exact ⟨v, Or.inr h1, h2⟩
      · rintro ⟨v, h1 | h1, h2⟩
        · exact Or.inl ⟨v, h1, h2⟩
        · exact Or.inr ⟨v, h1, h2⟩
    refine ⟨fun w => ?_, h⟩
    simp only [flat]
    rw [hone]
    simp only [Lang]
    exact h w

end Verif.CliSpec
