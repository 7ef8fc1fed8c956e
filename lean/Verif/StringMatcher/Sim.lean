import Verif.StringMatcher.Model
import Verif.RangeMap.Props
import Verif.FrozenSets.Props
/-!
The range map with an update function that has side effects behaves like the range map with a pure function on the contents.
-/
namespace Verif.StringMatcher
open Verif.RangeMap (Ent toKey)

section
variable {S T A : Type} {R : S → T → A → Prop} {le : S → S → Prop}

/-- Entries that correspond. -/
def EntRel (R : S → T → A → Prop) (s : S) (e : Ent T) (e' : Ent A) : Prop :=
  e.first = e'.first ∧ e.last = e'.last ∧ R s e.val e'.val

/-- Lists of entries that correspond. -/
abbrev EntsRel (R : S → T → A → Prop) (s : S) : List (Ent T) → List (Ent A) → Prop := List.Forall₂ (EntRel R s)

theorem EntsRel.mono (hmono : ∀ s s' t a, le s s' → R s t a → R s' t a) {s s' : S} (h : le s s') {es : List (Ent T)}
    {es' : List (Ent A)} (hr : EntsRel R s es es') : EntsRel R s' es es' :=
  hr.imp fun _ _ he => ⟨he.1, he.2.1, hmono _ _ _ _ h he.2.2⟩

theorem toKey_some {lo hi x y : Int} (h : toKey lo hi x = some y) : y = x := by
  unfold toKey at h
  split at h
  · injection h with h; exact h.symm
  · simp at h

variable (hrefl : ∀ s, le s s) (htrans : ∀ a b c, le a b → le b c → le a c) (hmono : ∀ s s' t a, le s s' → R s t a → R s' t a)
  {f : S → T → Option (S × T)} {g : A → A} {d : T} {d' : A}
  (hf : ∀ s t a, R s t a → ∃ s' t', f s t = some (s', t') ∧ le s s' ∧ R s' t' (g a)) (hd : ∀ s, R s d d')
include hrefl htrans hmono hf hd

omit htrans hmono in
theorem gapBefore_sim {lo hi a x : Int} {s : S} {gap' : List (Ent A)} (h : RangeMap.gapBefore lo hi d' g a x = some gap') :
    ∃ s' gap, gapBefore lo hi d f s a x = some (s', gap) ∧ le s s' ∧ EntsRel R s' gap gap' := by
  unfold RangeMap.gapBefore at h
  unfold gapBefore
  split at h
  · rename_i hlt
    rw [if_pos hlt]
    cases hk : toKey lo hi (x - 1) with
    | none => rw [hk] at h; simp at h
    | some last =>
      rw [hk] at h
      simp only [Option.bind_eq_bind, Option.bind_some, Option.some.injEq] at h
      subst h
      obtain ⟨s', t', h1, h2, h3⟩ := hf s d d' (hd s)
      simp only [h1, Option.bind_eq_bind, Option.bind_some]
      exact ⟨s', _, rfl, h2, .cons ⟨rfl, rfl, h3⟩ .nil⟩
  · rename_i hlt
    rw [if_neg hlt]
    injection h with h; subst h
    exact ⟨s, [], rfl, hrefl s, .nil⟩

theorem updateLoop_sim {lo hi b : Int} {es : List (Ent T)} {es' : List (Ent A)} :
    ∀ {a : Int} {s : S} {r' : List (Ent A)}, EntsRel R s es es' → RangeMap.updateLoop lo hi d' g b es' a = some r' →
      ∃ s' r, updateLoop lo hi d f b es a s = some (s', r) ∧ le s s' ∧ EntsRel R s' r r' := by
  induction es generalizing es' with
  | nil =>
    intro a s r' hr h
    cases hr
    rw [RangeMap.updateLoop] at h
    injection h with h; subst h
    obtain ⟨s', t', h1, h2, h3⟩ := hf s d d' (hd s)
    simp only [updateLoop, h1, Option.bind_eq_bind, Option.bind_some]
    exact ⟨s', _, rfl, h2, .cons ⟨rfl, rfl, h3⟩ .nil⟩
  | cons i rest ih =>
    intro a s r' hr h
    cases hr with
    | @cons _ i' _ rest' hi' hrest =>
      obtain ⟨e1, e2, e3⟩ := hi'
      rw [RangeMap.updateLoop] at h
      rw [updateLoop, e1, e2]
      by_cases hb : b < i'.first
      · rw [if_pos hb] at h ⊢
        injection h with h; subst h
        obtain ⟨s', t', h1, h2, h3⟩ := hf s d d' (hd s)
        simp only [h1, Option.bind_eq_bind, Option.bind_some]
        refine ⟨s', _, rfl, h2, .cons ⟨rfl, rfl, h3⟩ (.cons ⟨e1, e2, hmono _ _ _ _ h2 e3⟩ ?_)⟩
        exact EntsRel.mono hmono h2 hrest
      · rw [if_neg hb] at h ⊢
        cases hg : RangeMap.gapBefore lo hi d' g a i'.first with
        | none => rw [hg] at h; simp at h
        | some gap' =>
          rw [hg] at h
          simp only [Option.bind_eq_bind, Option.bind_some] at h
          obtain ⟨s1, gap, g1, g2, g3⟩ := gapBefore_sim (s := s) hrefl hf hd hg
          simp only [g1, Option.bind_eq_bind, Option.bind_some]
          obtain ⟨s2, t2, f1, f2, f3⟩ := hf s1 i.val i'.val (hmono _ _ _ _ g2 e3)
          by_cases hbl : b < i'.last
          · rw [if_pos hbl] at h ⊢
            cases hk : toKey lo hi (b + 1) with
            | none => rw [hk] at h; simp at h
            | some first =>
              rw [hk] at h
              simp only [Option.bind_some, Option.some.injEq] at h
              subst h
              simp only [f1, Option.bind_some]
              refine ⟨s2, _, rfl, htrans _ _ _ g2 f2, ?_⟩
              refine List.rel_append (EntsRel.mono hmono f2 g3) (.cons ⟨rfl, rfl, f3⟩ (.cons ⟨rfl, rfl, hmono _ _ _ _ (htrans _ _ _ g2 f2) e3⟩ ?_))
              exact EntsRel.mono hmono (htrans _ _ _ g2 f2) hrest
          · rw [if_neg hbl] at h ⊢
            simp only [f1, Option.bind_some]
            by_cases hbe : b = i'.last
            · rw [if_pos hbe] at h ⊢
              injection h with h; subst h
              refine ⟨s2, _, rfl, htrans _ _ _ g2 f2, ?_⟩
              refine List.rel_append (EntsRel.mono hmono f2 g3) (.cons ⟨rfl, rfl, f3⟩ ?_)
              exact EntsRel.mono hmono (htrans _ _ _ g2 f2) hrest
            · rw [if_neg hbe] at h ⊢
              cases hk : toKey lo hi (i'.last + 1) with
              | none => rw [hk] at h; simp at h
              | some a' =>
                rw [hk] at h
                simp only [Option.bind_some] at h ⊢
                cases hu : RangeMap.updateLoop lo hi d' g b rest' a' with
                | none => rw [hu] at h; simp at h
                | some r1' =>
                  rw [hu] at h
                  simp only [Option.bind_some, Option.some.injEq] at h
                  subst h
                  obtain ⟨s3, r1, h1, h2, h3⟩ := ih (EntsRel.mono hmono (htrans _ _ _ g2 f2) hrest) hu
                  simp only [h1, Option.bind_some]
                  refine ⟨s3, _, rfl, htrans _ _ _ (htrans _ _ _ g2 f2) h2, ?_⟩
                  exact List.rel_append (EntsRel.mono hmono (htrans _ _ _ f2 h2) g3) (.cons ⟨rfl, rfl, hmono _ _ _ _ h2 f3⟩ h3)

omit hrefl htrans hmono hf hd in
theorem takeWhile_sim {s : S} {es : List (Ent T)} {es' : List (Ent A)} (h : EntsRel R s es es') (a : Int) :
    EntsRel R s (es.takeWhile (fun e => e.first < a)) (es'.takeWhile (fun e => e.first < a)) ∧
      EntsRel R s (es.dropWhile (fun e => e.first < a)) (es'.dropWhile (fun e => e.first < a)) := by
  induction h with
  | nil => exact ⟨.nil, .nil⟩
  | @cons e e' es es' he hes ih =>
    rw [List.takeWhile_cons, List.takeWhile_cons, List.dropWhile_cons, List.dropWhile_cons, he.1]
    by_cases hlt : e'.first < a
    · rw [if_pos (by simpa using hlt), if_pos (by simpa using hlt), if_pos (by simpa using hlt), if_pos (by simpa using hlt)]
      exact ⟨.cons he ih.1, ih.2⟩
    · rw [if_neg (by simpa using hlt), if_neg (by simpa using hlt), if_neg (by simpa using hlt), if_neg (by simpa using hlt)]
      exact ⟨.nil, .cons he hes⟩

omit hrefl htrans hmono hf hd in
theorem snoc_sim {s : S} {es : List (Ent T)} {es' : List (Ent A)} (h : EntsRel R s es es') :
    (es.getLast? = none ∧ es'.getLast? = none) ∨
    ∃ e e', es.getLast? = some e ∧ es'.getLast? = some e' ∧ EntRel R s e e' ∧ EntsRel R s es.dropLast es'.dropLast := by
  induction h with
  | nil => exact .inl ⟨rfl, rfl⟩
  | @cons e e' es es' he hes ih =>
    right
    cases hes with
    | nil => exact ⟨e, e', rfl, rfl, he, .nil⟩
    | cons h1 h2 =>
      rcases ih with ⟨h, _⟩ | ⟨x, x', h3, h4, h5, h6⟩
      · simp at h
      · refine ⟨x, x', by rw [List.getLast?_cons_cons, h3], by rw [List.getLast?_cons_cons, h4], h5, ?_⟩
        rw [List.dropLast_cons_cons, List.dropLast_cons_cons]
        exact .cons he h6

theorem update_sim {lo hi a b : Int} {s : S} {es : List (Ent T)} {es' r' : List (Ent A)} (hr : EntsRel R s es es')
    (h : RangeMap.update lo hi d' es' a b g = some r') :
    ∃ s' r, update lo hi d es a b f s = some (s', r) ∧ le s s' ∧ EntsRel R s' r r' := by
  unfold RangeMap.update at h
  unfold update
  by_cases hab : a ≤ b
  · rw [if_pos hab] at h ⊢
    obtain ⟨t1, t2⟩ := takeWhile_sim hr a
    simp only at h ⊢
    have hplain : ∀ r1', RangeMap.updateLoop lo hi d' g b (es'.dropWhile (fun e => e.first < a)) a = some r1' →
        ∃ s' r, updateLoop lo hi d f b (es.dropWhile (fun e => e.first < a)) a s = some (s', r) ∧ le s s' ∧
          EntsRel R s' (es.takeWhile (fun e => e.first < a) ++ r) (es'.takeWhile (fun e => e.first < a) ++ r1') := by
      intro r1' hu
      obtain ⟨s', r, h1, h2, h3⟩ := updateLoop_sim hrefl htrans hmono hf hd t2 hu
      exact ⟨s', r, h1, h2, List.rel_append (EntsRel.mono hmono h2 t1) h3⟩
    rcases snoc_sim t1 with ⟨h1, h2⟩ | ⟨j, j', h1, h2, ⟨e1, e2, e3⟩, h4⟩
    · rw [h2] at h
      rw [h1]
      simp only [Option.bind_eq_bind] at h ⊢
      cases hu : RangeMap.updateLoop lo hi d' g b (es'.dropWhile (fun e => e.first < a)) a with
      | none => rw [hu] at h; simp at h
      | some r1' =>
        rw [hu] at h
        simp only [Option.bind_some, Option.some.injEq] at h
        subst h
        obtain ⟨s', r, k1, k2, k3⟩ := hplain r1' hu
        simp only [k1, Option.bind_some]
        exact ⟨s', _, rfl, k2, k3⟩
    · rw [h2] at h
      rw [h1]
      simp only [e1, e2, Option.bind_eq_bind] at h ⊢
      by_cases haj : a ≤ j'.last
      · rw [if_pos haj] at h ⊢
        cases hk : toKey lo hi (a - 1) with
        | none => rw [hk] at h; simp at h
        | some jlast =>
          rw [hk] at h
          simp only [Option.bind_some] at h ⊢
          cases hu : RangeMap.updateLoop lo hi d' g b (⟨a, j'.last, j'.val⟩ :: es'.dropWhile (fun e => e.first < a)) a with
          | none => rw [hu] at h; simp at h
          | some r1' =>
            rw [hu] at h
            simp only [Option.bind_some, Option.some.injEq] at h
            subst h
            obtain ⟨s', r, k1, k2, k3⟩ := updateLoop_sim hrefl htrans hmono hf hd
              (es := ⟨a, j'.last, j.val⟩ :: es.dropWhile (fun e => e.first < a))
              (es' := ⟨a, j'.last, j'.val⟩ :: es'.dropWhile (fun e => e.first < a)) (.cons ⟨rfl, rfl, e3⟩ t2) hu
            simp only [k1, Option.bind_some]
            refine ⟨s', _, rfl, k2, ?_⟩
            exact List.rel_append (EntsRel.mono hmono k2 h4) (.cons ⟨rfl, rfl, hmono _ _ _ _ k2 e3⟩ k3)
      · rw [if_neg haj] at h ⊢
        cases hu : RangeMap.updateLoop lo hi d' g b (es'.dropWhile (fun e => e.first < a)) a with
        | none => rw [hu] at h; simp at h
        | some r1' =>
          rw [hu] at h
          simp only [Option.bind_some, Option.some.injEq] at h
          subst h
          obtain ⟨s', r, k1, k2, k3⟩ := hplain r1' hu
          simp only [k1, Option.bind_some]
          exact ⟨s', _, rfl, k2, k3⟩
  · rw [if_neg hab] at h; simp at h

end

section
variable {S T A : Type} {R : S → T → A → Prop} {eq : T → T → Option Bool} {eq' : A → A → Bool} {s : S}
  (heq : ∀ t u a b, R s t a → R s u b → eq t u = some (eq' a b))
include heq

theorem defragLoop_sim {lo hi : Int} {es : List (Ent T)} {es' : List (Ent A)} :
    ∀ {i : Ent T} {i' : Ent A} {r' : List (Ent A)}, EntsRel R s es es' → EntRel R s i i' →
      RangeMap.defragLoop lo hi eq' es' i' = some r' → ∃ r, defragLoop lo hi eq es i = some r ∧ EntsRel R s r r' := by
  induction es generalizing es' with
  | nil =>
    intro i i' r' hr hi' h
    cases hr
    rw [RangeMap.defragLoop] at h
    injection h with h; subst h
    exact ⟨_, rfl, .cons hi' .nil⟩
  | cons j rest ih =>
    intro i i' r' hr hi' h
    cases hr with
    | @cons _ j' _ rest' hj hrest =>
      rw [RangeMap.defragLoop] at h
      rw [defragLoop, hi'.2.1, hj.1, heq _ _ _ _ hi'.2.2 hj.2.2]
      cases hk : toKey lo hi (i'.last + 1) with
      | none => rw [hk] at h; simp at h
      | some next =>
        rw [hk] at h
        simp only [Option.bind_eq_bind, Option.bind_some] at h ⊢
        rw [show (if j'.first = next then
            if eq' i'.val j'.val = true then defragLoop lo hi eq rest ⟨i.first, j.last, i.val⟩
            else (defragLoop lo hi eq rest j).bind fun r => some (i :: r)
          else
            if false = true then defragLoop lo hi eq rest ⟨i.first, j.last, i.val⟩
            else (defragLoop lo hi eq rest j).bind fun r => some (i :: r)) =
          if decide (j'.first = next ∧ eq' i'.val j'.val = true) = true then defragLoop lo hi eq rest ⟨i.first, j.last, i.val⟩
            else (defragLoop lo hi eq rest j).bind fun r => some (i :: r) by
          by_cases h1 : j'.first = next <;> simp [h1]]
        by_cases hc : j'.first = next ∧ eq' i'.val j'.val = true
        · rw [if_pos hc] at h
          rw [if_pos (decide_eq_true hc)]
          exact ih (i' := ⟨i'.first, j'.last, i'.val⟩) hrest ⟨hi'.1, hj.2.1, hi'.2.2⟩ h
        · rw [if_neg hc] at h
          rw [if_neg (by simpa using hc)]
          cases hu : RangeMap.defragLoop lo hi eq' rest' j' with
          | none => rw [hu] at h; simp at h
          | some r1' =>
            rw [hu] at h
            simp only [Option.bind_some, Option.some.injEq] at h
            subst h
            obtain ⟨r, k1, k2⟩ := ih hrest hj hu
            exact ⟨_, by rw [k1]; rfl, .cons hi' k2⟩

theorem defrag_sim {lo hi : Int} {es : List (Ent T)} {es' r' : List (Ent A)} (hr : EntsRel R s es es')
    (h : RangeMap.defrag lo hi eq' es' = some r') : ∃ r, defrag lo hi eq es = some r ∧ EntsRel R s r r' := by
  cases hr with
  | nil =>
    rw [RangeMap.defrag] at h
    injection h with h; subst h
    exact ⟨[], rfl, .nil⟩
  | cons h1 h2 => exact defragLoop_sim heq h2 h1 h

end

end Verif.StringMatcher
