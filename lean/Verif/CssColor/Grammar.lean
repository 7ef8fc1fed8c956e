import Verif.CssColor.Text

/-!
# Parsing of the functional forms
-/

namespace Verif.CssColor

open Spec

variable {F : Type}

theorem splitArg_eq (p : Str) : p = (splitArg p).1 ++ (splitArg p).2 ∧ ',' ∉ (splitArg p).1 ∧ '%' ∉ (splitArg p).1 ∧
    ((splitArg p).2 = [] ∨ (splitArg p).2.head? = some ',' ∨ (splitArg p).2.head? = some '%') := by
  induction p with
  | nil => simp [splitArg]
  | cons ch rest ih =>
    unfold splitArg
    obtain ⟨h1, h2, h3, h4⟩ := ih
    split
    · rename_i h
      refine ⟨by simp only [List.cons_append]; rw [← h1], ?_, ?_, h4⟩
      · simp only [List.mem_cons, not_or]
        exact ⟨fun hc => h.2 hc.symm, h2⟩
      · simp only [List.mem_cons, not_or]
        exact ⟨fun hc => h.1 hc.symm, h3⟩
    · rename_i h
      refine ⟨rfl, by simp, by simp, Or.inr ?_⟩
      simp only [List.head?_cons, Option.some.injEq]
      by_cases hp : ch = '%'
      · exact Or.inr hp
      · left
        by_contra hc
        exact h ⟨hp, hc⟩

theorem splitArg_append (t r : Str) (h1 : ',' ∉ t) (h2 : '%' ∉ t)
    (h3 : r = [] ∨ r.head? = some ',' ∨ r.head? = some '%') : splitArg (t ++ r) = (t, r) := by
  induction t with
  | nil =>
    cases r with
    | nil => rfl
    | cons ch rest =>
      simp only [List.nil_append, splitArg]
      rw [if_neg]
      rintro ⟨h4, h5⟩
      simp at h3
      rcases h3 with h | h
      · exact h5 h
      · exact h4 h
  | cons ch rest ih =>
    simp only [List.mem_cons, not_or] at h1 h2
    simp only [List.cons_append, splitArg]
    rw [if_pos ⟨fun h => h2.1 h.symm, fun h => h1.1 h.symm⟩, ih h1.2 h2.2]

/-- What may follow a number. -/
def RestOk (per : Bool) (rest : Str) : Prop := per = false → rest = [] ∨ rest.head? = some ','

theorem parseNum_iff (e : Env F) (p : Str) (v : F) (per : Bool) (rest : Str) :
    parseNum e p = some (v, per, rest) ↔
      ∃ t, e.num t = some v ∧ ',' ∉ t ∧ '%' ∉ t ∧ p = t ++ (if per then ['%'] else []) ++ rest ∧ RestOk per rest := by
  obtain ⟨h1, h2, h3, h4⟩ := splitArg_eq p
  constructor
  · intro h
    unfold parseNum at h
    generalize hsp : splitArg p = sp at h h1 h2 h3 h4
    obtain ⟨t, r⟩ := sp
    simp only at h h1 h2 h3 h4
    cases hn : e.num t with
    | none => simp [hn] at h
    | some w =>
      simp only [hn] at h
      cases r with
      | nil =>
        simp only [Option.some.injEq, Prod.mk.injEq] at h
        obtain ⟨rfl, rfl, rfl⟩ := h
        exact ⟨t, hn, h2, h3, by simpa using h1, fun _ => Or.inl rfl⟩
      | cons ch r' =>
        simp only at h
        by_cases hp : ch = '%'
        · simp only [hp, ne_eq, not_true_eq_false, if_false, Option.some.injEq, Prod.mk.injEq] at h
          obtain ⟨rfl, rfl, rfl⟩ := h
          refine ⟨t, hn, h2, h3, by simpa [hp] using h1, fun hc => by cases hc⟩
        · simp only [hp, ne_eq, not_false_eq_true, if_true, Option.some.injEq, Prod.mk.injEq] at h
          obtain ⟨rfl, rfl, rfl⟩ := h
          refine ⟨t, hn, h2, h3, by simpa using h1, fun _ => Or.inr ?_⟩
          simp [hp] at h4
          simp [h4]
  · rintro ⟨t, hn, h5, h6, rfl, hr⟩
    unfold parseNum
    cases per with
    | true =>
      rw [show t ++ (if true = true then ['%'] else []) ++ rest = t ++ ('%' :: rest) by simp,
        splitArg_append t ('%' :: rest) h5 h6 (by simp)]
      simp [hn]
    | false =>
      have hr := hr rfl
      rw [show t ++ (if false = true then ['%'] else []) ++ rest = t ++ rest by simp,
        splitArg_append t rest h5 h6 (by rcases hr with h | h <;> simp [h])]
      simp only [hn]
      cases rest with
      | nil => rfl
      | cons ch r' =>
        simp at hr
        subst hr
        simp

theorem firstArg_iff {e : Env F} (he : e.Ok) (args : Str) (v : F) (per : Bool) (rest : Str) :
    parseArg e args.length args = some (v, per, rest) ↔
      ∃ t, args = t ++ rest ∧ Arg e.num true t v per ∧ RestOk per rest := by
  have hnum : parseArg e args.length args = parseNum e args := by
    unfold parseArg
    cases args with
    | nil => simp [parseNum, splitArg, he.hnum]
    | cons ch r => simp
  rw [hnum, parseNum_iff]
  constructor
  · rintro ⟨t, h1, h2, h3, h4, h5⟩
    refine ⟨t ++ (if per then ['%'] else []), h4, ?_, h5⟩
    cases per
    · simpa using Arg.plain h1 h2 h3 (by simp)
    · simpa using Arg.percent h1 h2 h3 (by simp)
  · rintro ⟨t, h1, h2, h3⟩
    cases h2 with
    | plain a b c d => exact ⟨t, a, b, c, by simpa using h1, h3⟩
    | percent a b c d => exact ⟨_, a, b, c, by simpa using h1, h3⟩

theorem skipSpaces_eq (p : Str) : ∃ n, p = List.replicate n ' ' ++ skipSpaces p ∧ (skipSpaces p).head? ≠ some ' ' := by
  induction p with
  | nil => exact ⟨0, by simp [skipSpaces]⟩
  | cons ch rest ih =>
    obtain ⟨n, h1, h2⟩ := ih
    unfold skipSpaces
    split
    · rename_i h
      subst h
      exact ⟨n + 1, by rw [List.replicate_succ, List.cons_append, ← h1], h2⟩
    · rename_i h
      exact ⟨0, by simp, by simpa using h⟩

theorem skipSpaces_replicate (n : Nat) (p : Str) (hp : p.head? ≠ some ' ') : skipSpaces (List.replicate n ' ' ++ p) = p := by
  induction n with
  | zero =>
    cases p with
    | nil => rfl
    | cons ch rest =>
      simp at hp
      simp [skipSpaces, hp]
  | succ n ih => rw [List.replicate_succ, List.cons_append, skipSpaces, if_pos rfl, ih]

theorem nextArg_iff {e : Env F} (he : e.Ok) (size : Nat) (curr : Str) (hlt : curr.length < size) (v : F) (per : Bool)
    (rest : Str) : parseArg e size curr = some (v, per, rest) ↔
      ∃ s t, curr = s ++ (t ++ rest) ∧ IsSep s ∧ Arg e.num false t v per ∧ RestOk per rest := by
  cases curr with
  | nil =>
    unfold parseArg
    constructor
    · intro h; cases h
    · rintro ⟨s, t, h1, ⟨n, rfl⟩, -⟩
      simp at h1
  | cons ch r =>
    by_cases hch : ch = ','
    · subst hch
      obtain ⟨n, h1, h2⟩ := skipSpaces_eq r
      have hm : parseArg e size (',' :: r) = parseNum e (skipSpaces r) := by
        unfold parseArg
        simp only
        rw [if_pos (by omega), if_pos trivial]
        split
        · rename_i hs
          simp [hs, parseNum, splitArg, he.hnum]
        · rfl
      rw [hm, parseNum_iff]
      constructor
      · rintro ⟨t, h3, h4, h5, h6, h7⟩
        refine ⟨',' :: List.replicate n ' ', t ++ (if per then ['%'] else []), ?_, ⟨n, rfl⟩, ?_, h7⟩
        · rw [← h6, List.cons_append, ← h1]
        · have hne : t ≠ [] := by
            rintro rfl
            rw [he.hnum] at h3
            cases h3
          have hh : t.head? ≠ some ' ' := by
            rw [h6] at h2
            cases t with
            | nil => exact absurd rfl hne
            | cons a b => simpa using h2
          cases per
          · simpa using Arg.plain (first := false) h3 h4 h5 (fun _ => hh)
          · simpa using Arg.percent (first := false) h3 h4 h5 (fun _ => hh)
      · rintro ⟨s, t, h3, ⟨k, rfl⟩, h5, h6⟩
        rw [List.cons_append, List.cons.injEq] at h3
        have h3 := h3.2
        have hne : ∀ t : Str, e.num t = some v → t ≠ [] := by
          rintro t h rfl
          rw [he.hnum] at h
          cases h
        cases h5 with
        | plain a b c d =>
          have := hne _ a
          have hs : skipSpaces r = t ++ rest := by
            rw [h3, skipSpaces_replicate]
            have := d rfl
            cases t with
            | nil => contradiction
            | cons x y => simpa using this
          exact ⟨t, a, b, c, by rw [hs]; simp, h6⟩
        | @percent t' _ a b c d =>
          have := hne _ a
          have hs : skipSpaces r = t' ++ ['%'] ++ rest := by
            rw [h3, skipSpaces_replicate]
            have := d rfl
            cases t' with
            | nil => contradiction
            | cons x y => simpa using this
          exact ⟨t', a, b, c, by rw [hs]; simp, h6⟩
    · unfold parseArg
      simp only
      rw [if_pos (by omega), if_neg hch]
      constructor
      · intro h; cases h
      · rintro ⟨s, t, h1, ⟨n, rfl⟩, -⟩
        rw [List.cons_append, List.cons.injEq] at h1
        exact absurd h1.1 hch

theorem arg_ne_nil {e : Env F} (he : e.Ok) {first : Bool} {t : Str} {v : F} {per : Bool} (h : Arg e.num first t v per) :
    t ≠ [] := by
  rintro rfl
  generalize ht : ([] : Str) = t at h
  cases h with
  | plain a b c d => rw [← ht, he.hnum] at a; cases a
  | percent a b c d => simp at ht

theorem sep_rest {s t : Str} (h : IsSep s) (per : Bool) : RestOk per (s ++ t) := by
  obtain ⟨n, rfl⟩ := h
  intro _
  simp

theorem nil_rest (per : Bool) : RestOk per [] := fun _ => Or.inl rfl

/-- The three first arguments, and the rest. -/
theorem args3_iff {e : Env F} (he : e.Ok) (args : Str) (x y z : F × Bool) (rest : Str) :
    (∃ c1 c2, parseArg e args.length args = some (x.1, x.2, c1) ∧ parseArg e args.length c1 = some (y.1, y.2, c2) ∧
      parseArg e args.length c2 = some (z.1, z.2, rest)) ↔
    ∃ s0, args = s0 ++ rest ∧ Args3 e.num s0 x y z ∧ RestOk z.2 rest := by
  constructor
  · rintro ⟨c1, c2, h1, h2, h3⟩
    obtain ⟨t1, e1, a1, r1⟩ := (firstArg_iff he _ _ _ _).mp h1
    have n1 : 0 < t1.length := List.length_pos_of_ne_nil (arg_ne_nil he a1)
    have l1 : c1.length < args.length := by
      rw [e1, List.length_append]
      omega
    obtain ⟨s1, t2, e2, p1, a2, r2⟩ := (nextArg_iff he _ _ l1 _ _ _).mp h2
    have l2 : c2.length < args.length := by
      have := congrArg List.length e2
      simp only [List.length_append] at this
      omega
    obtain ⟨s2, t3, e3, p2, a3, r3⟩ := (nextArg_iff he _ _ l2 _ _ _).mp h3
    refine ⟨t1 ++ s1 ++ t2 ++ s2 ++ t3, ?_, ⟨t1, s1, t2, s2, t3, rfl, p1, p2, a1, a2, a3⟩, r3⟩
    rw [e1, e2, e3]
    simp
  · rintro ⟨s0, rfl, ⟨t1, s1, t2, s2, t3, rfl, p1, p2, a1, a2, a3⟩, r3⟩
    refine ⟨s1 ++ (t2 ++ (s2 ++ (t3 ++ rest))), s2 ++ (t3 ++ rest), ?_, ?_, ?_⟩
    · exact (firstArg_iff he _ _ _ _).mpr ⟨t1, by simp, a1, sep_rest p1 _⟩
    · have n1 : 0 < t1.length := List.length_pos_of_ne_nil (arg_ne_nil he a1)
      exact (nextArg_iff he _ _ (by simp only [List.length_append]; omega) _ _ _).mpr ⟨s1, t2, rfl, p1, a2, sep_rest p2 _⟩
    · have n1 : 0 < t1.length := List.length_pos_of_ne_nil (arg_ne_nil he a1)
      exact (nextArg_iff he _ _ (by simp only [List.length_append]; omega) _ _ _).mpr ⟨s2, t3, rfl, p2, a3, r3⟩

theorem parseArgs_three {e : Env F} (he : e.Ok) (args : Str) (x y z a : F × Bool) :
    parseArgs e args false = some (x, y, z, a) ↔ a = (e.one, false) ∧ Args3 e.num args x y z := by
  have key : parseArgs e args false = some (x, y, z, a) ↔ a = (e.one, false) ∧
      ∃ c1 c2, parseArg e args.length args = some (x.1, x.2, c1) ∧ parseArg e args.length c1 = some (y.1, y.2, c2) ∧
      parseArg e args.length c2 = some (z.1, z.2, []) := by
    unfold parseArgs
    obtain ⟨x1, x2⟩ := x
    obtain ⟨y1, y2⟩ := y
    obtain ⟨z1, z2⟩ := z
    obtain ⟨a1, a2⟩ := a
    cases h1 : parseArg e args.length args with
    | none => simp
    | some r1 =>
      obtain ⟨v1, p1, c1⟩ := r1
      simp only [Option.bind_eq_bind, Option.bind_some]
      cases h2 : parseArg e args.length c1 with
      | none =>
        simp only [Option.bind_none]
        constructor
        · intro h; cases h
        · rintro ⟨-, d1, d2, h3, h4, -⟩
          simp only [Option.some.injEq, Prod.mk.injEq] at h3
          obtain ⟨-, -, rfl⟩ := h3
          rw [h2] at h4
          cases h4
      | some r2 =>
        obtain ⟨v2, p2, c2⟩ := r2
        simp only [Option.bind_some]
        cases h3 : parseArg e args.length c2 with
        | none =>
          simp only [Option.bind_none]
          constructor
          · intro h; cases h
          · rintro ⟨-, d1, d2, h4, h5, h6⟩
            simp only [Option.some.injEq, Prod.mk.injEq] at h4
            obtain ⟨-, -, rfl⟩ := h4
            rw [h2] at h5
            simp only [Option.some.injEq, Prod.mk.injEq] at h5
            obtain ⟨-, -, rfl⟩ := h5
            rw [h3] at h6
            cases h6
        | some r3 =>
          obtain ⟨v3, p3, c3⟩ := r3
          simp only [Option.bind_some, Bool.not_false, if_true]
          constructor
          · intro h
            split at h
            · rename_i hc
              subst hc
              simp only [Option.some.injEq, Prod.mk.injEq] at h
              obtain ⟨⟨rfl, rfl⟩, ⟨rfl, rfl⟩, ⟨rfl, rfl⟩, rfl, rfl⟩ := h
              exact ⟨rfl, c1, c2, rfl, h2, h3⟩
            · cases h
          · rintro ⟨ha, d1, d2, h4, h5, h6⟩
            simp only [Option.some.injEq, Prod.mk.injEq] at h4
            obtain ⟨rfl, rfl, rfl⟩ := h4
            rw [h2] at h5
            simp only [Option.some.injEq, Prod.mk.injEq] at h5
            obtain ⟨rfl, rfl, rfl⟩ := h5
            rw [h3] at h6
            simp only [Option.some.injEq, Prod.mk.injEq] at h6
            obtain ⟨rfl, rfl, rfl⟩ := h6
            rw [if_pos rfl, ha]
  rw [key, args3_iff he]
  constructor
  · rintro ⟨h1, s0, h2, h3, -⟩
    rw [List.append_nil] at h2
    subst h2
    exact ⟨h1, h3⟩
  · rintro ⟨h1, h2⟩
    exact ⟨h1, args, by simp, h2, nil_rest _⟩

theorem parseArgs_four {e : Env F} (he : e.Ok) (args : Str) (x y z a : F × Bool) :
    parseArgs e args true = some (x, y, z, a) ↔ Args4 e.num args x y z a := by
  have key : parseArgs e args true = some (x, y, z, a) ↔
      ∃ c3, (∃ c1 c2, parseArg e args.length args = some (x.1, x.2, c1) ∧ parseArg e args.length c1 = some (y.1, y.2, c2) ∧
      parseArg e args.length c2 = some (z.1, z.2, c3)) ∧ parseArg e args.length c3 = some (a.1, a.2, []) := by
    unfold parseArgs
    obtain ⟨x1, x2⟩ := x
    obtain ⟨y1, y2⟩ := y
    obtain ⟨z1, z2⟩ := z
    obtain ⟨a1, a2⟩ := a
    simp only [Option.bind_eq_bind, Option.bind_eq_some_iff, Bool.not_true, Bool.false_eq_true, if_false]
    constructor
    · rintro ⟨⟨v1, p1, c1⟩, h1, ⟨v2, p2, c2⟩, h2, ⟨v3, p3, c3⟩, h3, ⟨v4, p4, c4⟩, h4, h5⟩
      split at h5
      · rename_i hc
        simp only at hc
        subst hc
        simp only [Option.some.injEq, Prod.mk.injEq] at h5
        obtain ⟨⟨rfl, rfl⟩, ⟨rfl, rfl⟩, ⟨rfl, rfl⟩, rfl, rfl⟩ := h5
        exact ⟨c3, ⟨c1, c2, h1, h2, h3⟩, h4⟩
      · cases h5
    · rintro ⟨c3, ⟨c1, c2, h1, h2, h3⟩, h4⟩
      exact ⟨_, h1, _, h2, _, h3, _, h4, by simp⟩
  rw [key]
  constructor
  · rintro ⟨c3, h1, h2⟩
    obtain ⟨s0, rfl, h3, h4⟩ := (args3_iff he _ _ _ _ _).mp h1
    have hl : c3.length < (s0 ++ c3).length := by
      obtain ⟨t1, s1, t2, s2, t3, rfl, p1, p2, a1, a2, a3⟩ := h3
      have n1 : 0 < t1.length := List.length_pos_of_ne_nil (arg_ne_nil he a1)
      simp only [List.length_append]
      omega
    obtain ⟨s, t, e1, p, a1, -⟩ := (nextArg_iff he _ _ hl _ _ _).mp h2
    exact ⟨s0, s, t, by rw [e1]; simp, h3, p, a1⟩
  · rintro ⟨s0, s, t, rfl, h3, p, a1⟩
    refine ⟨s ++ (t ++ []), (args3_iff he _ _ _ _ _).mpr ⟨s0, by simp, h3, sep_rest p _⟩, ?_⟩
    have hl : (s ++ (t ++ [])).length < (s0 ++ s ++ t).length := by
      obtain ⟨t1, s1, t2, s2, t3, rfl, p1, p2, a1, a2, a3⟩ := h3
      have n1 : 0 < t1.length := List.length_pos_of_ne_nil (arg_ne_nil he a1)
      simp only [List.length_append, List.length_nil]
      omega
    exact (nextArg_iff he _ _ hl _ _ _).mpr ⟨s, t, rfl, p, a1, nil_rest _⟩

theorem findParen_iff (s label args : Str) : findParen s = some (label, args) ↔ s = label ++ '(' :: args ∧ '(' ∉ label := by
  induction s generalizing label with
  | nil => simp [findParen]
  | cons ch rest ih =>
    unfold findParen
    by_cases h : ch = '('
    · subst h
      simp only [ne_eq, not_true_eq_false, if_false, Option.some.injEq, Prod.mk.injEq]
      constructor
      · rintro ⟨rfl, rfl⟩
        simp
      · rintro ⟨h1, h2⟩
        cases label with
        | nil => simpa using h1
        | cons a b =>
          simp only [List.cons_append, List.cons.injEq] at h1
          rw [← h1.1] at h2
          simp at h2
    · simp only [ne_eq, h, not_false_eq_true, if_true, Option.bind_eq_bind, Option.bind_eq_some_iff]
      constructor
      · rintro ⟨⟨l, a⟩, h1, h2⟩
        simp only [Option.some.injEq, Prod.mk.injEq] at h2
        obtain ⟨rfl, rfl⟩ := h2
        obtain ⟨rfl, h3⟩ := (ih l).mp h1
        refine ⟨rfl, ?_⟩
        simp only [List.mem_cons, not_or]
        exact ⟨fun hc => h hc.symm, h3⟩
      · rintro ⟨h1, h2⟩
        cases label with
        | nil =>
          simp only [List.nil_append, List.cons.injEq] at h1
          exact absurd h1.1 h
        | cons a b =>
          simp only [List.cons_append, List.cons.injEq] at h1
          obtain ⟨rfl, rfl⟩ := h1
          simp only [List.mem_cons, not_or] at h2
          exact ⟨(b, args), (ih b).mpr ⟨rfl, h2.2⟩, rfl⟩

/-- The representation of the colors of the functional notations. -/
def ofFunc : Func F → Css F
  | .rgb r g b a => .rgb r g b a
  | .rgbPercent r g b a => .rgbP r g b a
  | .hsl h s l a => .hsl h s l a

theorem parseRgbArgs_three {e : Env F} (he : e.Ok) (args : Str) (css : Css F) :
    parseRgbArgs e args false = some css ↔
      (∃ r g b, Args3 e.num args (r, false) (g, false) (b, false) ∧ css = .rgb r g b e.one) ∨
      (∃ r g b, Args3 e.num args (r, true) (g, true) (b, true) ∧ css = .rgbP r g b e.one) := by
  unfold parseRgbArgs
  simp only [Option.bind_eq_bind, Option.bind_eq_some_iff]
  constructor
  · rintro ⟨⟨⟨r, rp⟩, ⟨g, gp⟩, ⟨b, bp⟩, ⟨a, ap⟩⟩, h1, h2⟩
    obtain ⟨h3, h4⟩ := (parseArgs_three he _ _ _ _ _).mp h1
    simp only [Prod.mk.injEq] at h3
    obtain ⟨rfl, rfl⟩ := h3
    simp only at h2
    split at h2
    · rename_i hc
      obtain ⟨rfl, rfl, -⟩ := hc
      cases bp
      · left
        simp at h2
        exact ⟨r, g, b, h4, h2.symm⟩
      · right
        simp at h2
        exact ⟨r, g, b, h4, h2.symm⟩
    · cases h2
  · rintro (⟨r, g, b, h, rfl⟩ | ⟨r, g, b, h, rfl⟩)
    · exact ⟨_, (parseArgs_three he _ _ _ _ _).mpr ⟨rfl, h⟩, by simp⟩
    · exact ⟨_, (parseArgs_three he _ _ _ _ _).mpr ⟨rfl, h⟩, by simp⟩

theorem parseRgbArgs_four {e : Env F} (he : e.Ok) (args : Str) (css : Css F) :
    parseRgbArgs e args true = some css ↔
      (∃ r g b a, Args4 e.num args (r, false) (g, false) (b, false) (a, false) ∧ css = .rgb r g b a) ∨
      (∃ r g b a, Args4 e.num args (r, true) (g, true) (b, true) (a, false) ∧ css = .rgbP r g b a) := by
  unfold parseRgbArgs
  simp only [Option.bind_eq_bind, Option.bind_eq_some_iff]
  constructor
  · rintro ⟨⟨⟨r, rp⟩, ⟨g, gp⟩, ⟨b, bp⟩, ⟨a, ap⟩⟩, h1, h2⟩
    have h4 := (parseArgs_four he _ _ _ _ _).mp h1
    simp only at h2
    split at h2
    · rename_i hc
      obtain ⟨rfl, rfl, hap⟩ := hc
      simp at hap
      subst hap
      cases bp
      · left
        simp at h2
        exact ⟨r, g, b, a, h4, h2.symm⟩
      · right
        simp at h2
        exact ⟨r, g, b, a, h4, h2.symm⟩
    · cases h2
  · rintro (⟨r, g, b, a, h, rfl⟩ | ⟨r, g, b, a, h, rfl⟩)
    · exact ⟨_, (parseArgs_four he _ _ _ _ _).mpr h, by simp⟩
    · exact ⟨_, (parseArgs_four he _ _ _ _ _).mpr h, by simp⟩

theorem parseHslArgs_three {e : Env F} (he : e.Ok) (args : Str) (css : Css F) :
    parseHslArgs e args false = some css ↔
      ∃ h s l, Args3 e.num args (h, false) (s, true) (l, true) ∧ css = .hsl h s l e.one := by
  unfold parseHslArgs
  simp only [Option.bind_eq_bind, Option.bind_eq_some_iff]
  constructor
  · rintro ⟨⟨⟨r, rp⟩, ⟨g, gp⟩, ⟨b, bp⟩, ⟨a, ap⟩⟩, h1, h2⟩
    obtain ⟨h3, h4⟩ := (parseArgs_three he _ _ _ _ _).mp h1
    simp only [Prod.mk.injEq] at h3
    obtain ⟨rfl, rfl⟩ := h3
    simp only at h2
    split at h2
    · rename_i hc
      obtain ⟨hr, rfl, rfl, -⟩ := hc
      simp at hr
      subst hr
      simp at h2
      exact ⟨r, g, b, h4, h2.symm⟩
    · cases h2
  · rintro ⟨r, g, b, h, rfl⟩
    exact ⟨_, (parseArgs_three he _ _ _ _ _).mpr ⟨rfl, h⟩, by simp⟩

theorem parseHslArgs_four {e : Env F} (he : e.Ok) (args : Str) (css : Css F) :
    parseHslArgs e args true = some css ↔
      ∃ h s l a, Args4 e.num args (h, false) (s, true) (l, true) (a, false) ∧ css = .hsl h s l a := by
  unfold parseHslArgs
  simp only [Option.bind_eq_bind, Option.bind_eq_some_iff]
  constructor
  · rintro ⟨⟨⟨r, rp⟩, ⟨g, gp⟩, ⟨b, bp⟩, ⟨a, ap⟩⟩, h1, h2⟩
    have h4 := (parseArgs_four he _ _ _ _ _).mp h1
    simp only at h2
    split at h2
    · rename_i hc
      obtain ⟨hr, rfl, rfl, ha⟩ := hc
      simp at hr ha
      subst hr ha
      simp at h2
      exact ⟨r, g, b, a, h4, h2.symm⟩
    · cases h2
  · rintro ⟨r, g, b, a, h, rfl⟩
    exact ⟨_, (parseArgs_four he _ _ _ _ _).mpr h, by simp⟩

theorem parseFunc_iff {e : Env F} (he : e.Ok) (s : Str) (css : Css F) :
    parseFunc e s = some css ↔ ∃ f, FuncNotation e.num e.one s f ∧ css = ofFunc f := by
  have hfp : ∀ label args : Str, '(' ∉ label → findParen (label ++ '(' :: args) = some (label, args) :=
    fun label args h => (findParen_iff _ _ _).mpr ⟨rfl, h⟩
  have happ : ∀ (label : Str) (args : Str), label ++ '(' :: args = (label ++ ['(']) ++ args := by simp
  constructor
  · intro h
    unfold parseFunc at h
    cases hf : findParen s with
    | none => simp [hf] at h
    | some r =>
      obtain ⟨label, args⟩ := r
      obtain ⟨rfl, hp⟩ := (findParen_iff _ _ _).mp hf
      simp only [hf] at h
      rw [happ]
      split at h
      · rename_i hl
        rcases hl with rfl | rfl
        · rw [show decide ("rgb".toList = "rgba".toList) = false by decide, parseRgbArgs_three he] at h
          rcases h with ⟨r, g, b, h, rfl⟩ | ⟨r, g, b, h, rfl⟩
          · exact ⟨_, .rgb h, rfl⟩
          · exact ⟨_, .rgbP h, rfl⟩
        · rw [show decide ("rgba".toList = "rgba".toList) = true by decide, parseRgbArgs_four he] at h
          rcases h with ⟨r, g, b, a, h, rfl⟩ | ⟨r, g, b, a, h, rfl⟩
          · exact ⟨_, .rgba h, rfl⟩
          · exact ⟨_, .rgbaP h, rfl⟩
      · split at h
        · rename_i hl
          rcases hl with rfl | rfl
          · rw [show decide ("hsl".toList = "hsla".toList) = false by decide, parseHslArgs_three he] at h
            obtain ⟨r, g, b, h, rfl⟩ := h
            exact ⟨_, .hsl h, rfl⟩
          · rw [show decide ("hsla".toList = "hsla".toList) = true by decide, parseHslArgs_four he] at h
            obtain ⟨r, g, b, a, h, rfl⟩ := h
            exact ⟨_, .hsla h, rfl⟩
        · cases h
  · rintro ⟨f, h, rfl⟩
    unfold parseFunc
    cases h with
    | @rgb args r g b h =>
      have hf : findParen ("rgb(".toList ++ args) = some ("rgb".toList, args) := hfp "rgb".toList args (by decide)
      simp only [hf]
      rw [if_pos (by decide), show decide ("rgb".toList = "rgba".toList) = false by decide, parseRgbArgs_three he]
      exact Or.inl ⟨_, _, _, h, rfl⟩
    | @rgbP args r g b h =>
      have hf : findParen ("rgb(".toList ++ args) = some ("rgb".toList, args) := hfp "rgb".toList args (by decide)
      simp only [hf]
      rw [if_pos (by decide), show decide ("rgb".toList = "rgba".toList) = false by decide, parseRgbArgs_three he]
      exact Or.inr ⟨_, _, _, h, rfl⟩
    | @rgba args r g b a h =>
      have hf : findParen ("rgba(".toList ++ args) = some ("rgba".toList, args) := hfp "rgba".toList args (by decide)
      simp only [hf]
      rw [if_pos (by decide), show decide True = true by decide, parseRgbArgs_four he]
      exact Or.inl ⟨_, _, _, _, h, rfl⟩
    | @rgbaP args r g b a h =>
      have hf : findParen ("rgba(".toList ++ args) = some ("rgba".toList, args) := hfp "rgba".toList args (by decide)
      simp only [hf]
      rw [if_pos (by decide), show decide True = true by decide, parseRgbArgs_four he]
      exact Or.inr ⟨_, _, _, _, h, rfl⟩
    | @hsl args r g b h =>
      have hf : findParen ("hsl(".toList ++ args) = some ("hsl".toList, args) := hfp "hsl".toList args (by decide)
      simp only [hf]
      rw [if_neg (by decide), if_pos (by decide), show decide ("hsl".toList = "hsla".toList) = false by decide,
        parseHslArgs_three he]
      exact ⟨_, _, _, h, rfl⟩
    | @hsla args r g b a h =>
      have hf : findParen ("hsla(".toList ++ args) = some ("hsla".toList, args) := hfp "hsla".toList args (by decide)
      simp only [hf]
      rw [if_neg (by decide), if_pos (by decide), show decide True = true by decide,
        parseHslArgs_four he]
      exact ⟨_, _, _, _, h, rfl⟩

end Verif.CssColor
