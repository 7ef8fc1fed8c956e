import Verif.AsList.Spec

/-!
# Lemmas about formatting and parsing of lists
-/

namespace Verif.AsList

open Spec

theorem allowSpace_eq (c : Config) : allowSpace c = accepting c.space := by
  cases h : c.space <;> simp [allowSpace, accepting, h]

/-! ### Formatting -/

theorem glue_eq (c : Config) : glue c = [c.separator] ++ spaceIf (spaceAfterSeparator c) := by
  cases h : c.space <;> simp [glue, spaceAfterSeparator, spaceIf, h]
  split <;> simp_all

theorem format_inner (c : Config) (text : List Char) (rest : List (List Char)) :
    text ++ formatRest c rest = List.intercalate (glue c) (text :: rest) := by
  induction rest generalizing text with
  | nil => simp [formatRest, List.intercalate]
  | cons t rest ih =>
    rw [formatRest, List.append_assoc, ih t, ← glue_eq]
    simp [List.intercalate, List.intersperse]

theorem format_eq (c : Config) (texts : List (List Char)) (h : texts ≠ [] ∨ c.bracketed = false ∨ c.space ≠ .loose) :
    formatAsList c texts = documented c texts := by
  unfold formatAsList documented
  have hs : spaceIf (spaceInsideBrackets c) = if c.space = .loose then [' '] else [] := by
    cases h : c.space <;> simp [spaceInsideBrackets, spaceIf, h]
  have hp : c.bracketed = true → (if c.space = .loose ∧ texts ≠ [] then [' '] else []) = spaceIf (spaceInsideBrackets c) := by
    intro hb
    rw [hs]
    by_cases hl : c.space = .loose
    · have : texts ≠ [] := by
        rcases h with h | h | h
        · exact h
        · rw [hb] at h; cases h
        · exact absurd hl h
      simp [hl, this]
    · simp [hl]
  have hi : formatElems c texts = List.intercalate (glue c) texts := by
    cases texts with
    | nil => rfl
    | cons text rest => exact format_inner c text rest
  rw [hi]
  cases hb : c.bracketed
  · simp
  · simp only [if_true, hp hb, List.append_assoc]

/-! ### Parsing -/

theorem takeWhile_sep {s : Char} {p tail : List Char} (h : s ∉ p) (ht : tail = [] ∨ tail.head? = some s) :
    (p ++ tail).takeWhile (· ≠ s) = p ∧ (p ++ tail).dropWhile (· ≠ s) = tail := by
  have h1 : ∀ a ∈ p, decide (a ≠ s) = true := fun a ha => by
    rw [decide_eq_true_eq]; intro e; subst e; exact h ha
  rw [List.takeWhile_append_of_pos h1, List.dropWhile_append_of_pos h1]
  rcases ht with rfl | ht
  · simp
  · cases tail with
    | nil => simp
    | cons x t =>
      simp only [List.head?_cons, Option.some.injEq] at ht
      subst ht
      simp

theorem dropWhile_space {sp rest : List Char} (h : ∀ x ∈ sp, x = ' ') (hr : rest.head? ≠ some ' ') :
    (sp ++ rest).dropWhile (· = ' ') = rest := by
  rw [List.dropWhile_append_of_pos (by simpa using h)]
  cases rest with
  | nil => rfl
  | cons x t =>
    have : x ≠ ' ' := fun e => hr (by simp [e])
    simp [this]

theorem exists_space (l : List Char) : ∃ sp rest, l = sp ++ rest ∧ (∀ x ∈ sp, x = ' ') ∧ rest.head? ≠ some ' ' ∧ l.dropWhile (· = ' ') = rest := by
  refine ⟨l.takeWhile (· = ' '), l.dropWhile (· = ' '), (List.takeWhile_append_dropWhile).symm, ?_, ?_, rfl⟩
  · intro x hx
    simpa using List.mem_takeWhile_imp hx
  · intro h
    have := List.head?_dropWhile_not (fun x : Char => decide (x = ' ')) l
    rw [h] at this
    simp at this

/-- The items are determined by the text. -/
theorem items_unique {s : Char} {allow : Bool} {text : List Char} {ps qs : List (List Char)} (h1 : Items s allow text ps)
    (h2 : Items s allow text qs) : ps = qs := by
  induction h1 generalizing qs with
  | last p h =>
    generalize ht : p = text at h2
    cases h2 with
    | last q hq => rfl
    | cons q sp rest qs hq _ _ _ _ =>
      subst ht
      simp at h
  | cons p sp rest ps h hsp hno hmax hrest ih =>
    generalize ht : p ++ s :: (sp ++ rest) = text at h2
    cases h2 with
    | last q hq =>
      subst ht
      simp at hq
    | cons q sp' rest' qs hq hsp' hno' hmax' hrest' =>
      have e1 := takeWhile_sep (tail := s :: (sp ++ rest)) h (Or.inr rfl)
      have e2 := takeWhile_sep (tail := s :: (sp' ++ rest')) hq (Or.inr rfl)
      rw [ht, e2.1, e2.2] at e1
      obtain ⟨rfl, e⟩ := e1
      rw [List.cons.injEq] at e
      have e := e.2
      have er : rest' = rest := by
        cases allow with
        | false =>
          rw [hno rfl, hno' rfl] at e
          exact e
        | true =>
          have a1 := dropWhile_space hsp (hmax rfl)
          have a2 := dropWhile_space hsp' (hmax' rfl)
          rw [← a2, e, a1]
      subst er
      rw [ih hrest']

theorem items_exists (s : Char) (allow : Bool) : ∀ (n : ℕ) (text : List Char), text.length < n → ∃ ps, Items s allow text ps := by
  intro n
  induction n with
  | zero => intro text h; omega
  | succ n ih =>
    intro text h
    by_cases hs : s ∈ text
    · have hex : ∃ p tail, text = p ++ s :: tail ∧ s ∉ p := by
        refine ⟨text.takeWhile (· ≠ s), (text.dropWhile (· ≠ s)).tail, ?_, ?_⟩
        · have h1 : text.dropWhile (· ≠ s) ≠ [] := by
            intro h2
            rw [List.dropWhile_eq_nil_iff] at h2
            have := h2 s hs
            simp at this
          have h3 : (text.dropWhile (· ≠ s)).head h1 = s := by
            have := List.head_dropWhile_not (fun x : Char => decide (x ≠ s)) h1
            simpa using this
          have h4 : s :: (text.dropWhile (· ≠ s)).tail = text.dropWhile (· ≠ s) := by
            conv_rhs => rw [← List.cons_head_tail h1]
            rw [h3]
          rw [h4]
          exact (List.takeWhile_append_dropWhile).symm
        · intro hm
          have := List.mem_takeWhile_imp hm
          simp at this
      obtain ⟨p, tail, rfl, hp⟩ := hex
      cases allow with
      | false =>
        obtain ⟨ps, hps⟩ := ih tail (by simp at h; omega)
        exact ⟨_, Items.cons p [] tail ps hp (by simp) (fun _ => rfl) (fun h => by cases h) hps⟩
      | true =>
        obtain ⟨sp, rest, rfl, h1, h2, -⟩ := exists_space tail
        obtain ⟨ps, hps⟩ := ih rest (by simp at h; omega)
        exact ⟨_, Items.cons p sp rest ps hp h1 (fun h => by cases h) (fun _ => h2) hps⟩
    · exact ⟨[text], Items.last text hs⟩

theorem items_ne_nil {s : Char} {allow : Bool} {text : List Char} {ps : List (List Char)} (h : Items s allow text ps) : ps ≠ [] := by
  cases h <;> simp

/-- What parsing does in terms of items. -/
theorem parseLoop_spec {V : Type} (c : Config) (P : Parser V) {text : List Char} {ps : List (List Char)}
    (h : Items c.separator (accepting c.space) text ps) : ∀ (seq : List V), seq ≠ [] →
    (parseLoop c P text seq).2.2.length = seq.length ∧
    ((parseLoop c P text seq).1 = true ↔ ps.length ≤ seq.length ∧ ∀ p ∈ ps, (P.parse p).isSome) ∧
    ((parseLoop c P text seq).1 = true → (parseLoop c P text seq).2.1 = ps.length ∧
      ((parseLoop c P text seq).2.2.take ps.length).map some = ps.map P.parse ∧
      (parseLoop c P text seq).2.2.drop ps.length = seq.drop ps.length) := by
  induction h with
  | last p h =>
    intro seq hseq
    have e := takeWhile_sep (tail := []) h (Or.inl rfl)
    rw [List.append_nil] at e
    cases seq with
    | nil => exact absurd rfl hseq
    | cons old rest =>
      rw [parseLoop]
      simp only [e.1, e.2]
      cases hp : P.parse p with
      | none => simp [hp]
      | some val =>
        by_cases hr : rest = []
        · subst hr; simp [hp]
        · simp [hr, hp]
  | cons p sp rest' ps h hsp hno hmax hrest ih =>
    intro seq hseq
    have e := takeWhile_sep (tail := c.separator :: (sp ++ rest')) h (Or.inr rfl)
    have hd : (if allowSpace c = true then (sp ++ rest').dropWhile (· = ' ') else sp ++ rest') = rest' := by
      rw [allowSpace_eq]
      cases ha : accepting c.space with
      | false => rw [hno ha]; simp
      | true => rw [if_pos rfl]; exact dropWhile_space hsp (hmax ha)
    cases seq with
    | nil => exact absurd rfl hseq
    | cons old rest =>
      rw [parseLoop]
      simp only [e.1, e.2]
      have hpos : 0 < ps.length := List.length_pos_iff.mpr (items_ne_nil hrest)
      cases hp : P.parse p with
      | none => simp [hp]
      | some val =>
        by_cases hr : rest = []
        · subst hr
          simp only [ne_eq, not_true_eq_false, if_false, reduceCtorEq, decide_false, List.length_cons, List.length_nil, Bool.false_eq_true,
            false_iff, false_implies, and_true, true_and]
          omega
        · simp only [ne_eq, hr, not_false_eq_true, if_true, hd]
          obtain ⟨i1, i2, i3⟩ := ih rest hr
          refine ⟨by simp [i1], ?_, ?_⟩
          · rw [i2]
            simp [hp]
          · intro hs
            obtain ⟨j1, j2, j3⟩ := i3 hs
            simp [j1, j2, j3, hp]

/-- Removal of brackets. -/
theorem body_spec (c : Config) (str text : List Char) (hb : c.bracketed = true) :
    body c str = some text ↔ ∃ sp1 sp2, str = c.openingBracket :: (sp1 ++ text ++ sp2 ++ [c.closingBracket]) ∧ (∀ x ∈ sp1 ++ sp2, x = ' ') ∧
      (accepting c.space = false → sp1 = [] ∧ sp2 = []) ∧ (accepting c.space = true → text.head? ≠ some ' ' ∧ text.getLast? ≠ some ' ') := by
  have htrim : ∀ t : List Char, ∃ sp1 sp2, t = sp1 ++ ((t.dropWhile (· = ' ')).rdropWhile (· = ' ')) ++ sp2 ∧ (∀ x ∈ sp1 ++ sp2, x = ' ') ∧
      ((t.dropWhile (· = ' ')).rdropWhile (· = ' ')).head? ≠ some ' ' ∧ ((t.dropWhile (· = ' ')).rdropWhile (· = ' ')).getLast? ≠ some ' ' := by
    intro t
    obtain ⟨sp1, rest, h1, h2, h3, h4⟩ := exists_space t
    rw [h4]
    refine ⟨sp1, rest.rtakeWhile (· = ' '), ?_, ?_, ?_, ?_⟩
    · rw [List.append_assoc, List.rdropWhile_append_rtakeWhile]; exact h1
    · intro x hx
      rcases List.mem_append.mp hx with hx | hx
      · exact h2 x hx
      · simpa using List.mem_rtakeWhile_imp hx
    · intro hh
      have hpre := List.rdropWhile_prefix (fun x : Char => decide (x = ' ')) (l := rest)
      obtain ⟨tl, htl⟩ := hpre
      apply h3
      rw [← htl, List.head?_append, hh]
      rfl
    · intro hh
      have hne : rest.rdropWhile (fun x : Char => decide (x = ' ')) ≠ [] := by
        intro e
        rw [e] at hh
        cases hh
      have := List.rdropWhile_last_not (fun x : Char => decide (x = ' ')) rest hne
      rw [List.getLast?_eq_some_getLast hne, Option.some.injEq] at hh
      rw [hh] at this
      simp at this
  have huniq : ∀ sp1 t sp2 : List Char, (∀ x ∈ sp1 ++ sp2, x = ' ') → t.head? ≠ some ' ' → t.getLast? ≠ some ' ' →
      ((sp1 ++ t ++ sp2).dropWhile (· = ' ')).rdropWhile (· = ' ') = t := by
    intro sp1 t sp2 h1 h2 h3
    cases t with
    | nil =>
      have e : (sp1 ++ [] ++ sp2).dropWhile (fun x : Char => decide (x = ' ')) = [] := by
        rw [List.dropWhile_eq_nil_iff]
        intro x hx
        simpa using h1 x (by simpa using hx)
      rw [e]; simp
    | cons a t =>
      rw [List.append_assoc, dropWhile_space (fun x hx => h1 x (List.mem_append_left _ hx))
        (by rw [List.cons_append, List.head?_cons]; simpa using h2)]
      have : (sp2.reverse ++ (a :: t).reverse).dropWhile (fun x : Char => decide (x = ' ')) = (a :: t).reverse := by
        apply dropWhile_space
        · intro x hx
          exact h1 x (List.mem_append_right _ (List.mem_reverse.mp hx))
        · rw [List.head?_reverse]; exact h3
      rw [List.rdropWhile, List.reverse_append, this, List.reverse_reverse]
  unfold body
  rw [if_pos hb]
  constructor
  · intro h
    cases str with
    | nil => cases h
    | cons x rest =>
      simp only at h
      split_ifs at h with h1 h2 h3
      · cases h
        rw [allowSpace_eq] at h3
        have hx : x = c.openingBracket := by simpa using h1
        have hrest : rest = rest.dropLast ++ [c.closingBracket] := by
          obtain ⟨l, hl⟩ := List.getLast?_eq_some_iff.mp (not_not.mp (not_or.mp h2).2)
          rw [hl]; simp
        obtain ⟨sp1, sp2, e1, e2, e3, e4⟩ := htrim rest.dropLast
        refine ⟨sp1, sp2, ?_, e2, (fun h => by rw [h3] at h; cases h), fun _ => ⟨e3, e4⟩⟩
        rw [← e1, ← hrest, hx]
      · cases h
        rw [allowSpace_eq] at h3
        have hx : x = c.openingBracket := by simpa using h1
        have hrest : rest = rest.dropLast ++ [c.closingBracket] := by
          obtain ⟨l, hl⟩ := List.getLast?_eq_some_iff.mp (not_not.mp (not_or.mp h2).2)
          rw [hl]; simp
        refine ⟨[], [], ?_, by simp, fun _ => ⟨rfl, rfl⟩, fun h => absurd h h3⟩
        simp only [List.nil_append, List.append_nil]
        rw [← hrest, hx]
  · rintro ⟨sp1, sp2, rfl, h1, h2, h3⟩
    simp only [ne_eq, not_true_eq_false, if_false, List.append_eq_nil_iff, reduceCtorEq, and_false, List.getLast?_append, List.getLast?_singleton,
      Option.some_or, or_self, allowSpace_eq]
    have e : (sp1 ++ text ++ sp2 ++ [c.closingBracket]).dropLast = sp1 ++ text ++ sp2 := List.dropLast_concat
    rw [e]
    cases ha : accepting c.space with
    | false =>
      obtain ⟨rfl, rfl⟩ := h2 ha
      simp
    | true =>
      rw [if_pos rfl, huniq sp1 text sp2 h1 (h3 ha).1 (h3 ha).2]

/-- What the first part of parsing does in terms of the syntax. -/
theorem syntax_iff (c : Config) (str : List Char) (ps : List (List Char)) :
    Syntax c str ps ↔ ∃ text, body c str = some text ∧ Items c.separator (accepting c.space) text ps := by
  unfold Syntax
  cases hb : c.bracketed with
  | false =>
    simp only [Bool.false_eq_true, if_false]
    have : body c str = some str := by unfold body; rw [hb]; rfl
    rw [this]
    simp
  | true =>
    simp only [if_true, body_spec c str _ hb]
    constructor
    · rintro ⟨sp1, text, sp2, h1, h2, h3, h4, h5⟩
      exact ⟨text, ⟨sp1, sp2, h1, h2, h3, h4⟩, h5⟩
    · rintro ⟨text, ⟨sp1, sp2, h1, h2, h3, h4⟩, h5⟩
      exact ⟨sp1, text, sp2, h1, h2, h3, h4, h5⟩

theorem parseAsList_spec {V : Type} (c : Config) (P : Parser V) (str : List Char) (seq : List V) (hseq : seq ≠ []) :
    (parseAsList c P str seq).2.2.length = seq.length ∧
    ((parseAsList c P str seq).1 = true ↔ ∃ ps, Syntax c str ps ∧ ps.length ≤ seq.length ∧ ∀ p ∈ ps, (P.parse p).isSome) ∧
    ((parseAsList c P str seq).1 = true → ∀ ps, Syntax c str ps → (parseAsList c P str seq).2.1 = ps.length ∧
      ((parseAsList c P str seq).2.2.take ps.length).map some = ps.map P.parse ∧
      (parseAsList c P str seq).2.2.drop ps.length = seq.drop ps.length) := by
  unfold parseAsList
  cases hb : body c str with
  | none =>
    have hno : ∀ ps, ¬ Syntax c str ps := by
      intro ps h
      obtain ⟨t, h1, -⟩ := (syntax_iff c str ps).mp h
      rw [hb] at h1
      cases h1
    simp [hno]
  | some text =>
    simp only [ne_eq, hseq, not_false_eq_true, if_true]
    obtain ⟨ps, hps⟩ := items_exists c.separator (accepting c.space) (text.length + 1) text (by omega)
    have hsyn : ∀ qs, Syntax c str qs ↔ qs = ps := by
      intro qs
      rw [syntax_iff, hb]
      constructor
      · rintro ⟨t, h1, h2⟩
        cases h1
        exact items_unique h2 hps
      · rintro rfl
        exact ⟨text, rfl, hps⟩
    obtain ⟨h1, h2, h3⟩ := parseLoop_spec c P hps seq hseq
    refine ⟨h1, ?_, ?_⟩
    · rw [h2]
      simp [hsyn]
    · intro hs qs hq
      rw [hsyn] at hq
      subst hq
      exact h3 hs

/-! ### Round trip -/

theorem items_format (c : Config) : ∀ (text : List Char) (rest : List (List Char)), (∀ t ∈ text :: rest, Suitable c t) →
    Items c.separator (accepting c.space) (List.intercalate (glue c) (text :: rest)) (text :: rest) := by
  intro text rest
  induction rest generalizing text with
  | nil =>
    intro h
    simpa [List.intercalate] using Items.last text (h text (by simp)).1
  | cons t rest ih =>
    intro h
    have e : List.intercalate (glue c) (text :: t :: rest) =
        text ++ c.separator :: (spaceIf (spaceAfterSeparator c) ++ List.intercalate (glue c) (t :: rest)) := by
      rw [← format_inner, formatRest, List.append_assoc, format_inner]
      simp
    rw [e]
    refine Items.cons text _ _ _ (h text (by simp)).1 ?_ ?_ ?_ (ih t fun x hx => h x (List.mem_cons_of_mem _ hx))
    · intro x hx
      unfold spaceIf at hx
      split at hx <;> simp at hx
      exact hx
    · intro ha
      have : c.space = .none := by
        cases hs : c.space <;> rw [hs] at ha <;> simp [accepting] at ha
      simp [spaceAfterSeparator, this, spaceIf]
    · intro ha
      rw [← format_inner]
      obtain ⟨h1, h2, -⟩ := (h t (by simp)).2 ha
      rw [List.head?_append]
      cases t with
      | nil => exact absurd rfl h1
      | cons x t => simpa using h2

theorem intercalate_ends (c : Config) (text : List Char) (rest : List (List Char)) (h : ∀ t ∈ text :: rest, Suitable c t)
    (ha : accepting c.space = true) :
    (List.intercalate (glue c) (text :: rest)).head? ≠ some ' ' ∧ (List.intercalate (glue c) (text :: rest)).getLast? ≠ some ' ' := by
  constructor
  · rw [← format_inner]
    obtain ⟨h1, h2, -⟩ := (h text (by simp)).2 ha
    rw [List.head?_append]
    cases text with
    | nil => exact absurd rfl h1
    | cons x t => simpa using h2
  · induction rest generalizing text with
    | nil =>
      have := ((h text (by simp)).2 ha).2.2
      simpa [List.intercalate] using this
    | cons t rest ih =>
      have e : List.intercalate (glue c) (text :: t :: rest) =
          (text ++ c.separator :: spaceIf (spaceAfterSeparator c)) ++ List.intercalate (glue c) (t :: rest) := by
        rw [← format_inner, formatRest, List.append_assoc, format_inner]
        simp
      rw [e]
      have hi := ih t fun x hx => h x (List.mem_cons_of_mem _ hx)
      have hne : List.intercalate (glue c) (t :: rest) ≠ [] := by
        rw [← format_inner]
        have := ((h t (by simp)).2 ha).1
        simp [this]
      rw [List.getLast?_append_of_ne_nil _ hne]
      exact hi

/-- What is formatted has the right syntax. -/
theorem syntax_format (c : Config) (texts : List (List Char)) (hne : texts ≠ []) (h : ∀ t ∈ texts, Suitable c t) :
    Syntax c (formatAsList c texts) texts := by
  rw [format_eq c texts (Or.inl hne)]
  cases texts with
  | nil => exact absurd rfl hne
  | cons text rest =>
    have h1 := items_format c text rest h
    unfold Syntax documented
    cases hb : c.bracketed with
    | false => simpa using h1
    | true =>
      simp only [if_true]
      refine ⟨if c.space = .loose ∧ text :: rest ≠ [] then [' '] else [], List.intercalate (glue c) (text :: rest),
        if c.space = .loose ∧ text :: rest ≠ [] then [' '] else [], by simp, ?_, ?_, ?_, h1⟩
      · intro x hx
        split at hx <;> simp at hx
        exact hx
      · intro ha
        have : c.space ≠ .loose := fun e => by rw [e] at ha; simp [accepting] at ha
        simp [this]
      · exact intercalate_ends c text rest h

end Verif.AsList
