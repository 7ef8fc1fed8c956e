import Verif.CliProc.ProcessMain
/-!
Command-line arguments can be read in exactly one way, and what happens is determined.
-/
namespace Verif.CliProc

open Verif.CliPattern Verif.CliSpec

section
variable {D : Cmd}

theorem Cmd.Allows.known {n : OptName} (h : D.Allows n) : D.Known n := by
  obtain ⟨j, _, h, _⟩ := h
  exact Or.inl ⟨j, h⟩

theorem compound_total : ∀ (cs : Str) (first : Bool) (next : Option Str), first = false ∨ cs ≠ [] →
    ∃ items two, Compound D first cs next items two ∧ (two = true → next ≠ none)
  | [], first, next, h => by
    obtain rfl : first = false := by simpa using h
    exact ⟨_, _, .done, by simp⟩
  | ch :: cs, first, next, _ => by
    by_cases hk : D.Known (.short ch)
    · by_cases ha : D.Allows (.short ch)
      · cases cs with
        | nil =>
          by_cases hr : D.Requires (.short ch)
          · cases next with
            | none => exact ⟨_, _, .missing hr, by simp⟩
            | some v => exact ⟨_, _, .separate hr, by simp⟩
          · exact ⟨_, _, .bare ha hr, by simp⟩
        | cons x xs => exact ⟨_, _, .attached ha (by simp), by simp⟩
      · by_cases hd : cs.head? = some 45
        · exact ⟨_, _, .unexpected hk ha hd, by simp⟩
        · obtain ⟨items, two, h1, h2⟩ := compound_total cs false next (Or.inl rfl)
          exact ⟨_, _, .plain hk ha hd h1, h2⟩
    · exact ⟨_, _, .unknown hk, by simp⟩

theorem long_split (s : Str) : 61 ∉ s ∨ ∃ l v, s = l ++ 61 :: v ∧ 61 ∉ l := by
  induction s with
  | nil => exact Or.inl (by simp)
  | cons x s ih =>
    by_cases hx : x = 61
    · exact Or.inr ⟨[], s, by simp [hx], by simp⟩
    · rcases ih with h | ⟨l, v, rfl, h⟩
      · exact Or.inl (by simp only [List.mem_cons, not_or]; exact ⟨fun h => hx h.symm, h⟩)
      · exact Or.inr ⟨x :: l, v, rfl, by simp only [List.mem_cons, not_or]; exact ⟨fun h => hx h.symm, h⟩⟩

theorem split_unique {l v l' v' : Str} (h : l ++ 61 :: v = l' ++ 61 :: v') (hl : 61 ∉ l) (hl' : 61 ∉ l') : l = l' ∧ v = v' := by
  have h1 := findIdx_name hl v
  rw [h, findIdx_name hl' v'] at h1
  have h2 := List.append_inj h h1.symm
  exact ⟨h2.1, by simpa using h2.2⟩

theorem reads_total (further : Bool) (s : Str) (next : Option Str) : ∃ items two, Reads D further s next items two ∧ (two = true → next ≠ none) := by
  by_cases hw : further = true ∨ s.length < 2 ∨ s.head? ≠ some 45
  · exact ⟨_, _, .word hw, by simp⟩
  · simp only [not_or, Bool.not_eq_true, Nat.not_lt, not_not] at hw
    obtain ⟨hf, hl, hh⟩ := hw
    obtain ⟨ch, cs, rfl⟩ : ∃ ch cs, s = 45 :: ch :: cs := by
      rcases s with _ | ⟨x, _ | ⟨y, s⟩⟩
      · simp at hl
      · simp at hl
      · simp only [List.head?_cons, Option.some.injEq] at hh
        subst hh
        exact ⟨_, _, rfl⟩
    by_cases hc : ch = 45
    · subst hc
      rcases long_split cs with h | ⟨l, v, rfl, h⟩
      · by_cases hk : D.Known (.long cs)
        · by_cases hr : D.Requires (.long cs)
          · cases next with
            | none => exact ⟨_, _, .missing hf h hr, by simp⟩
            | some v => exact ⟨_, _, .separate hf h hr, by simp⟩
          · exact ⟨_, _, .long hf h hk hr, by simp⟩
        · exact ⟨_, _, .unknown hf h hk, by simp⟩
      · by_cases hk : D.Known (.long l)
        · by_cases ha : D.Allows (.long l)
          · exact ⟨_, _, .assigned hf h ha, by simp⟩
          · exact ⟨_, _, .unexpected hf h hk ha, by simp⟩
        · exact ⟨_, _, .unknownAssigned hf h hk, by simp⟩
    · obtain ⟨items, two, h1, h2⟩ := compound_total (D := D) (ch :: cs) true next (Or.inr (by simp))
      exact ⟨_, _, .short hf hc h1, h2⟩

theorem readsAll_total (D : Cmd) (further : Bool) (i : Nat) (args : List Str) : ∃ gs, ReadsAll D further i args gs := by
  induction hn : args.length using Nat.strong_induction_on generalizing further i args with
  | _ n ih =>
    cases args with
    | nil => exact ⟨_, .done⟩
    | cons s args =>
      obtain ⟨items, two, h1, h2⟩ := reads_total (D := D) further s args.head?
      classical
      have hf : (decide (further = true ∨ ∃ n v, .option n v ∈ items ∧ D.EndsOptions n)) = true ↔
          further = true ∨ ∃ n v, .option n v ∈ items ∧ D.EndsOptions n := decide_eq_true_iff
      cases two with
      | false =>
        obtain ⟨gs, h3⟩ := ih args.length (by simp at hn; omega) (decide (further = true ∨ ∃ n v, .option n v ∈ items ∧ D.EndsOptions n)) (i + 1) args rfl
        exact ⟨_, .one h1 hf h3⟩
      | true =>
        cases args with
        | nil => exact absurd rfl (h2 rfl)
        | cons v args =>
          obtain ⟨gs, h3⟩ := ih args.length (by simp at hn; omega) (decide (further = true ∨ ∃ n v, .option n v ∈ items ∧ D.EndsOptions n)) (i + 2) args rfl
          exact ⟨_, .two h1 hf h3⟩

variable (hra : ∀ n, D.Requires n → D.Allows n)
include hra

theorem Compound.unique {first : Bool} {cs : Str} {next : Option Str} {items : List Item} {two : Bool} (h : Compound D first cs next items two) :
    ∀ {items' : List Item} {two' : Bool}, Compound D first cs next items' two' → items = items' ∧ two = two' := by
  induction h with
  | done => intro items' two' h'; cases h'; exact ⟨rfl, rfl⟩
  | plain h1 h2 h3 _ ih =>
    intro items' two' h'
    cases h' with
    | plain _ _ _ h4 => obtain ⟨rfl, rfl⟩ := ih h4; exact ⟨rfl, rfl⟩
    | unexpected _ _ h4 => exact absurd h4 h3
    | attached h4 => exact absurd h4 h2
    | bare h4 => exact absurd h4 h2
    | separate h4 => exact absurd (hra _ h4) h2
    | missing h4 => exact absurd (hra _ h4) h2
    | unknown h4 => exact absurd h1 h4
  | unexpected h1 h2 h3 =>
    intro items' two' h'
    cases h' with
    | plain _ _ h4 _ => exact absurd h3 h4
    | unexpected _ _ h4 => exact ⟨rfl, rfl⟩
    | attached h4 => exact absurd h4 h2
    | bare h4 => exact absurd h4 h2
    | separate h4 => exact absurd (hra _ h4) h2
    | missing h4 => exact absurd (hra _ h4) h2
    | unknown h4 => exact absurd h1 h4
  | attached h1 h2 =>
    intro items' two' h'
    cases h' with
    | plain _ h4 _ _ => exact absurd h1 h4
    | unexpected _ h4 _ => exact absurd h1 h4
    | attached h4 => exact ⟨rfl, rfl⟩
    | bare h4 => exact absurd rfl h2
    | separate h4 => exact absurd rfl h2
    | missing h4 => exact absurd rfl h2
    | unknown h4 => exact absurd h1.known h4
  | bare h1 h2 =>
    intro items' two' h'
    cases h' with
    | plain _ h4 _ _ => exact absurd h1 h4
    | unexpected _ h4 _ => exact absurd h1 h4
    | attached _ h4 => exact absurd rfl h4
    | bare h4 => exact ⟨rfl, rfl⟩
    | separate h4 => exact absurd h4 h2
    | missing h4 => exact absurd h4 h2
    | unknown h4 => exact absurd h1.known h4
  | separate h1 =>
    intro items' two' h'
    cases h' with
    | plain _ h4 _ _ => exact absurd (hra _ h1) h4
    | unexpected _ h4 _ => exact absurd (hra _ h1) h4
    | attached _ h4 => exact absurd rfl h4
    | bare _ h4 => exact absurd h1 h4
    | separate h4 => exact ⟨rfl, rfl⟩
    | unknown h4 => exact absurd (hra _ h1).known h4
  | missing h1 =>
    intro items' two' h'
    cases h' with
    | plain _ h4 _ _ => exact absurd (hra _ h1) h4
    | unexpected _ h4 _ => exact absurd (hra _ h1) h4
    | attached _ h4 => exact absurd rfl h4
    | bare _ h4 => exact absurd h1 h4
    | missing h4 => exact ⟨rfl, rfl⟩
    | unknown h4 => exact absurd (hra _ h1).known h4
  | unknown h1 =>
    intro items' two' h'
    cases h' with
    | plain h4 _ _ _ => exact absurd h4 h1
    | unexpected h4 _ _ => exact absurd h4 h1
    | attached h4 => exact absurd h4.known h1
    | bare h4 => exact absurd h4.known h1
    | separate h4 => exact absurd (hra _ h4).known h1
    | missing h4 => exact absurd (hra _ h4).known h1
    | unknown h4 => exact ⟨rfl, rfl⟩

/-- How the part of a long option after the dashes is understood. -/
inductive LongReads (D : Cmd) : Str → Option Str → Option Str → List Item → Bool → Prop
  | long {l : Str} {next : Option Str} : D.Known (.long l) → ¬ D.Requires (.long l) → LongReads D l none next [.option (.long l) none] false
  | assigned {l v : Str} {next : Option Str} : D.Allows (.long l) → LongReads D l (some v) next [.option (.long l) (some v)] false
  | unexpected {l v : Str} {next : Option Str} : D.Known (.long l) → ¬ D.Allows (.long l) → LongReads D l (some v) next [.unexpected (.long l) v] false
  | separate {l v : Str} : D.Requires (.long l) → LongReads D l none (some v) [.option (.long l) (some v)] true
  | missing {l : Str} : D.Requires (.long l) → LongReads D l none none [.missing (.long l) true] false
  | unknown {l : Str} {o next : Option Str} : ¬ D.Known (.long l) → LongReads D l o next [.unknown (.long l) true] false

theorem LongReads.unique {l : Str} {o next : Option Str} {items items' : List Item} {two two' : Bool} (h : LongReads D l o next items two)
    (h' : LongReads D l o next items' two') : items = items' ∧ two = two' := by
  cases h with
  | long h1 h2 =>
    cases h' with
    | long => exact ⟨rfl, rfl⟩
    | separate h3 => exact absurd h3 h2
    | missing h3 => exact absurd h3 h2
    | unknown h3 => exact absurd h1 h3
  | assigned h1 =>
    cases h' with
    | assigned => exact ⟨rfl, rfl⟩
    | unexpected _ h3 => exact absurd h1 h3
    | unknown h3 => exact absurd h1.known h3
  | unexpected h1 h2 =>
    cases h' with
    | assigned h3 => exact absurd h3 h2
    | unexpected _ h3 => exact ⟨rfl, rfl⟩
    | unknown h3 => exact absurd h1 h3
  | separate h1 =>
    cases h' with
    | long _ h3 => exact absurd h1 h3
    | separate h3 => exact ⟨rfl, rfl⟩
    | unknown h3 => exact absurd (hra _ h1).known h3
  | missing h1 =>
    cases h' with
    | long _ h3 => exact absurd h1 h3
    | missing h3 => exact ⟨rfl, rfl⟩
    | unknown h3 => exact absurd (hra _ h1).known h3
  | unknown h1 =>
    cases h' with
    | long h3 => exact absurd h3 h1
    | assigned h3 => exact absurd h3.known h1
    | unexpected h3 => exact absurd h3 h1
    | separate h3 => exact absurd (hra _ h3).known h1
    | missing h3 => exact absurd (hra _ h3).known h1
    | unknown h3 => exact ⟨rfl, rfl⟩

omit hra in
theorem Reads.cases {further : Bool} {s : Str} {next : Option Str} {items : List Item} {two : Bool} (h : Reads D further s next items two) :
    ((further = true ∨ s.length < 2 ∨ s.head? ≠ some 45) ∧ items = [.word s] ∧ two = false) ∨
    (further = false ∧ ∃ c cs, s = 45 :: c :: cs ∧ c ≠ 45 ∧ Compound D true (c :: cs) next items two) ∨
    (further = false ∧ ∃ l o, s = 45 :: 45 :: (l ++ (match o with | some v => 61 :: v | none => [])) ∧ 61 ∉ l ∧ LongReads D l o next items two) := by
  cases h with
  | word h => exact Or.inl ⟨h, rfl, rfl⟩
  | short h1 h2 h3 => exact Or.inr (Or.inl ⟨h1, _, _, rfl, h2, h3⟩)
  | long h1 h2 h3 h4 => exact Or.inr (Or.inr ⟨h1, _, none, by simp, h2, .long h3 h4⟩)
  | assigned h1 h2 h3 => exact Or.inr (Or.inr ⟨h1, _, some _, rfl, h2, .assigned h3⟩)
  | unexpected h1 h2 h3 h4 => exact Or.inr (Or.inr ⟨h1, _, some _, rfl, h2, .unexpected h3 h4⟩)
  | separate h1 h2 h3 => exact Or.inr (Or.inr ⟨h1, _, none, by simp, h2, .separate h3⟩)
  | missing h1 h2 h3 => exact Or.inr (Or.inr ⟨h1, _, none, by simp, h2, .missing h3⟩)
  | unknown h1 h2 h3 => exact Or.inr (Or.inr ⟨h1, _, none, by simp, h2, .unknown h3⟩)
  | unknownAssigned h1 h2 h3 => exact Or.inr (Or.inr ⟨h1, _, some _, rfl, h2, .unknown h3⟩)

theorem Reads.unique {further : Bool} {s : Str} {next : Option Str} {items items' : List Item} {two two' : Bool} (h : Reads D further s next items two)
    (h' : Reads D further s next items' two') : items = items' ∧ two = two' := by
  rcases h.cases with ⟨h1, h2, h3⟩ | ⟨h1, c, cs, h2, h3, h4⟩ | ⟨h1, l, o, h2, h3, h4⟩
  · rcases h'.cases with ⟨h1', h2', h3'⟩ | ⟨h1', c', cs', h2', h3', h4'⟩ | ⟨h1', l', o', h2', h3', h4'⟩
    · exact ⟨h2.trans h2'.symm, h3.trans h3'.symm⟩
    · exact absurd h1 (by simp [h1', h2'])
    · exact absurd h1 (by simp [h1', h2'])
  · rcases h'.cases with ⟨h1', h2', h3'⟩ | ⟨h1', c', cs', h2', h3', h4'⟩ | ⟨h1', l', o', h2', h3', h4'⟩
    · exact absurd h1' (by simp [h1, h2])
    · rw [h2] at h2'
      simp only [List.cons.injEq, true_and] at h2'
      obtain ⟨rfl, rfl⟩ := h2'
      exact h4.unique hra h4'
    · rw [h2] at h2'
      simp only [List.cons.injEq, true_and] at h2'
      exact absurd h2'.1 h3
  · rcases h'.cases with ⟨h1', h2', h3'⟩ | ⟨h1', c', cs', h2', h3', h4'⟩ | ⟨h1', l', o', h2', h3', h4'⟩
    · exact absurd h1' (by simp [h1, h2])
    · rw [h2] at h2'
      simp only [List.cons.injEq, true_and] at h2'
      exact absurd h2'.1.symm h3'
    · rw [h2] at h2'
      simp only [List.cons.injEq, true_and] at h2'
      have : l = l' ∧ o = o' := by
        cases o with
        | none =>
          cases o' with
          | none => simpa using h2'
          | some v' =>
            simp only [List.append_nil] at h2'
            rw [h2'] at h3
            simp at h3
        | some v =>
          cases o' with
          | none =>
            simp only [List.append_nil] at h2'
            rw [← h2'] at h3'
            simp at h3'
          | some v' =>
            obtain ⟨rfl, rfl⟩ := split_unique h2' h3 h3'
            exact ⟨rfl, rfl⟩
      obtain ⟨rfl, rfl⟩ := this
      exact h4.unique hra h4'

theorem ReadsAll.unique {further : Bool} {i : Nat} {args : List Str} {gs : List Group} (h : ReadsAll D further i args gs) :
    ∀ {gs' : List Group}, ReadsAll D further i args gs' → gs = gs' := by
  induction h with
  | done => intro gs' h'; cases h'; rfl
  | one h1 h2 h3 ih =>
    intro gs' h'
    cases h' with
    | one h1' h2' h3' =>
      obtain ⟨rfl, _⟩ := h1.unique hra h1'
      rw [← h2] at h2'
      rw [Bool.eq_iff_iff.2 h2'] at h3'
      rw [ih h3']
    | two h1' h2' h3' => exact absurd (h1.unique hra h1').2 (by simp)
  | two h1 h2 h3 ih =>
    intro gs' h'
    cases h' with
    | one h1' h2' h3' => exact absurd (h1.unique hra h1').2 (by simp)
    | two h1' h2' h3' =>
      obtain ⟨rfl, _⟩ := h1.unique hra h1'
      rw [← h2] at h2'
      rw [Bool.eq_iff_iff.2 h2'] at h3'
      rw [ih h3']

end

section
variable {D : Cmd} (hu : ∀ n j j', Has D.os j n → Has D.os j' n → j = j')

theorem Cmd.First.unique {k k' : Nat} {u : List Tok} (h : D.First k u) (h' : D.First k' u) : k = k' := by
  rcases Nat.lt_trichotomy k k' with h1 | h1 | h1
  · exact absurd h.1 (h'.2 _ h1)
  · exact h1
  · exact absurd h'.1 (h.2 _ h1)

theorem Cmd.Rejection.unique {u : List Tok} {arg : Str} {m m' : Message} (h : D.Rejection u arg m) (h' : D.Rejection u arg m') : m = m' := by
  rcases h with ⟨h1, rfl⟩ | ⟨h1, rfl⟩
  · rcases h' with ⟨_, rfl⟩ | ⟨h2, _⟩
    · rfl
    · exact absurd h1 h2
  · rcases h' with ⟨h2, _⟩ | ⟨_, rfl⟩
    · exact absurd h2 h1
    · rfl

theorem TokStep.unique {i : Nat} {arg : Str} {t : Tok} {a a' a'' : Progress} {r r' : Option Outcome} (h : TokStep D i arg t a r a')
    (h' : TokStep D i arg t a r' a'') : r = r' ∧ a' = a'' := by
  cases h with
  | take h1 =>
    cases h' with
    | take => exact ⟨rfl, rfl⟩
    | go h2 => exact absurd h1 h2
    | stop h2 => exact absurd h1 h2
  | go h1 h2 h3 =>
    cases h' with
    | take h4 => exact absurd h4 h1
    | go _ h4 => rw [h2.unique h4]; exact ⟨rfl, rfl⟩
    | stop _ _ h4 => exact absurd h4 h3
  | stop h1 h2 h3 =>
    cases h' with
    | take h4 => exact absurd h4 h1
    | go _ _ h4 => exact absurd h3 h4
    | stop _ h4 => rw [h2.unique h4]; exact ⟨rfl, rfl⟩

theorem Turns.unique {further : Bool} {u : List Tok} {it : Item} {t t' : Tok} (h : Turns D further u it t) (h' : Turns D further u it t') : t = t' := by
  cases h with
  | option => cases h'; rfl
  | keyword h1 h2 =>
    cases h' with
    | keyword => rfl
    | value h3 => exact absurd ⟨h1, h2⟩ h3
  | value h1 =>
    cases h' with
    | keyword h2 h3 => exact absurd ⟨h2, h3⟩ h1
    | value => rfl

include hu

theorem Gives.unique {i : Nat} {n : OptName} {v : Option Str} {a a' a'' : Progress} (h : Gives D i n v a a') (h' : Gives D i n v a a'') : a' = a'' := by
  cases h with
  | declared h1 =>
    cases h' with
    | declared h2 => rw [hu _ _ _ h1 h2]
    | other h2 => exact absurd h1 (h2 _)
  | other h1 =>
    cases h' with
    | declared h2 => exact absurd h2 (h1 _)
    | other h2 => rfl

theorem ItemStep.unique {i : Nat} {further : Bool} {arg : Str} {a a' a'' : Progress} {it : Item} {r r' : Option Outcome}
    (h : ItemStep D i further arg a it r a') (h' : ItemStep D i further arg a it r' a'') : r = r' ∧ a' = a'' := by
  cases h with
  | missing => cases h'; exact ⟨rfl, rfl⟩
  | unexpected => cases h'; exact ⟨rfl, rfl⟩
  | unknownGo h1 =>
    cases h' with
    | unknownGo => exact ⟨rfl, rfl⟩
    | unknownStop h2 => exact absurd h2 h1
  | unknownStop h1 =>
    cases h' with
    | unknownGo h2 => exact absurd h1 h2
    | unknownStop h2 => exact ⟨rfl, rfl⟩
  | shorts h1 h2 =>
    cases h' with
    | shorts h3 => rw [hu _ _ _ h1 h3]; exact ⟨rfl, rfl⟩
    | apart h3 => exact absurd h2 h3
    | inPattern h3 => exact absurd h2 h3
  | apart h1 h2 h3 =>
    cases h' with
    | shorts _ h4 => exact absurd h4 h1
    | apart _ _ h4 => exact ⟨rfl, h3.unique hu h4⟩
    | inPattern _ h4 h5 => rcases h2 with h2 | h2 | h2 <;> simp_all
  | inPattern h1 h2 h3 h4 h5 =>
    cases h' with
    | shorts _ h4 => exact absurd h4 h1
    | apart _ h4 => rcases h4 with h4 | h4 | h4 <;> simp_all
    | inPattern _ _ _ h6 h7 =>
      rw [← h4.unique hu h6] at h7
      exact h5.unique h7
  | skipped h1 =>
    cases h' with
    | skipped => exact ⟨rfl, rfl⟩
    | word h2 => simp [h1] at h2
  | word h1 h2 h3 =>
    cases h' with
    | skipped h4 => simp [h1] at h4
    | word _ h4 h5 =>
      rw [← h2.unique h4] at h5
      exact h3.unique h5

theorem ItemsStep.unique {i : Nat} {further : Bool} {arg : Str} {a a' : Progress} {items : List Item} {r : Option Outcome}
    (h : ItemsStep D i further arg a items r a') : ∀ {r' : Option Outcome} {a'' : Progress}, ItemsStep D i further arg a items r' a'' → r = r' ∧ a' = a'' := by
  induction h with
  | done => intro r' a'' h'; cases h'; exact ⟨rfl, rfl⟩
  | stop h1 =>
    intro r' a'' h'
    cases h' with
    | stop h2 => exact h1.unique hu h2
    | next h2 => exact absurd (h1.unique hu h2).1 (by simp)
  | next h1 _ ih =>
    intro r' a'' h'
    cases h' with
    | stop h2 => exact absurd (h1.unique hu h2).1 (by simp)
    | next h2 h3 =>
      rw [← (h1.unique hu h2).2] at h3
      exact ih h3

theorem Walk.unique {args : List Str} {err : Bool} {a a' : Progress} {gs : List Group} {o : Outcome} (h : Walk D args err a gs o a') :
    ∀ {o' : Outcome} {a'' : Progress}, Walk D args err a gs o' a'' → o = o' ∧ a' = a'' := by
  induction h with
  | deleg h1 h2 h3 =>
    intro o' a'' h'
    cases h' with
    | deleg _ h4 => rw [h2.unique h4]; exact ⟨rfl, rfl⟩
    | invoke _ h4 h5 => rw [h2.unique h4] at h3; exact absurd h3 h5
    | error _ h4 h5 => rw [h2.unique h4] at h3; exact absurd h3 h5
    | tooFew _ h4 => exact absurd h2.1 (h4 _)
    | ended h4 => simp [h1] at h4
    | stop h4 => exact absurd h3 (h4 h1 _ h2)
    | next h4 => exact absurd h3 (h4 h1 _ h2)
  | invoke h1 h2 h3 h6 h7 =>
    intro o' a'' h'
    cases h' with
    | deleg _ h4 h5 => rw [h2.unique h4] at h3; exact absurd h5 h3
    | invoke _ h4 h5 => rw [h2.unique h4]; exact ⟨rfl, rfl⟩
    | error _ h4 h5 h8 => simp [h6, h7] at h8
    | tooFew _ h4 => exact absurd h2.1 (h4 _)
    | ended h4 => simp [h1] at h4
  | error h1 h2 h3 h6 =>
    intro o' a'' h'
    cases h' with
    | deleg _ h4 h5 => rw [h2.unique h4] at h3; exact absurd h5 h3
    | invoke _ h4 h5 h7 h8 => simp [h7, h8] at h6
    | error _ h4 h5 h8 => exact ⟨rfl, rfl⟩
    | tooFew _ h4 => exact absurd h2.1 (h4 _)
    | ended h4 => simp [h1] at h4
  | tooFew h1 h2 =>
    intro o' a'' h'
    cases h' with
    | deleg _ h4 h5 => exact absurd h4.1 (h2 _)
    | invoke _ h4 h5 h7 h8 => exact absurd h4.1 (h2 _)
    | error _ h4 h5 h8 => exact absurd h4.1 (h2 _)
    | tooFew _ h4 => exact ⟨rfl, rfl⟩
    | ended h4 => simp [h1] at h4
  | ended h1 =>
    intro o' a'' h'
    cases h' with
    | deleg h4 => simp [h1] at h4
    | invoke h4 => simp [h1] at h4
    | error h4 => simp [h1] at h4
    | tooFew h4 => simp [h1] at h4
    | ended h4 => exact ⟨rfl, rfl⟩
  | stop h1 h2 h3 =>
    intro o' a'' h'
    cases h' with
    | deleg h4 h5 h6 => exact absurd h6 (h1 h4 _ h5)
    | stop h4 h5 h6 =>
      rw [h2] at h5
      obtain rfl := Option.some.inj h5
      obtain ⟨h7, rfl⟩ := h3.unique hu h6
      exact ⟨Option.some.inj h7, rfl⟩
    | next h4 h5 h6 h7 =>
      rw [h2] at h5
      obtain rfl := Option.some.inj h5
      exact absurd (h3.unique hu h6).1 (by simp)
  | next h1 h2 h3 _ ih =>
    intro o' a'' h'
    cases h' with
    | deleg h4 h5 h6 => exact absurd h6 (h1 h4 _ h5)
    | stop h4 h5 h6 =>
      rw [h2] at h5
      obtain rfl := Option.some.inj h5
      exact absurd (h3.unique hu h6).1 (by simp)
    | next h4 h5 h6 h7 =>
      rw [h2] at h5
      obtain rfl := Option.some.inj h5
      rw [← (h3.unique hu h6).2] at h7
      exact ih h7

end

end Verif.CliProc
