import Verif.CliProc.ProcessUnique
/-!
What the result is in terms of all the items.
-/
namespace Verif.CliProc

open Verif.CliPattern Verif.CliSpec

section
variable {D : Cmd}

theorem Gives.same {i : Nat} {n : OptName} {v : Option Str} {a a' : Progress} (h : Gives D i n v a a') :
    a'.toks = a.toks ∧ a'.matching = a.matching ∧ a'.reports = a.reports ∧ ∃ l, Given D [.option n v] l ∧ a'.given = a.given ++ l.map (fun x => (i, x)) := by
  cases h with
  | declared h1 => exact ⟨rfl, rfl, rfl, _, .declared h1 .done, rfl⟩
  | other h1 => exact ⟨rfl, rfl, rfl, [], .other (fun n' v' j h => by injection h with h2 h3; subst h2; exact h1 j) .done, by simp⟩

theorem gives_total (i : Nat) (n : OptName) (v : Option Str) (a : Progress) : ∃ a', Gives D i n v a a' := by
  by_cases h : ∃ j, Has D.os j n
  · obtain ⟨j, h⟩ := h
    exact ⟨_, .declared h⟩
  · exact ⟨_, .other (not_exists.1 h)⟩

theorem TokStep.same {i : Nat} {arg : Str} {t : Tok} {a a' : Progress} {r : Option Outcome} (h : TokStep D i arg t a r a') : a'.given = a.given := by
  cases h <;> rfl

theorem TokStep.taken {i : Nat} {arg : Str} {t : Tok} {a a' : Progress} (h : TokStep D i arg t a none a') (hm : a'.matching = true) :
    D.Begins (a.word ++ [t]) ∧ a'.word = a.word ++ [t] ∧ a'.matching = a.matching ∧ a'.reports = a.reports := by
  cases h with
  | take h1 => exact ⟨h1, by simp [Progress.word], rfl, rfl⟩
  | go => simp at hm

theorem given_none {it : Item} (h : ∀ n v, it ≠ .option n v) : Given D [it] [] := .other (fun n v j h' => absurd h' (h n v)) .done

theorem Given.append {is : List Item} {l : List (Nat × OptName × Option Str)} (h : Given D is l) : ∀ {is' : List Item} {l' : List (Nat × OptName × Option Str)},
    Given D is' l' → Given D (is ++ is') (l ++ l') := by
  induction h with
  | done => exact fun h' => h'
  | declared h1 _ ih => exact fun h' => .declared h1 (ih h')
  | other h1 _ ih => exact fun h' => .other h1 (ih h')

theorem ItemStep.given {i : Nat} {further : Bool} {arg : Str} {a a' : Progress} {it : Item} (h : ItemStep D i further arg a it none a') :
    ¬ D.ShortsAt it ∧ ∃ l, Given D [it] l ∧ a'.given = a.given ++ l.map (fun x => (i, x)) := by
  cases h with
  | missing => exact ⟨(by rintro ⟨_, _, h, _⟩; cases h), [], given_none (by simp), by simp [Progress.report]⟩
  | unexpected => exact ⟨(by rintro ⟨_, _, h, _⟩; cases h), [], given_none (by simp), by simp [Progress.report]⟩
  | unknownGo => exact ⟨(by rintro ⟨_, _, h, _⟩; cases h), [], given_none (by simp), by simp [Progress.report]⟩
  | apart h1 _ h3 => exact ⟨by rintro ⟨n, v, h, h'⟩; cases h; exact h1 h', h3.same.2.2.2⟩
  | inPattern h1 _ _ h4 h5 =>
    obtain ⟨l, h6, h7⟩ := h4.same.2.2.2
    exact ⟨by rintro ⟨n, v, h, h'⟩; cases h; exact h1 h', l, h6, by rw [h5.same, h7]⟩
  | skipped => exact ⟨(by rintro ⟨_, _, h, _⟩; cases h), [], given_none (by simp), by simp⟩
  | word _ _ h3 => exact ⟨(by rintro ⟨_, _, h, _⟩; cases h), [], given_none (by simp), by simp [h3.same]⟩

theorem ItemsStep.given {i : Nat} {further : Bool} {arg : Str} {a a' : Progress} {items : List Item} {r : Option Outcome}
    (h : ItemsStep D i further arg a items r a') : r = none →
    (∀ it ∈ items, ¬ D.ShortsAt it) ∧ ∃ l, Given D items l ∧ a'.given = a.given ++ l.map (fun x => (i, x)) := by
  induction h with
  | done => exact fun _ => ⟨by simp, [], .done, by simp⟩
  | stop => exact fun h => by simp at h
  | next h1 _ ih =>
    intro hr
    obtain ⟨h2, l, h3, h4⟩ := h1.given
    obtain ⟨h5, l', h6, h7⟩ := ih hr
    refine ⟨?_, l ++ l', h3.append h6, by simp [h7, h4]⟩
    intro it hit
    rcases List.mem_cons.1 hit with rfl | hit
    · exact h2
    · exact h5 it hit

/-- The reports do not go away. -/
theorem ItemStep.reports {i : Nat} {further : Bool} {arg : Str} {a a' : Progress} {it : Item} {r : Option Outcome} (h : ItemStep D i further arg a it r a') :
    ∃ l, a'.reports = a.reports ++ l := by
  have tok : ∀ {t : Tok} {a a' : Progress} {r : Option Outcome}, TokStep D i arg t a r a' → ∃ l, a'.reports = a.reports ++ l := by
    intro t a a' r h
    cases h with
    | take => exact ⟨[], by simp⟩
    | go => exact ⟨_, rfl⟩
    | stop => exact ⟨_, rfl⟩
  cases h with
  | missing => exact ⟨_, rfl⟩
  | unexpected => exact ⟨_, rfl⟩
  | unknownGo => exact ⟨_, rfl⟩
  | unknownStop => exact ⟨_, rfl⟩
  | shorts => exact ⟨[], by simp⟩
  | apart _ _ h3 => exact ⟨[], by simp [h3.same.2.2.1]⟩
  | inPattern _ _ _ h4 h5 =>
    rw [← h4.same.2.2.1]
    exact tok h5
  | skipped => exact ⟨[], by simp⟩
  | word _ _ h3 => exact tok h3

theorem ItemsStep.reports {i : Nat} {further : Bool} {arg : Str} {a a' : Progress} {items : List Item} {r : Option Outcome}
    (h : ItemsStep D i further arg a items r a') : ∃ l, a'.reports = a.reports ++ l := by
  induction h with
  | done => exact ⟨[], by simp⟩
  | stop h1 => exact h1.reports
  | next h1 _ ih =>
    obtain ⟨l, h2⟩ := h1.reports
    obtain ⟨l', h3⟩ := ih
    exact ⟨l ++ l', by rw [h3, h2, List.append_assoc]⟩

theorem ItemStep.taken {i : Nat} {further : Bool} {arg : Str} {a a' : Progress} {it : Item} (h : ItemStep D i further arg a it none a')
    (hm : a'.matching = true) :
    a.matching = true ∧ (∀ items v, Taken D further a'.word items v → Taken D further a.word (it :: items) v) ∧ (it.wrong = false ↔ a'.reports = a.reports) := by
  cases h with
  | missing => exact ⟨hm, fun _ _ h => .apart trivial h, by simp [Item.wrong, Progress.report]⟩
  | unexpected => exact ⟨hm, fun _ _ h => .apart trivial h, by simp [Item.wrong, Progress.report]⟩
  | unknownGo => simp at hm
  | apart h1 h2 h3 =>
    obtain ⟨h4, h5, h6, _⟩ := h3.same
    have hw : a'.word = a.word := by simp only [Progress.word, h4]
    rw [h5] at hm
    refine ⟨hm, fun _ _ h => ?_, by simp [Item.wrong, h6]⟩
    rw [hw] at h
    refine .apart ?_ h
    rcases h2 with h2 | h2 | h2
    · exact Or.inl h2
    · exact Or.inr h2
    · rw [h2] at hm; cases hm
  | inPattern h1 h2 h3 h4 h5 =>
    obtain ⟨h6, h7, h8, _⟩ := h4.same
    have hw := congrArg (List.map Prod.fst) h6
    obtain ⟨h9, h10, h11, h12⟩ := h5.taken hm
    refine ⟨h3, fun _ _ h => ?_, by simp [Item.wrong, h12, h8]⟩
    rw [h10] at h
    simp only [Progress.word, hw] at h9 h
    exact .turns (.option h2) h9 h
  | skipped h1 => rw [h1] at hm; cases hm
  | word h1 h2 h3 =>
    obtain ⟨h9, h10, h11, h12⟩ := h3.taken hm
    refine ⟨h1, fun _ _ h => ?_, by simp [Item.wrong, h12]⟩
    rw [h10] at h
    exact .turns h2 h9 h

theorem ItemsStep.taken {i : Nat} {further : Bool} {arg : Str} {a a' : Progress} {items : List Item} {r : Option Outcome}
    (h : ItemsStep D i further arg a items r a') : r = none → a'.matching = true →
    a.matching = true ∧ Taken D further a.word items a'.word ∧ ((∀ it ∈ items, it.wrong = false) ↔ a'.reports = a.reports) := by
  induction h with
  | done => exact fun _ hm => ⟨hm, .done, by simp⟩
  | stop => exact fun h => by simp at h
  | next h1 h2 ih =>
    intro hr hm
    obtain ⟨h3, h4, h5⟩ := ih hr hm
    obtain ⟨h6, h7, h8⟩ := h1.taken h3
    refine ⟨h6, h7 _ _ h4, ?_⟩
    obtain ⟨l, h9⟩ := h1.reports
    obtain ⟨l', h10⟩ := h2.reports
    simp only [List.mem_cons, forall_eq_or_imp, h8, h5]
    constructor
    · rintro ⟨h11, h12⟩; rw [h12, h11]
    · intro h11
      rw [h10, h9, List.append_assoc] at h11
      have := List.append_right_eq_self.1 h11
      obtain ⟨rfl, rfl⟩ := List.append_eq_nil_iff.1 this
      simp at h9 h10
      exact ⟨h9, h10⟩

theorem taken_item {i : Nat} {further : Bool} {arg : Str} {items : List Item} {u v : List Tok} (h : Taken D further u items v) :
    ∀ (a : Progress), a.word = u → a.matching = true → (∀ it ∈ items, ¬ D.ShortsAt it) → ∃ a', ItemsStep D i further arg a items none a' ∧ a'.word = v ∧ a'.matching = true := by
  induction h with
  | done => exact fun a h1 h2 _ => ⟨a, .done, h1, h2⟩
  | @apart u v it items h1 h2 ih =>
    intro a h3 h4 h5
    have h6 := h5 it (by simp)
    obtain ⟨a', h7, h8, h9⟩ : ∃ a', ItemStep D i further arg a it none a' ∧ a'.word = u ∧ a'.matching = true := by
      cases it with
      | option n v =>
        obtain ⟨a', h7⟩ := gives_total (D := D) i n v a
        obtain ⟨h8, h9, _⟩ := h7.same
        refine ⟨a', .apart (fun h => h6 ⟨n, v, rfl, h⟩) (by rcases h1 with h1 | h1; exacts [Or.inl h1, Or.inr (Or.inl h1)]) h7, ?_, by rw [h9]; exact h4⟩
        rw [← h3]; exact congrArg (List.map Prod.fst) h8
      | missing n first => exact ⟨_, .missing, h3, h4⟩
      | unexpected n v => exact ⟨_, .unexpected, h3, h4⟩
      | unknown n first => exact h1.elim
      | word s => exact h1.elim
    obtain ⟨a'', h10, h11⟩ := ih a' h8 h9 (fun it hit => h5 it (List.mem_cons_of_mem _ hit))
    exact ⟨a'', .next h7 h10, h11⟩
  | @turns u v it items t h1 h2 h3 ih =>
    intro a h4 h5 h6
    subst h4
    have h7 := h6 it (by simp)
    obtain ⟨a', h8, h9, h10⟩ : ∃ a', ItemStep D i further arg a it none a' ∧ a'.word = a.word ++ [t] ∧ a'.matching = true := by
      cases h1 with
      | @option n h1 =>
        obtain ⟨a', h8⟩ := gives_total (D := D) i n none a
        obtain ⟨h9, h10, _⟩ := h8.same
        have hw : a'.word = a.word := congrArg (List.map Prod.fst) h9
        exact ⟨_, .inPattern (fun h => h7 ⟨n, none, rfl, h⟩) h1 h5 h8 (.take (by rw [hw]; exact h2)), by simp [Progress.word, h9], by rw [← h5, ← h10]⟩
      | keyword h1 h1' => exact ⟨_, .word h5 (.keyword h1 h1') (.take h2), by simp [Progress.word], h5⟩
      | value h1 => exact ⟨_, .word h5 (.value h1) (.take h2), by simp [Progress.word], h5⟩
    obtain ⟨a'', h11, h12⟩ := ih a' h9 h10 (fun it hit => h6 it (List.mem_cons_of_mem _ hit))
    exact ⟨a'', .next h8 h11, h12⟩

theorem Taken.extends {further : Bool} {items : List Item} {u v : List Tok} (h : Taken D further u items v) : ∃ w, v = u ++ w := by
  induction h with
  | done => exact ⟨[], by simp⟩
  | apart _ _ ih => exact ih
  | turns _ _ _ ih =>
    obtain ⟨w, rfl⟩ := ih
    exact ⟨_, List.append_assoc _ _ _⟩

theorem TakenAll.extends {gs : List Group} {u v : List Tok} (h : TakenAll D u gs v) : ∃ w, v = u ++ w := by
  induction h with
  | done => exact ⟨[], by simp⟩
  | next h1 _ ih =>
    obtain ⟨w, h2⟩ := h1.extends
    obtain ⟨w', h3⟩ := ih
    exact ⟨w ++ w', by rw [h3, h2, List.append_assoc]⟩

theorem Taken.unique {further : Bool} {items : List Item} {u v : List Tok} (h : Taken D further u items v) :
    ∀ {v' : List Tok}, Taken D further u items v' → v = v' := by
  have excl : ∀ {u : List Tok} {it : Item} {t : Tok}, D.Apart it → Turns D further u it t → False := by
    intro u it t h1 h2
    cases h2 with
    | option h3 => rcases h1 with h1 | h1; exacts [h1 h3, h1 rfl]
    | keyword => exact h1
    | value => exact h1
  induction h with
  | done => intro v' h'; cases h'; rfl
  | apart h1 _ ih =>
    intro v' h'
    cases h' with
    | apart _ h2 => exact ih h2
    | turns h2 => exact (excl h1 h2).elim
  | turns h1 _ _ ih =>
    intro v' h'
    cases h' with
    | apart h2 => exact (excl h2 h1).elim
    | turns h2 _ h3 =>
      rw [← h1.unique h2] at h3
      exact ih h3

theorem TakenAll.unique {gs : List Group} {u v : List Tok} (h : TakenAll D u gs v) : ∀ {v' : List Tok}, TakenAll D u gs v' → v = v' := by
  induction h with
  | done => intro v' h'; cases h'; rfl
  | next h1 _ ih =>
    intro v' h'
    cases h' with
    | next h2 h3 =>
      rw [← h1.unique h2] at h3
      exact ih h3

theorem GivenAll.cons {g : Group} {gs : List Group} {l : List (Nat × OptName × Option Str)} {l' : List (Nat × Nat × OptName × Option Str)}
    (h : Given D g.items l) (h' : GivenAll D gs l') : GivenAll D (g :: gs) (l.map (fun x => (g.index, x)) ++ l') := .next h h'

variable {args : List Str} {err : Bool}

theorem Walk.invoked {a a' : Progress} {gs : List Group} {o : Outcome} (h : Walk D args err a gs o a') : ∀ k, o = .invoke k →
    a.matching = true ∧ a.reports = [] ∧ a'.reports = [] ∧ err = false ∧ TakenAll D a.word gs a'.word ∧ D.First k a'.word ∧ ¬ D.IsDeleg k ∧
    (∀ g ∈ gs, ∀ it ∈ g.items, it.wrong = false ∧ ¬ D.ShortsAt it) ∧ ∃ l, GivenAll D gs l ∧ a'.given = a.given ++ l := by
  induction h with
  | deleg => exact fun k h => by cases h
  | invoke h1 h2 h3 h4 h5 =>
    intro k h
    cases h
    exact ⟨h1, h5, h5, h4, .done, h2, h3, by simp, [], .done, by simp⟩
  | error => exact fun k h => by cases h
  | tooFew => exact fun k h => by cases h
  | ended => exact fun k h => by cases h
  | @stop a a' g gs arg o _ _ h1 =>
    rintro k rfl
    exfalso
    have : ∀ {a a' : Progress} {items : List Item} {r : Option Outcome}, ItemsStep D g.index g.further arg a items r a' → r ≠ some (.invoke k) := by
      intro a a' items r h
      induction h with
      | done => simp
      | next _ _ ih => exact ih
      | stop h =>
        intro h'
        cases h'
        have tok : ∀ {t : Tok} {a a' : Progress}, ¬ TokStep D g.index arg t a (some (.invoke k)) a' := by
          intro t a a' h; cases h
        cases h with
        | inPattern _ _ _ _ h => exact tok h
        | word _ _ h => exact tok h
    exact this h1 rfl
  | next _ _ h1 _ ih =>
    intro k hk
    obtain ⟨h2, h3, h4, h5, h6, h7, h8, h9, l, h10, h11⟩ := ih k hk
    obtain ⟨h12, h13, h14⟩ := h1.taken rfl h2
    obtain ⟨h15, l', h16, h17⟩ := h1.given rfl
    obtain ⟨l'', h18⟩ := h1.reports
    have h19 := h18
    rw [h3] at h19
    have h20 := (List.append_eq_nil_iff.1 h19.symm).1
    refine ⟨h12, h20, h4, h5, .next h13 h6, h7, h8, ?_, _, .next h16 h10, by rw [h11, h17, List.append_assoc]⟩
    intro g' hg' it hit
    rcases List.mem_cons.1 hg' with rfl | hg'
    · exact ⟨h14.2 (by rw [h3, h20]) it hit, h15 it hit⟩
    · exact h9 g' hg' it hit

theorem walk_taken {gs : List Group} {u v : List Tok} (h : TakenAll D u gs v) : ∀ (a : Progress) (gs' : List Group), a.word = u → a.matching = true →
    (∀ g ∈ gs, ∀ it ∈ g.items, ¬ D.ShortsAt it) → (∀ g ∈ gs, args[g.index]? ≠ none) → ¬ D.DelegatesIn u gs →
    ∃ a', a'.word = v ∧ a'.matching = true ∧ ((∀ g ∈ gs, ∀ it ∈ g.items, it.wrong = false) → a'.reports = a.reports) ∧
      ∀ o a'', Walk D args err a' gs' o a'' → Walk D args err a (gs ++ gs') o a'' := by
  induction h with
  | done => exact fun a gs' h1 h2 _ _ _ => ⟨a, h1, h2, fun _ => rfl, fun _ _ h => h⟩
  | @next u v w g gs h1 h2 ih =>
    intro a gs' h3 h4 h5 h6 h7
    subst h3
    obtain ⟨arg, harg⟩ := Option.ne_none_iff_exists'.1 (h6 g (by simp))
    obtain ⟨a', h8, h9, h10⟩ := taken_item (i := g.index) (arg := arg) h1 a rfl h4 (h5 g (by simp))
    obtain ⟨a'', h11, h12, h13, h14⟩ := ih a' gs' h9 h10 (fun g' hg' => h5 g' (List.mem_cons_of_mem _ hg')) (fun g' hg' => h6 g' (List.mem_cons_of_mem _ hg')) (by
      rintro ⟨gs₁, gs₂, x, k, rfl, h11, h12, h13⟩
      exact h7 ⟨g :: gs₁, gs₂, x, k, rfl, h11, .next h1 h12, h13⟩)
    refine ⟨a'', h11, h12, ?_, fun o b h => .next ?_ harg h8 (h14 o b h)⟩
    · intro h15
      rw [h13 fun g' hg' => h15 g' (List.mem_cons_of_mem _ hg')]
      exact (h8.taken rfl h10).2.2.1 (h15 g (by simp))
    · intro _ k h15 h16
      exact h7 ⟨[], g :: gs, _, k, rfl, by simp, .done, h15, h16⟩

theorem Walk.delegated {a a' : Progress} {gs : List Group} {o : Outcome} (h : Walk D args err a gs o a') : ∀ k d, o = .deleg k d →
    a.matching = true ∧ ∃ gs₁ gs₂, gs = gs₁ ++ gs₂ ∧ d = indexOf args gs₂ ∧ TakenAll D a.word gs₁ a'.word ∧ D.First k a'.word ∧ D.IsDeleg k ∧
    (∀ g ∈ gs₁, ∀ it ∈ g.items, ¬ D.ShortsAt it) ∧ ¬ D.DelegatesIn a.word gs₁ ∧ ∃ l, GivenAll D gs₁ l ∧ a'.given = a.given ++ l := by
  induction h with
  | @deleg a gs k h1 h2 h3 =>
    intro k d h
    cases h
    refine ⟨h1, [], gs, rfl, rfl, .done, h2, h3, by simp, ?_, [], .done, by simp⟩
    rintro ⟨gs₁, gs₂, _, _, h4, h5, _⟩
    exact h5 (List.append_eq_nil_iff.1 h4.symm).2
  | invoke => exact fun k d h => by cases h
  | error => exact fun k d h => by cases h
  | tooFew => exact fun k d h => by cases h
  | ended => exact fun k d h => by cases h
  | @stop a a' g gs arg o _ _ h1 =>
    rintro k d rfl
    exfalso
    have : ∀ {a a' : Progress} {items : List Item} {r : Option Outcome}, ItemsStep D g.index g.further arg a items r a' → r ≠ some (.deleg k d) := by
      intro a a' items r h
      induction h with
      | done => simp
      | next _ _ ih => exact ih
      | stop h =>
        intro h'
        cases h'
        have tok : ∀ {t : Tok} {a a' : Progress}, ¬ TokStep D g.index arg t a (some (.deleg k d)) a' := by
          intro t a a' h; cases h
        cases h with
        | inPattern _ _ _ _ h => exact tok h
        | word _ _ h => exact tok h
    exact this h1 rfl
  | @next a a' a'' g gs arg o hnd _ h1 _ ih =>
    intro k d hk
    obtain ⟨h2, gs₁, gs₂, rfl, h4, h5, h6, h7, h8, h9, l, h10, h11⟩ := ih k d hk
    obtain ⟨h12, h13, h14⟩ := h1.taken rfl h2
    obtain ⟨h15, l', h16, h17⟩ := h1.given rfl
    refine ⟨h12, g :: gs₁, gs₂, rfl, h4, .next h13 h5, h6, h7, ?_, ?_, _, .next h16 h10, by rw [h11, h17, List.append_assoc]⟩
    · intro g' hg' it hit
      rcases List.mem_cons.1 hg' with rfl | hg'
      · exact h15 it hit
      · exact h8 g' hg' it hit
    · rintro ⟨p, q, v, k', h18, h19, h20, h21, h22⟩
      cases p with
      | nil =>
        cases h20
        exact hnd h12 k' h21 h22
      | cons g' p =>
        simp only [List.cons_append, List.cons.injEq] at h18
        obtain ⟨rfl, rfl⟩ := h18
        cases h20 with
        | next h23 h24 =>
          rw [← h13.unique h23] at h24
          exact h9 ⟨p, q, v, k', rfl, h19, h24, h21, h22⟩

end

end Verif.CliProc
