import Verif.CliProc.ProcessClosed
/-!
What is reported.
-/
namespace Verif.CliProc

open Verif.CliPattern Verif.CliSpec

section
variable {D : Cmd} {args : List Str} {err : Bool}

theorem TokStep.stopped {i : Nat} {arg : Str} {t : Tok} {a a' : Progress} {o : Outcome} (h : TokStep D i arg t a (some o) a') :
    o = .failed ∧ D.MayDelegate a.word ∧ ∃ m, a'.reports = a.reports ++ [(i, m)] := by
  cases h with
  | stop _ _ h => exact ⟨rfl, h, _, rfl⟩

theorem ItemStep.stopped {i : Nat} {further : Bool} {arg : Str} {a a' : Progress} {it : Item} {o : Outcome} (h : ItemStep D i further arg a it (some o) a') :
    (o = .failed ∧ (∃ u, D.MayDelegate u) ∧ a'.reports ≠ []) ∨ ∃ j n, o = .shorted j ∧ it = .option n none ∧ Has D.os j n ∧ D.Shorts n ∧ a' = a := by
  cases h with
  | unknownStop h => exact Or.inl ⟨rfl, ⟨_, h⟩, by simp [Progress.report]⟩
  | shorts h1 h2 => exact Or.inr ⟨_, _, rfl, rfl, h1, h2, rfl⟩
  | inPattern _ _ _ _ h => obtain ⟨h1, h2, m, h3⟩ := h.stopped; exact Or.inl ⟨h1, ⟨_, h2⟩, by simp [h3]⟩
  | word _ _ h => obtain ⟨h1, h2, m, h3⟩ := h.stopped; exact Or.inl ⟨h1, ⟨_, h2⟩, by simp [h3]⟩

theorem firstShort_cons {it : Item} {items : List Item} {j : Nat} (h : ¬ D.ShortsAt it) (h' : D.FirstShort items j) : D.FirstShort (it :: items) j := by
  obtain ⟨is, n, v, is', rfl, h1, h2, h3⟩ := h'
  refine ⟨it :: is, n, v, is', rfl, h1, h2, ?_⟩
  intro x hx
  rcases List.mem_cons.1 hx with rfl | hx
  · exact h
  · exact h3 x hx

theorem firstShort_append {is items : List Item} {j : Nat} (h : ∀ it ∈ is, ¬ D.ShortsAt it) (h' : D.FirstShort items j) : D.FirstShort (is ++ items) j := by
  obtain ⟨is₁, n, v, is₂, rfl, h1, h2, h3⟩ := h'
  refine ⟨is ++ is₁, n, v, is₂, by simp, h1, h2, ?_⟩
  intro x hx
  rcases List.mem_append.1 hx with hx | hx
  · exact h x hx
  · exact h3 x hx

theorem firstShort_left {is items : List Item} {j : Nat} (h' : D.FirstShort is j) : D.FirstShort (is ++ items) j := by
  obtain ⟨is₁, n, v, is₂, rfl, h1, h2, h3⟩ := h'
  exact ⟨is₁, n, v, is₂ ++ items, by simp, h1, h2, h3⟩

theorem Cmd.FirstShort.unique (hu : ∀ n j j', Has D.os j n → Has D.os j' n → j = j') {items : List Item} {j j' : Nat} (h : D.FirstShort items j)
    (h' : D.FirstShort items j') : j = j' := by
  obtain ⟨is, n, v, is', rfl, h1, h2, h3⟩ := h
  obtain ⟨ks, n', v', ks', h4, h5, h6, h7⟩ := h'
  rcases List.append_eq_append_iff.1 h4 with ⟨xs, rfl, h8⟩ | ⟨xs, rfl, h8⟩
  · cases xs with
    | nil => simp only [List.nil_append, List.cons.injEq, Item.option.injEq] at h8; rw [h8.1.1] at h1; exact hu _ _ _ h1 h5
    | cons x xs =>
      simp only [List.cons_append, List.cons.injEq] at h8
      exact absurd ⟨n, v, h8.1.symm, h2⟩ (h7 x (by simp))
  · cases xs with
    | nil => simp only [List.nil_append, List.cons.injEq, Item.option.injEq] at h8; rw [← h8.1.1] at h1; exact hu _ _ _ h1 h5
    | cons x xs =>
      simp only [List.cons_append, List.cons.injEq] at h8
      exact absurd ⟨n', v', h8.1.symm, h6⟩ (h3 x (by simp))

theorem ItemsStep.stopped {i : Nat} {further : Bool} {arg : Str} {a a' : Progress} {items : List Item} {r : Option Outcome}
    (h : ItemsStep D i further arg a items r a') : ∀ o, r = some o →
    (o = .failed ∧ (∃ u, D.MayDelegate u) ∧ a'.reports ≠ []) ∨ ∃ j, o = .shorted j ∧ D.FirstShort items j := by
  induction h with
  | done => exact fun o h => by cases h
  | stop h1 =>
    intro o ho
    cases ho
    rcases h1.stopped with h2 | ⟨j, n, h2, rfl, h3, h4, _⟩
    · exact Or.inl h2
    · exact Or.inr ⟨j, h2, [], n, none, _, rfl, h3, h4, by simp⟩
  | next h1 _ ih =>
    intro o ho
    rcases ih o ho with h2 | ⟨j, h2, h3⟩
    · exact Or.inl h2
    · exact Or.inr ⟨j, h2, firstShort_cons h1.given.1 h3⟩

theorem Walk.shorted {a a' : Progress} {gs : List Group} {o : Outcome} (h : Walk D args err a gs o a') : ∀ j, o = .shorted j →
    D.FirstShort (gs.flatMap Group.items) j := by
  induction h with
  | deleg => exact fun j h => by cases h
  | invoke => exact fun j h => by cases h
  | error => exact fun j h => by cases h
  | tooFew => exact fun j h => by cases h
  | ended => exact fun j h => by cases h
  | stop _ _ h1 =>
    intro j ho
    rcases h1.stopped _ rfl with ⟨h2, _⟩ | ⟨j', h2, h3⟩
    · rw [h2] at ho; cases ho
    · rw [h2] at ho
      cases ho
      exact firstShort_left h3
  | next _ _ h1 _ ih =>
    intro j ho
    exact firstShort_append (h1.given rfl).1 (ih j ho)

theorem Walk.shorts (hnd : ∀ k, ¬ D.IsDeleg k) {a a' : Progress} {gs : List Group} {o : Outcome} (h : Walk D args err a gs o a') :
    (∃ it ∈ gs.flatMap Group.items, D.ShortsAt it) → ∃ j, o = .shorted j := by
  induction h with
  | deleg _ _ h => exact absurd h (hnd _)
  | invoke => simp
  | error => simp
  | tooFew => simp
  | ended => simp
  | stop _ _ h1 =>
    intro _
    rcases h1.stopped _ rfl with ⟨_, ⟨_, k, _, h2, _⟩, _⟩ | ⟨j', h2, h3⟩
    · exact absurd h2 (hnd k)
    · exact ⟨j', h2⟩
  | next _ _ h1 _ ih =>
    rintro ⟨it, hit, hs⟩
    rw [List.flatMap_cons, List.mem_append] at hit
    rcases hit with hit | hit
    · exact absurd hs ((h1.given rfl).1 it hit)
    · exact ih ⟨it, hit, hs⟩

theorem TokStep.off {i : Nat} {arg : Str} {t : Tok} {a a' : Progress} {r : Option Outcome} (h : TokStep D i arg t a r a') (hm : a.matching = true)
    (hr : r = none) (hm' : a'.matching = false) : a'.reports ≠ [] := by
  cases h with
  | take => rw [hm] at hm'; cases hm'
  | go => simp [Progress.report]
  | stop => cases hr

theorem ItemStep.off {i : Nat} {further : Bool} {arg : Str} {a a' : Progress} {it : Item} (h : ItemStep D i further arg a it none a')
    (h1 : a.matching = false → a.reports ≠ []) (h2 : a'.matching = false) : a'.reports ≠ [] := by
  cases h with
  | missing => simp [Progress.report]
  | unexpected => simp [Progress.report]
  | unknownGo => simp [Progress.report]
  | apart _ _ h3 =>
    rw [h3.same.2.2.1]
    rw [h3.same.2.1] at h2
    exact h1 h2
  | inPattern _ _ h3 h4 h5 => exact h5.off (by rw [h4.same.2.1, h3]) rfl h2
  | skipped => exact h1 h2
  | word h3 _ h5 => exact h5.off h3 rfl h2

theorem ItemsStep.off {i : Nat} {further : Bool} {arg : Str} {a a' : Progress} {is : List Item} {r : Option Outcome} (h : ItemsStep D i further arg a is r a') :
    (a.matching = false → a.reports ≠ []) → r = none → a'.matching = false → a'.reports ≠ [] := by
  induction h with
  | done => exact fun h1 _ => h1
  | stop => intro _ h; cases h
  | next h1 _ ih => exact fun h2 h3 h4 => ih (h1.off h2) h3 h4

theorem Walk.failed {a a' : Progress} {gs : List Group} {o : Outcome} (h : Walk D args err a gs o a') : (a.matching = false → a.reports ≠ []) → o = .failed →
    err = true ∨ a'.reports ≠ [] := by
  induction h with
  | deleg => exact fun _ h => by cases h
  | invoke => exact fun _ h => by cases h
  | error _ _ _ h => exact fun _ _ => h
  | tooFew => exact fun _ _ => Or.inr (by simp [Progress.report])
  | ended h => exact fun h1 _ => Or.inr (h1 h)
  | stop _ _ h1 =>
    rintro h2 rfl
    rcases h1.stopped _ rfl with ⟨_, _, h3⟩ | ⟨j, h3, _⟩
    · exact Or.inr h3
    · cases h3
  | next _ _ h1 _ ih => exact fun h2 h3 => ih (h1.off h2 rfl) h3

/-- If nothing is reported, then everything was matched. -/
theorem Walk.silent {a a' : Progress} {gs : List Group} {o : Outcome} (h : Walk D args err a gs o a') : (a.matching = false → a.reports ≠ []) →
    (∀ k d, o ≠ .deleg k d) → (∀ j, o ≠ .shorted j) → a'.reports = [] → a.reports = [] ∧ TakenAll D a.word gs a'.word ∧ (∃ k, D.Accepts k a'.word) ∧
    ∀ g ∈ gs, ∀ it ∈ g.items, it.wrong = false := by
  induction h with
  | deleg => exact fun _ h _ _ => absurd rfl (h _ _)
  | invoke h1 h2 h3 h4 h5 => exact fun _ _ _ _ => ⟨h5, .done, ⟨_, h2.1⟩, by simp⟩
  | error h1 h2 h3 h4 => exact fun _ _ _ h5 => ⟨h5, .done, ⟨_, h2.1⟩, by simp⟩
  | tooFew => intro _ _ _ h; simp [Progress.report] at h
  | ended h => exact fun h1 _ _ h2 => absurd h2 (h1 h)
  | stop _ _ h1 =>
    intro _ _ h2 h3
    rcases h1.stopped _ rfl with ⟨_, _, h4⟩ | ⟨j, h4, _⟩
    · exact absurd h3 h4
    · exact absurd h4 (h2 j)
  | @next a a' a'' g gs arg o _ _ h1 _ ih =>
    intro h2 h3 h4 h5
    obtain ⟨h6, h7, h8, h9⟩ := ih (h1.off h2 rfl) h3 h4 h5
    have hm : a'.matching = true := by
      cases hx : a'.matching with
      | true => rfl
      | false => exact absurd h6 (h1.off h2 rfl hx)
    obtain ⟨_, h10, h11⟩ := h1.taken rfl hm
    obtain ⟨l, h12⟩ := h1.reports
    rw [h6] at h12
    have h13 := (List.append_eq_nil_iff.1 h12.symm).1
    refine ⟨h13, .next h10 h7, h8, ?_⟩
    intro g' hg' it hit
    rcases List.mem_cons.1 hg' with rfl | hg'
    · exact h11.2 (by rw [h6, h13]) it hit
    · exact h9 g' hg' it hit

theorem Taken.append {further : Bool} {is : List Item} {u v : List Tok} (h : Taken D further u is v) : ∀ {is' : List Item} {w : List Tok}, Taken D further v is' w →
    Taken D further u (is ++ is') w := by
  induction h with
  | done => exact fun h' => h'
  | apart h1 _ ih => exact fun h' => .apart h1 (ih h')
  | turns h1 h2 _ ih => exact fun h' => .turns h1 h2 (ih h')

theorem TakenAll.append {gs : List Group} {u v : List Tok} (h : TakenAll D u gs v) : ∀ {gs' : List Group} {w : List Tok}, TakenAll D v gs' w →
    TakenAll D u (gs ++ gs') w := by
  induction h with
  | done => exact fun h' => h'
  | next h1 _ ih => exact fun h' => .next h1 (ih h')

theorem TakenAll.split : ∀ {gs gs' : List Group} {u w : List Tok}, TakenAll D u (gs ++ gs') w → ∃ v, TakenAll D u gs v ∧ TakenAll D v gs' w
  | [], _, u, _, h => ⟨u, .done, h⟩
  | _ :: gs, _, _, _, .next h1 h2 => by
    obtain ⟨v, h3, h4⟩ := TakenAll.split (gs := gs) h2
    exact ⟨v, .next h1 h3, h4⟩

theorem ItemStep.reported {g : Group} {arg : Str} {a a' : Progress} {it : Item} {r : Option Outcome} (h : ItemStep D g.index g.further arg a it r a')
    (harg : args[g.index]? = some arg) {gs gs₁ gs₂ : List Group} (hgs : gs = gs₁ ++ g :: gs₂) {is is' : List Item} (hg : g.items = is ++ it :: is')
    (hm : a.matching = true → ∃ u, TakenAll D [] gs₁ u ∧ Taken D g.further u is a.word) :
    ∀ x ∈ a'.reports, x ∈ a.reports ∨ Reported D args gs x.1 x.2 := by
  have hmem : g ∈ gs := by rw [hgs]; simp
  have hit : it ∈ g.items := by rw [hg]; simp
  have tok : ∀ {t : Tok} {a a' : Progress} {r : Option Outcome}, TokStep D g.index arg t a r a' → Turns D g.further a.word it t →
      (∃ u, TakenAll D [] gs₁ u ∧ Taken D g.further u is a.word) → ∀ x ∈ a'.reports, x ∈ a.reports ∨ Reported D args gs x.1 x.2 := by
    intro t a a' r h ht ⟨u, h1, h2⟩ x hx
    have rej : ∀ {m : Message}, ¬ D.Begins (a.word ++ [t]) → D.Rejection a.word arg m → Reported D args gs g.index m := by
      intro m h3 h4
      rcases h4 with ⟨h4, rfl⟩ | ⟨h4, rfl⟩
      · exact .mismatching hgs hg h1 h2 ht h3 h4 harg
      · exact .extraneous hgs hg h1 h2 ht h3 h4 harg
    cases h with
    | take => exact Or.inl hx
    | go h3 h4 =>
      simp only [Progress.report, List.mem_append, List.mem_singleton] at hx
      rcases hx with hx | rfl
      · exact Or.inl hx
      · exact Or.inr (rej h3 h4)
    | stop h3 h4 =>
      simp only [Progress.report, List.mem_append, List.mem_singleton] at hx
      rcases hx with hx | rfl
      · exact Or.inl hx
      · exact Or.inr (rej h3 h4)
  intro x hx
  cases h with
  | missing =>
    simp only [Progress.report, List.mem_append, List.mem_singleton] at hx
    rcases hx with hx | rfl
    · exact Or.inl hx
    · exact Or.inr (.item hmem hit harg rfl)
  | unexpected =>
    simp only [Progress.report, List.mem_append, List.mem_singleton] at hx
    rcases hx with hx | rfl
    · exact Or.inl hx
    · exact Or.inr (.item hmem hit harg rfl)
  | unknownGo =>
    simp only [Progress.report, List.mem_append, List.mem_singleton] at hx
    rcases hx with hx | rfl
    · exact Or.inl hx
    · exact Or.inr (.item hmem hit harg rfl)
  | unknownStop =>
    simp only [Progress.report, List.mem_append, List.mem_singleton] at hx
    rcases hx with hx | rfl
    · exact Or.inl hx
    · exact Or.inr (.item hmem hit harg rfl)
  | shorts => exact Or.inl hx
  | apart _ _ h3 => rw [h3.same.2.2.1] at hx; exact Or.inl hx
  | inPattern _ h2 h3 h4 h5 =>
    obtain ⟨h6, _, h7, _⟩ := h4.same
    have hw := congrArg (List.map Prod.fst) h6
    rw [← h7]
    exact tok h5 (.option h2) (by simp only [Progress.word, hw]; exact hm h3) x hx
  | skipped => exact Or.inl hx
  | word h1 h2 h3 => exact tok h3 h2 (hm h1) x hx

theorem ItemsStep.reported {g : Group} {arg : Str} {gs gs₁ gs₂ : List Group} (hgs : gs = gs₁ ++ g :: gs₂) (harg : args[g.index]? = some arg)
    {a a' : Progress} {items : List Item} {r : Option Outcome} (h : ItemsStep D g.index g.further arg a items r a') : ∀ is, g.items = is ++ items →
    (a.matching = true → ∃ u, TakenAll D [] gs₁ u ∧ Taken D g.further u is a.word) → ∀ x ∈ a'.reports, x ∈ a.reports ∨ Reported D args gs x.1 x.2 := by
  induction h with
  | done => exact fun _ _ _ x hx => Or.inl hx
  | stop h1 => exact fun is hg hm => h1.reported harg hgs hg hm
  | @next a a' a'' it items r h1 h2 ih =>
    intro is hg hm x hx
    rcases ih (is ++ [it]) (by simp [hg]) (fun hm' => by
      obtain ⟨h3, h4, _⟩ := h1.taken hm'
      obtain ⟨u, h5, h6⟩ := hm h3
      exact ⟨u, h5, h6.append (h4 [] _ .done)⟩) x hx with h3 | h3
    · exact h1.reported harg hgs hg hm x h3
    · exact Or.inr h3

theorem Walk.reported {gs : List Group} {a a' : Progress} {gs₂ : List Group} {o : Outcome} (h : Walk D args err a gs₂ o a') : ∀ gs₁, gs = gs₁ ++ gs₂ →
    (a.matching = true → TakenAll D [] gs₁ a.word) → ∀ x ∈ a'.reports, x ∈ a.reports ∨ Reported D args gs x.1 x.2 := by
  induction h with
  | deleg => exact fun _ _ _ x hx => Or.inl hx
  | invoke => exact fun _ _ _ x hx => Or.inl hx
  | error => exact fun _ _ _ x hx => Or.inl hx
  | tooFew h1 h2 =>
    intro gs₁ hgs hm x hx
    simp only [Progress.report, List.mem_append, List.mem_singleton] at hx
    rcases hx with hx | rfl
    · exact Or.inl hx
    · rw [List.append_nil] at hgs
      subst hgs
      exact Or.inr (.tooFew (hm h1) h2)
  | ended => exact fun _ _ _ x hx => Or.inl hx
  | stop _ harg h1 => exact fun gs₁ hgs hm => h1.reported hgs harg [] rfl fun hm' => ⟨_, hm hm', .done⟩
  | @next a a' a'' g gs₂ arg o _ harg h1 _ ih =>
    intro gs₁ hgs hm x hx
    rcases ih (gs₁ ++ [g]) (by simp [hgs]) (fun hm' => by
      obtain ⟨h3, h4, _⟩ := h1.taken rfl hm'
      exact (hm h3).append (.next h4 .done)) x hx with h3 | h3
    · exact h1.reported hgs harg [] rfl (fun hm' => ⟨_, hm hm', .done⟩) x h3
    · exact Or.inr h3

/-- How many errors there can be about the matching of patterns. -/
structure Counted (a : Progress) : Prop where
  none : a.matching = true → a.reports.filter (·.2.ofPattern) = []
  one : (a.reports.filter (·.2.ofPattern)).length ≤ 1

theorem Counted.same {a a' : Progress} (h : Counted a) (h1 : a'.matching = a.matching) (h2 : a'.reports = a.reports) : Counted a' :=
  ⟨by rw [h1, h2]; exact h.none, by rw [h2]; exact h.one⟩

theorem Counted.report {a : Progress} (h : Counted a) (i : Nat) {m : Message} (hm : m.ofPattern = false) : Counted (a.report i m) := by
  constructor
  · intro h1
    simp only [Progress.report, List.filter_append, h.none h1]
    simp [hm]
  · simp only [Progress.report, List.filter_append, List.length_append]
    simpa [hm] using h.one

theorem Counted.pattern {a : Progress} (h : Counted a) (hm : a.matching = true) (i : Nat) (m : Message) : Counted { a.report i m with matching := false } := by
  constructor
  · simp
  · simp only [Progress.report, List.filter_append, h.none hm, List.length_append]
    have := List.length_filter_le (fun x : Nat × Message => x.2.ofPattern) [(i, m)]
    simpa using this

theorem unknown_ofPattern (n : OptName) (first : Bool) (arg : Str) : (unknownMessage n first arg).ofPattern = false := by
  cases first <;> rfl

theorem missing_ofPattern (n : OptName) (first : Bool) (arg : Str) : (missingMessage n first arg).ofPattern = false := by
  cases first <;> rfl

theorem TokStep.counted {i : Nat} {arg : Str} {t : Tok} {a a' : Progress} (h : TokStep D i arg t a none a') (hc : Counted a) (hm : a.matching = true) :
    Counted a' ∧ a'.reports.filter (!·.2.ofPattern) = a.reports.filter (!·.2.ofPattern) := by
  cases h with
  | take => exact ⟨hc.same rfl rfl, rfl⟩
  | @go m _ h2 _ =>
    refine ⟨hc.pattern hm _ _, ?_⟩
    rcases h2 with ⟨_, rfl⟩ | ⟨_, rfl⟩ <;> simp [Progress.report, Message.ofPattern]

theorem ItemStep.counted {i : Nat} {further : Bool} {arg : Str} {a a' : Progress} {it : Item} (h : ItemStep D i further arg a it none a') (hc : Counted a) :
    Counted a' ∧ a'.reports.filter (!·.2.ofPattern) =
      a.reports.filter (!·.2.ofPattern) ++ ((it.message arg).map fun m => (i, m)).toList := by
  cases h with
  | missing => exact ⟨hc.report _ (missing_ofPattern _ _ _), by simp [Progress.report, Item.message, missing_ofPattern]⟩
  | unexpected => exact ⟨hc.report _ rfl, by simp [Progress.report, Item.message, Message.ofPattern]⟩
  | @unknownGo n first =>
    have := hc.report i (unknown_ofPattern n first arg)
    exact ⟨⟨by simp, this.one⟩, by simp [Progress.report, Item.message, unknown_ofPattern]⟩
  | apart _ _ h3 => exact ⟨hc.same h3.same.2.1 h3.same.2.2.1, by simp [Item.message, h3.same.2.2.1]⟩
  | inPattern _ _ h3 h4 h5 =>
    obtain ⟨h6, h7⟩ := h5.counted (hc.same h4.same.2.1 h4.same.2.2.1) (by rw [h4.same.2.1, h3])
    exact ⟨h6, by rw [h7, h4.same.2.2.1]; simp [Item.message]⟩
  | skipped => exact ⟨hc, by simp [Item.message]⟩
  | word h3 _ h5 =>
    obtain ⟨h6, h7⟩ := h5.counted hc h3
    exact ⟨h6, by rw [h7]; simp [Item.message]⟩

theorem ItemsStep.counted {i : Nat} {further : Bool} {arg : Str} {a a' : Progress} {items : List Item} {r : Option Outcome}
    (h : ItemsStep D i further arg a items r a') : r = none → Counted a → Counted a' ∧ a'.reports.filter (!·.2.ofPattern) =
      a.reports.filter (!·.2.ofPattern) ++ items.filterMap fun it => (it.message arg).map fun m => (i, m) := by
  induction h with
  | done => exact fun _ hc => ⟨hc, by simp⟩
  | stop => intro h; cases h
  | @next a a' a'' it items r h1 _ ih =>
    intro hr hc
    obtain ⟨h2, h3⟩ := h1.counted hc
    obtain ⟨h4, h5⟩ := ih hr h2
    refine ⟨h4, ?_⟩
    rw [h5, h3, List.append_assoc, List.filterMap_cons]
    cases it.message arg <;> simp

theorem Walk.counted (hnd : ∀ k, ¬ D.IsDeleg k) {a a' : Progress} {gs : List Group} {o : Outcome} (h : Walk D args err a gs o a') : (∀ j, o ≠ .shorted j) →
    Counted a → (a'.reports.filter (·.2.ofPattern)).length ≤ 1 ∧
      a'.reports.filter (!·.2.ofPattern) = a.reports.filter (!·.2.ofPattern) ++ itemErrors args gs := by
  induction h with
  | deleg _ _ h => exact absurd h (hnd _)
  | invoke => exact fun _ hc => ⟨hc.one, by simp [itemErrors]⟩
  | error => exact fun _ hc => ⟨hc.one, by simp [itemErrors]⟩
  | tooFew h1 => exact fun _ hc => ⟨(hc.pattern h1 _ _).one, by simp [itemErrors, Progress.report, Message.ofPattern]⟩
  | ended => exact fun _ hc => ⟨hc.one, by simp [itemErrors]⟩
  | stop _ _ h1 =>
    intro hn
    rcases h1.stopped _ rfl with ⟨_, ⟨_, k, _, h2, _⟩, _⟩ | ⟨j', h2, h3⟩
    · exact absurd h2 (hnd k)
    · exact absurd h2 (hn j')
  | next _ harg h1 _ ih =>
    intro hn hc
    obtain ⟨h2, h3⟩ := h1.counted rfl hc
    obtain ⟨h4, h5⟩ := ih hn h2
    refine ⟨h4, ?_⟩
    rw [h5, h3, List.append_assoc]
    simp [itemErrors, harg]

theorem ItemsStep.index {i : Nat} {further : Bool} {arg : Str} {a a' : Progress} {items : List Item} {r : Option Outcome}
    (h : ItemsStep D i further arg a items r a') : ∃ ms : List Message, a'.reports = a.reports ++ ms.map fun m => (i, m) := by
  have tok : ∀ {t : Tok} {a a' : Progress} {r : Option Outcome}, TokStep D i arg t a r a' → ∃ ms : List Message, a'.reports = a.reports ++ ms.map fun m => (i, m) := by
    intro t a a' r h
    cases h with
    | take => exact ⟨[], by simp⟩
    | go => exact ⟨[_], rfl⟩
    | stop => exact ⟨[_], rfl⟩
  have item : ∀ {a a' : Progress} {it : Item} {r : Option Outcome}, ItemStep D i further arg a it r a' →
      ∃ ms : List Message, a'.reports = a.reports ++ ms.map fun m => (i, m) := by
    intro a a' it r h
    cases h with
    | missing => exact ⟨[_], rfl⟩
    | unexpected => exact ⟨[_], rfl⟩
    | unknownGo => exact ⟨[_], rfl⟩
    | unknownStop => exact ⟨[_], rfl⟩
    | shorts => exact ⟨[], by simp⟩
    | apart _ _ h3 => exact ⟨[], by simp [h3.same.2.2.1]⟩
    | inPattern _ _ _ h4 h5 =>
      rw [← h4.same.2.2.1]
      exact tok h5
    | skipped => exact ⟨[], by simp⟩
    | word _ _ h3 => exact tok h3
  induction h with
  | done => exact ⟨[], by simp⟩
  | stop h1 => exact item h1
  | next h1 _ ih =>
    obtain ⟨l, h2⟩ := item h1
    obtain ⟨l', h3⟩ := ih
    exact ⟨l ++ l', by rw [h3, h2, List.append_assoc, List.map_append]⟩

theorem ordered_append {l : List (Nat × Message)} {i : Nat} (h : Ordered l) (hb : ∀ x ∈ l, x.1 ≤ i) (ms : List Message) : Ordered (l ++ ms.map fun m => (i, m)) := by
  refine List.pairwise_append.2 ⟨h, ?_, ?_⟩
  · rw [List.pairwise_map]
    exact List.pairwise_of_forall fun _ _ => Nat.le_refl _
  · intro x hx y hy
    obtain ⟨m, _, rfl⟩ := List.mem_map.1 hy
    exact hb x hx

theorem Walk.ordered {a a' : Progress} {gs : List Group} {o : Outcome} (h : Walk D args err a gs o a') : Ordered a.reports →
    (∀ x ∈ a.reports, x.1 ≤ args.length ∧ ∀ g ∈ gs, x.1 ≤ g.index) → gs.Pairwise (fun g g' => g.index ≤ g'.index) → (∀ g ∈ gs, g.index ≤ args.length) →
    Ordered a'.reports := by
  induction h with
  | deleg => exact fun h _ _ _ => h
  | invoke => exact fun h _ _ _ => h
  | error => exact fun h _ _ _ => h
  | tooFew => exact fun h h1 _ _ => ordered_append h (fun x hx => (h1 x hx).1) [_]
  | ended => exact fun h _ _ _ => h
  | @stop a a' g gs arg o _ _ h1 =>
    intro h2 h3 _ _
    obtain ⟨ms, h4⟩ := h1.index
    rw [h4]
    exact ordered_append h2 (fun x hx => (h3 x hx).2 g (by simp)) ms
  | @next a a' a'' g gs arg o _ _ h1 _ ih =>
    intro h2 h3 h5 h6
    obtain ⟨ms, h4⟩ := h1.index
    rw [List.pairwise_cons] at h5
    refine ih (by rw [h4]; exact ordered_append h2 (fun x hx => (h3 x hx).2 g (by simp)) ms) ?_ h5.2 (fun g' hg' => h6 g' (List.mem_cons_of_mem _ hg'))
    intro x hx
    rw [h4, List.mem_append] at hx
    rcases hx with hx | hx
    · exact ⟨(h3 x hx).1, fun g' hg' => (h3 x hx).2 g' (List.mem_cons_of_mem _ hg')⟩
    · obtain ⟨m, _, rfl⟩ := List.mem_map.1 hx
      exact ⟨h6 g (by simp), fun g' hg' => h5.1 g' hg'⟩

theorem ReadsAll.indexes {further : Bool} {i : Nat} {l : List Str} {gs : List Group} (h : ReadsAll D further i l gs) :
    gs.Pairwise (fun g g' => g.index ≤ g'.index) ∧ ∀ g ∈ gs, i ≤ g.index ∧ g.index < i + l.length := by
  induction h with
  | done => simp
  | one h1 h2 _ ih =>
    refine ⟨List.pairwise_cons.2 ⟨fun g hg => (by have := (ih.2 g hg).1; simp; omega), ih.1⟩, ?_⟩
    intro g hg
    rcases List.mem_cons.1 hg with rfl | hg
    · simp
    · have := ih.2 g hg
      simp
      omega
  | two h1 h2 _ ih =>
    refine ⟨List.pairwise_cons.2 ⟨fun g hg => (by have := (ih.2 g hg).1; simp; omega), ih.1⟩, ?_⟩
    intro g hg
    rcases List.mem_cons.1 hg with rfl | hg
    · simp
    · have := ih.2 g hg
      simp
      omega

end

end Verif.CliProc
