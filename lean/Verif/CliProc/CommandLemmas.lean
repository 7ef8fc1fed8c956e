import Verif.CliProc.ValueLemmas
import Verif.CliProc.ProcessProps
/-!
Lemmas for the processing of a command line.
-/
namespace Verif.CliProc

open Verif.CliPattern Verif.CliSpec

section
variable {σ : Type}

/-! Options. -/

theorem perform_append : ∀ (ds ds' : List (Deed σ)) (w : σ),
    perform (ds ++ ds') w = ((perform ds' (perform ds w).1).1, (perform ds w).2 ++ (perform ds' (perform ds w).1).2)
  | [], ds', w => rfl
  | d :: ds, ds', w => by
    simp only [List.cons_append, perform, perform_append ds ds', List.append_assoc]

theorem isEmpty_append' {α : Type} (l l' : List α) : (!(l ++ l').isEmpty) = (!l.isEmpty || !l'.isEmpty) := by
  cases l <;> simp

theorem invokeOption_eq {args : List Str} {act : Act σ} {a : Acc σ} {x : Invocation} {g : Nat × Nat × OptName × Option Str} (h : Shows args x g) :
    invokeOption args act a x = some ⟨a.errors ++ (perform (deedsOf act [g]) a.world).2, a.hasError || !(perform (deedsOf act [g]) a.world).2.isEmpty,
      (perform (deedsOf act [g]) a.world).1⟩ := by
  obtain ⟨i, j, n, v⟩ := g
  obtain ⟨h1, h2, h3, arg, h4, h5⟩ := h
  simp only at h1 h2 h3 h4 h5
  subst h1 h2
  cases v with
  | none => simp [invokeOption, h3, deedsOf, perform, Deed.error]
  | some v =>
    simp only [invokeOption, h3, deedsOf, perform, Deed.error, List.map_cons, List.map_nil, Option.bind_eq_bind, Option.bind_some, h4, h5]
    by_cases hg : (act x.option (some v) a.world).1 = true
    · simp [hg]
    · simp [hg]

theorem invokeOptions_eq {args : List Str} {act : Act σ} {l : List Invocation} {g : List (Nat × Nat × OptName × Option Str)} (h : List.Forall₂ (Shows args) l g) :
    ∀ a : Acc σ, invokeOptions args act a l = some ⟨a.errors ++ (perform (deedsOf act g) a.world).2,
      a.hasError || !(perform (deedsOf act g) a.world).2.isEmpty, (perform (deedsOf act g) a.world).1⟩ := by
  induction h with
  | nil => intro a; simp [invokeOptions, deedsOf, perform]
  | @cons x y l g h1 _ ih =>
    intro a
    have : deedsOf act (y :: g) = deedsOf act [y] ++ deedsOf act g := rfl
    rw [this, perform_append]
    simp only [invokeOptions, invokeOption_eq h1, Option.bind_eq_bind, Option.bind_some, ih, List.append_assoc]
    simp [isEmpty_append', Bool.or_assoc]

theorem invokeParents_eq {args : List Str} {parents : List (Level σ)} {parts : List (List (Deed σ) × List (Nat × Report))}
    (h : List.Forall₂ (fun L p => Carries args L p.1 p.2) parents parts) :
    ∀ a : Acc σ, invokeParents args a parents = some ⟨a.errors ++ (perform (parts.flatMap Prod.fst) a.world).2,
      a.hasError || !(perform (parts.flatMap Prod.fst) a.world).2.isEmpty, (perform (parts.flatMap Prod.fst) a.world).1⟩ := by
  induction h with
  | nil => intro a; simp [invokeParents, perform]
  | @cons L p parents parts h1 _ ih =>
    intro a
    obtain ⟨⟨g, h2, h3⟩, _⟩ := h1
    rw [List.flatMap_cons, perform_append, h3]
    simp only [invokeParents, invokeOptions_eq h2, Option.bind_eq_bind, Option.bind_some, ih, List.append_assoc]
    simp [isEmpty_append', Bool.or_assoc]

theorem flatMap_errors {args : List Str} {parents : List (Level σ)} {parts : List (List (Deed σ) × List (Nat × Report))}
    (h : List.Forall₂ (fun L p => Carries args L p.1 p.2) parents parts) : parents.flatMap Level.errors = parts.flatMap Prod.snd := by
  induction h with
  | nil => rfl
  | cons h1 _ ih => rw [List.flatMap_cons, List.flatMap_cons, h1.errors, ih]

theorem Chain.parent {args : List Str} {parents : List (Level σ)} {ds : List (Deed σ)} {es : List (Nat × Report)} (h : Chain args parents ds es) :
    parentHasError parents = true ↔ es ≠ [] := by
  unfold parentHasError
  cases hp : parents.getLast? with
  | some L => exact h.hasError L hp
  | none =>
    have : parents = [] := List.getLast?_eq_none_iff.1 hp
    subst this
    obtain ⟨parts, h1, _, rfl⟩ := h.parts
    cases h1
    simp

/-! Errors. -/

theorem orderedInsert_filter (x : Nat × Report) (l : List (Nat × Report)) (i : Nat) :
    (l.orderedInsert (fun x y => x.1 ≤ y.1) x).filter (fun x => decide (x.1 = i)) = (x :: l).filter (fun x => decide (x.1 = i)) := by
  induction l with
  | nil => rfl
  | cons y l ih =>
    rw [List.orderedInsert_cons]
    split
    · rfl
    · rename_i h
      rw [List.filter_cons, ih]
      simp only [List.filter_cons]
      by_cases hx : x.1 = i
      · have : y.1 ≠ i := by omega
        simp [hx, this]
      · simp [hx]

theorem insertionSort_filter (l : List (Nat × Report)) (i : Nat) :
    (l.insertionSort (fun x y => x.1 ≤ y.1)).filter (fun x => decide (x.1 = i)) = l.filter (fun x => decide (x.1 = i)) := by
  induction l with
  | nil => rfl
  | cons x l ih =>
    rw [List.insertionSort_cons, orderedInsert_filter, List.filter_cons, List.filter_cons, ih]

theorem insertionSort_inOrder (l : List (Nat × Report)) : InOrder l (l.insertionSort (fun x y => x.1 ≤ y.1)) := by
  refine ⟨?_, fun i => insertionSort_filter l i⟩
  haveI : Std.Total (fun x y : Nat × Report => x.1 ≤ y.1) := ⟨fun x y => Nat.le_total x.1 y.1⟩
  haveI : IsTrans (Nat × Report) (fun x y => x.1 ≤ y.1) := ⟨fun x y z => Nat.le_trans⟩
  exact List.pairwise_insertionSort _ l

theorem failWith_fails (root : Root σ) {args : List Str} {parents : List (Level σ)} {ds : List (Deed σ)} {es : List (Nat × Report)} (h : Chain args parents ds es)
    (errors : List (Nat × Report)) (he : es ++ errors ≠ []) (w : σ) : Fails root (es ++ errors) w (failWith root parents errors w) := by
  refine ⟨he, _, insertionSort_inOrder _, ?_⟩
  obtain ⟨parts, h1, _, rfl⟩ := h.parts
  unfold failWith reportErrors
  rw [flatMap_errors h1]
  cases root.handler with
  | some handle => rfl
  | none =>
    simp only [defaultHandler, exitFailure, Prod.mk.injEq, true_and]
    have : ∀ l : List (Nat × Report), l.take (min l.length 8) = l.take 8 := by
      intro l
      rw [List.take_eq_take_iff]
      omega
    rw [this]

/-! What happens item by item. -/

variable {D : Cmd} {args : List Str} {err : Bool}

theorem TakenAt.all {u v : List (Tok × Nat)} {gs : List Group} (h : TakenAt D u gs v) : TakenAll D (u.map Prod.fst) gs (v.map Prod.fst) := by
  induction h with
  | done => exact .done
  | @next u w g gs new h1 _ ih =>
    refine .next h1 ?_
    simpa [Function.comp_def] using ih

theorem TokStep.toks {i : Nat} {arg : Str} {t : Tok} {a a' : Progress} {r : Option Outcome} (h : TokStep D i arg t a r a') :
    ∃ new : List Tok, a'.toks = a.toks ++ new.map fun t => (t, i) := by
  cases h with
  | take => exact ⟨[t], rfl⟩
  | go => exact ⟨[], by simp [Progress.report]⟩
  | stop => exact ⟨[], by simp [Progress.report]⟩

theorem ItemStep.toks {i : Nat} {further : Bool} {arg : Str} {a a' : Progress} {it : Item} {r : Option Outcome} (h : ItemStep D i further arg a it r a') :
    ∃ new : List Tok, a'.toks = a.toks ++ new.map fun t => (t, i) := by
  cases h with
  | apart _ _ h => exact ⟨[], by simp [h.same.1]⟩
  | inPattern _ _ _ h h' =>
    obtain ⟨new, h1⟩ := h'.toks
    exact ⟨new, by rw [h1, h.same.1]⟩
  | word _ _ h => exact h.toks
  | missing => exact ⟨[], by simp [Progress.report]⟩
  | unexpected => exact ⟨[], by simp [Progress.report]⟩
  | unknownGo => exact ⟨[], by simp [Progress.report]⟩
  | unknownStop => exact ⟨[], by simp [Progress.report]⟩
  | shorts => exact ⟨[], by simp⟩
  | skipped => exact ⟨[], by simp⟩

theorem ItemsStep.toks {i : Nat} {further : Bool} {arg : Str} {a a' : Progress} {items : List Item} {r : Option Outcome}
    (h : ItemsStep D i further arg a items r a') : ∃ new : List Tok, a'.toks = a.toks ++ new.map fun t => (t, i) := by
  induction h with
  | done => exact ⟨[], by simp⟩
  | stop h => exact h.toks
  | next h _ ih =>
    obtain ⟨new, h1⟩ := h.toks
    obtain ⟨new', h2⟩ := ih
    exact ⟨new ++ new', by rw [h2, h1]; simp⟩

/-- Groups are passed without delegation. -/
inductive Steps (D : Cmd) (args : List Str) : Progress → List Group → Progress → Prop
  | done {a : Progress} : Steps D args a [] a
  | next {a a' a'' : Progress} {g : Group} {gs : List Group} {arg : Str} : (a.matching = true → ∀ k, D.First k a.word → ¬ D.IsDeleg k) →
      args[g.index]? = some arg → ItemsStep D g.index g.further arg a g.items none a' → Steps D args a' gs a'' → Steps D args a (g :: gs) a''

theorem Steps.taken {a a' : Progress} {gs : List Group} (h : Steps D args a gs a') : a'.matching = true → a.matching = true ∧ TakenAt D a.toks gs a'.toks ∧
    ¬ D.DelegatesIn a.word gs := by
  induction h with
  | done =>
    refine fun hm => ⟨hm, .done, ?_⟩
    rintro ⟨gs₁, gs₂, _, _, h4, h5, _⟩
    exact h5 (List.append_eq_nil_iff.1 h4.symm).2
  | @next a a' a'' g gs arg hnd _ h1 _ ih =>
    intro hm
    obtain ⟨h2, h3, h4⟩ := ih hm
    obtain ⟨h5, h6, _⟩ := h1.taken rfl h2
    obtain ⟨new, h7⟩ := h1.toks
    refine ⟨h5, .next (new := new) ?_ (by rw [← h7]; exact h3), ?_⟩
    · have : a.toks.map Prod.fst ++ new = a'.toks.map Prod.fst := by rw [h7]; simp [Function.comp_def]
      rw [this]
      exact h6
    · rintro ⟨p, q, v, k', h18, h19, h20, h21, h22⟩
      cases p with
      | nil =>
        cases h20
        exact hnd h5 k' h21 h22
      | cons g' p =>
        simp only [List.cons_append, List.cons.injEq] at h18
        obtain ⟨rfl, rfl⟩ := h18
        cases h20 with
        | next h23 h24 =>
          rw [← h6.unique h23] at h24
          exact h4 ⟨p, q, v, k', rfl, h19, h24, h21, h22⟩

theorem Steps.given {a a' : Progress} {gs : List Group} (h : Steps D args a gs a') : (∀ g ∈ gs, ∀ it ∈ g.items, ¬ D.ShortsAt it) ∧
    ∃ l, GivenAll D gs l ∧ a'.given = a.given ++ l := by
  induction h with
  | done => exact ⟨by simp, [], .done, by simp⟩
  | next _ _ h1 _ ih =>
    obtain ⟨h2, l, h3, h4⟩ := ih
    obtain ⟨h5, l', h6, h7⟩ := h1.given rfl
    refine ⟨?_, _, .next h6 h3, by rw [h4, h7, List.append_assoc]⟩
    intro g hg
    rcases List.mem_cons.1 hg with rfl | hg
    · exact h5
    · exact h2 g hg

theorem Steps.reports {a a' : Progress} {gs : List Group} (h : Steps D args a gs a') : Counted a →
    Counted a' ∧ a'.reports.filter (!·.2.ofPattern) = a.reports.filter (!·.2.ofPattern) ++ itemErrors args gs := by
  induction h with
  | done => exact fun hc => ⟨hc, by simp [itemErrors]⟩
  | next _ harg h1 _ ih =>
    intro hc
    obtain ⟨h2, h3⟩ := h1.counted rfl hc
    obtain ⟨h4, h5⟩ := ih h2
    refine ⟨h4, ?_⟩
    rw [h5, h3, List.append_assoc]
    simp [itemErrors, harg]

theorem ItemsStep.outcome {i : Nat} {further : Bool} {arg : Str} {a a' : Progress} {items : List Item} {r : Option Outcome}
    (h : ItemsStep D i further arg a items r a') : ∀ o, r = some o → (∀ k, o ≠ .invoke k) ∧ ∀ k d, o ≠ .deleg k d := by
  induction h with
  | done => simp
  | next _ _ ih => exact ih
  | stop h =>
    intro o ho
    cases ho
    have tok : ∀ {t : Tok} {a a' : Progress} {o : Outcome}, TokStep D i arg t a (some o) a' → o = .failed := by
      intro t a a' o h; cases h; rfl
    cases h with
    | inPattern _ _ _ _ h => rw [tok h]; simp
    | word _ _ h => rw [tok h]; simp
    | unknownStop => simp
    | shorts => simp

theorem Walk.deleg_steps {a a' : Progress} {gs : List Group} {o : Outcome} (h : Walk D args err a gs o a') : ∀ k d, o = .deleg k d →
    ∃ gs₁ gs₂, gs = gs₁ ++ gs₂ ∧ d = indexOf args gs₂ ∧ Steps D args a gs₁ a' ∧ a'.matching = true ∧ D.First k a'.word ∧ D.IsDeleg k := by
  induction h with
  | @deleg a gs k h1 h2 h3 =>
    intro k d h
    cases h
    exact ⟨[], gs, rfl, rfl, .done, h1, h2, h3⟩
  | invoke => exact fun k d h => by cases h
  | error => exact fun k d h => by cases h
  | tooFew => exact fun k d h => by cases h
  | ended => exact fun k d h => by cases h
  | stop _ _ h1 => exact fun k d h => absurd h ((h1.outcome _ rfl).2 k d)
  | @next a a' a'' g gs arg o hnd harg h1 _ ih =>
    intro k d hk
    obtain ⟨gs₁, gs₂, rfl, h4, h5, h6⟩ := ih k d hk
    exact ⟨g :: gs₁, gs₂, rfl, h4, .next hnd harg h1 h5, h6⟩

theorem Walk.invoke_steps {a a' : Progress} {gs : List Group} {o : Outcome} (h : Walk D args err a gs o a') : ∀ k, o = .invoke k →
    Steps D args a gs a' ∧ a'.matching = true := by
  induction h with
  | deleg => exact fun k h => by cases h
  | invoke h1 => exact fun k h => ⟨.done, h1⟩
  | error => exact fun k h => by cases h
  | tooFew => exact fun k h => by cases h
  | ended => exact fun k h => by cases h
  | stop _ _ h1 => exact fun k h => absurd h ((h1.outcome _ rfl).1 k)
  | next hnd harg h1 _ ih =>
    intro k hk
    obtain ⟨h2, h3⟩ := ih k hk
    exact ⟨.next hnd harg h1 h2, h3⟩

theorem given_total (items : List Item) : ∃ l, Given D items l := by
  induction items with
  | nil => exact ⟨[], .done⟩
  | cons it items ih =>
    obtain ⟨l, h⟩ := ih
    by_cases hx : ∃ n v j, it = .option n v ∧ Has D.os j n
    · obtain ⟨n, v, j, rfl, hj⟩ := hx
      exact ⟨_, .declared hj h⟩
    · exact ⟨l, .other (fun n v j h1 h2 => hx ⟨n, v, j, h1, h2⟩) h⟩

theorem givenAll_total (gs : List Group) : ∃ l, GivenAll D gs l := by
  induction gs with
  | nil => exact ⟨[], .done⟩
  | cons g gs ih =>
    obtain ⟨l, h⟩ := ih
    obtain ⟨l', h'⟩ := given_total (D := D) g.items
    exact ⟨_, .next h' h⟩

theorem TokStep.given {i : Nat} {arg : Str} {t : Tok} {a a' : Progress} {r : Option Outcome} (h : TokStep D i arg t a r a') : a'.given = a.given := by
  cases h <;> rfl

theorem ItemStep.stop_given {i : Nat} {further : Bool} {arg : Str} {a a' : Progress} {it : Item} {o : Outcome} (h : ItemStep D i further arg a it (some o) a') :
    ∃ l l', Given D [it] l' ∧ l <+: l' ∧ a'.given = a.given ++ l.map (fun x => (i, x)) := by
  cases h with
  | unknownStop =>
    obtain ⟨l, h1⟩ := given_total (D := D) [Item.unknown ‹OptName› ‹Bool›]
    exact ⟨[], l, h1, List.nil_prefix, by simp [Progress.report]⟩
  | shorts =>
    obtain ⟨l, h1⟩ := given_total (D := D) [Item.option ‹OptName› none]
    exact ⟨[], l, h1, List.nil_prefix, by simp⟩
  | inPattern _ _ _ h4 h5 =>
    obtain ⟨l, h6, h7⟩ := h4.same.2.2.2
    exact ⟨l, l, h6, List.prefix_rfl, by rw [h5.given, h7]⟩
  | @word s _ _ _ _ _ h5 =>
    obtain ⟨l, h1⟩ := given_total (D := D) [Item.word s]
    exact ⟨[], l, h1, List.nil_prefix, by simp [h5.given]⟩

theorem ItemsStep.stop_given {i : Nat} {further : Bool} {arg : Str} {a a' : Progress} {items : List Item} {r : Option Outcome}
    (h : ItemsStep D i further arg a items r a') : ∃ l l', Given D items l' ∧ l <+: l' ∧ a'.given = a.given ++ l.map (fun x => (i, x)) := by
  induction h with
  | done => exact ⟨[], [], .done, List.prefix_rfl, by simp⟩
  | @stop a a' it items o h =>
    obtain ⟨l, l', h1, h2, h3⟩ := h.stop_given
    obtain ⟨l'', h4⟩ := given_total (D := D) items
    exact ⟨l, l' ++ l'', h1.append h4, h2.trans (List.prefix_append _ _), h3⟩
  | next h1 _ ih =>
    obtain ⟨_, l, h3, h4⟩ := h1.given
    obtain ⟨l', l'', h6, h7, h8⟩ := ih
    exact ⟨l ++ l', l ++ l'', h3.append h6, (List.prefix_append_right_inj l).2 h7, by simp [h8, h4]⟩

theorem Walk.given_prefix {a a' : Progress} {gs : List Group} {o : Outcome} (h : Walk D args err a gs o a') :
    ∃ l l', GivenAll D gs l' ∧ l <+: l' ∧ a'.given = a.given ++ l := by
  induction h with
  | @deleg a gs =>
    obtain ⟨l, h⟩ := givenAll_total (D := D) gs
    exact ⟨[], l, h, List.nil_prefix, by simp⟩
  | invoke => exact ⟨[], [], .done, List.prefix_rfl, by simp⟩
  | error => exact ⟨[], [], .done, List.prefix_rfl, by simp⟩
  | tooFew => exact ⟨[], [], .done, List.prefix_rfl, by simp [Progress.report]⟩
  | ended => exact ⟨[], [], .done, List.prefix_rfl, by simp⟩
  | @stop a a' g gs arg o _ _ h =>
    obtain ⟨l, l', h1, h2, h3⟩ := h.stop_given
    obtain ⟨l'', h4⟩ := givenAll_total (D := D) gs
    exact ⟨_, _, .next h1 h4, (h2.map _).trans (List.prefix_append _ _), h3⟩
  | next _ _ h1 _ ih =>
    obtain ⟨_, l, h3, h4⟩ := h1.given rfl
    obtain ⟨l', l'', h6, h7, h8⟩ := ih
    exact ⟨_, _, .next h3 h6, (List.prefix_append_right_inj _).2 h7, by rw [h8, h4, List.append_assoc]⟩

theorem Walk.given_all (hnd : ∀ k, ¬ D.IsDeleg k) {a a' : Progress} {gs : List Group} {o : Outcome} (h : Walk D args err a gs o a') : o = .failed →
    ∃ l, GivenAll D gs l ∧ a'.given = a.given ++ l := by
  induction h with
  | deleg => intro h; cases h
  | invoke => intro h; cases h
  | error => exact fun _ => ⟨[], .done, by simp⟩
  | tooFew => exact fun _ => ⟨[], .done, by simp [Progress.report]⟩
  | ended => exact fun _ => ⟨[], .done, by simp⟩
  | stop _ _ h1 =>
    rintro rfl
    rcases h1.stopped _ rfl with ⟨_, ⟨_, k, _, h2, _⟩, _⟩ | ⟨j', h2, h3⟩
    · exact absurd h2 (hnd k)
    · cases h2
  | next _ _ h1 _ ih =>
    intro ho
    obtain ⟨_, l, h3, h4⟩ := h1.given rfl
    obtain ⟨l', h6, h8⟩ := ih ho
    exact ⟨_, .next h3 h6, by rw [h8, h4, List.append_assoc]⟩

end

end Verif.CliProc
