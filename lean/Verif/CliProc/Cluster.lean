import Verif.CliProc.ProcessErrors
/-!
Compounds of short options, and options that are given separately.
-/
namespace Verif.CliProc

open Verif.CliPattern Verif.CliSpec

/-- The same item, except for whether it is the first one in an argument. -/
inductive SameItem : Item → Item → Prop
  | refl (it : Item) : SameItem it it
  | unknown (n : OptName) (f f' : Bool) : SameItem (.unknown n f) (.unknown n f')
  | missing (n : OptName) (f f' : Bool) : SameItem (.missing n f) (.missing n f')

section
variable {D : Cmd}

theorem same_refl : ∀ (l : List Item), List.Forall₂ SameItem l l
  | [] => .nil
  | it :: l => .cons (.refl it) (same_refl l)

theorem SameItem.option {n : OptName} {v : Option Str} {it : Item} (h : SameItem (.option n v) it) : it = .option n v := by
  cases h; rfl

theorem SameItem.option' {n : OptName} {v : Option Str} {it : Item} (h : SameItem it (.option n v)) : it = .option n v := by
  cases h; rfl

theorem same_option {n : OptName} {v : Option Str} {l l' : List Item} (h : List.Forall₂ SameItem l l') : .option n v ∈ l ↔ .option n v ∈ l' := by
  induction h with
  | nil => simp
  | cons h1 _ ih =>
    simp only [List.mem_cons, ih]
    constructor
    · rintro (rfl | h)
      · exact Or.inl h1.option.symm
      · exact Or.inr h
    · rintro (rfl | h)
      · exact Or.inl h1.option'.symm
      · exact Or.inr h

theorem SameItem.wrong {it it' : Item} (h : SameItem it it') : it.wrong = it'.wrong := by cases h <;> rfl

theorem same_wrong {l l' : List Item} (h : List.Forall₂ SameItem l l') : (∀ it ∈ l, it.wrong = false) ↔ ∀ it ∈ l', it.wrong = false := by
  induction h with
  | nil => simp
  | cons h1 _ ih => simp only [List.mem_cons, forall_eq_or_imp, ih, h1.wrong]

theorem Taken.same {further : Bool} {u v : List Tok} {l : List Item} (h : Taken D further u l v) : ∀ {l' : List Item}, List.Forall₂ SameItem l l' →
    Taken D further u l' v := by
  induction h with
  | done => intro l' h; cases h; exact .done
  | apart h1 _ ih =>
    intro l' h
    cases h with
    | cons h2 h3 =>
      refine .apart ?_ (ih h3)
      cases h2 with
      | refl => exact h1
      | unknown => exact h1
      | missing => trivial
  | turns h1 h2 _ ih =>
    intro l' h
    cases h with
    | cons h3 h4 =>
      cases h3 with
      | refl => exact .turns h1 h2 (ih h4)
      | unknown => cases h1
      | missing => cases h1

theorem same_symm {l l' : List Item} (h : List.Forall₂ SameItem l l') : List.Forall₂ SameItem l' l := by
  induction h with
  | nil => exact .nil
  | cons h1 _ ih =>
    refine .cons ?_ ih
    cases h1 with
    | refl => exact .refl _
    | unknown => exact .unknown _ _ _
    | missing => exact .missing _ _ _

theorem Taken.split {further : Bool} : ∀ {is is' : List Item} {u w : List Tok}, Taken D further u (is ++ is') w → ∃ v, Taken D further u is v ∧ Taken D further v is' w
  | [], _, u, _, h => ⟨u, .done, h⟩
  | _ :: is, _, _, _, .apart h1 h2 => by
    obtain ⟨v, h3, h4⟩ := Taken.split (is := is) h2
    exact ⟨v, .apart h1 h3, h4⟩
  | _ :: is, _, _, _, .turns h1 h1' h2 => by
    obtain ⟨v, h3, h4⟩ := Taken.split (is := is) h2
    exact ⟨v, .turns h1 h1' h3, h4⟩

/-- The remainder of a compound can be given as an argument of its own. -/
theorem Compound.first {cs : Str} {next : Option Str} {items : List Item} {two : Bool} (h : Compound D false cs next items two) (hne : cs ≠ []) :
    ∃ items', Compound D true cs next items' two ∧ List.Forall₂ SameItem items items' := by
  cases h with
  | done => exact absurd rfl hne
  | plain h1 h2 h3 h4 => exact ⟨_, .plain h1 h2 h3 h4, same_refl _⟩
  | unexpected h1 h2 h3 => exact ⟨_, .unexpected h1 h2 h3, same_refl _⟩
  | attached h1 h2 => exact ⟨_, .attached h1 h2, same_refl _⟩
  | bare h1 h2 => exact ⟨_, .bare h1 h2, same_refl _⟩
  | separate h1 => exact ⟨_, .separate h1, same_refl _⟩
  | missing h1 => exact ⟨_, .missing h1, .cons (.missing _ _ _) .nil⟩
  | unknown h1 => exact ⟨_, .unknown h1, .cons (.unknown _ _ _) .nil⟩

theorem Compound.next {first : Bool} {cs : Str} {next : Option Str} {items : List Item} {two : Bool} (h : Compound D first cs next items two) :
    ∀ s s', next = some s → two = false → Compound D first cs (some s') items two := by
  induction h with
  | done => exact fun _ _ _ _ => .done
  | plain h1 h2 h3 _ ih => exact fun s s' hn ht => .plain h1 h2 h3 (ih s s' hn ht)
  | unexpected h1 h2 h3 => exact fun _ _ _ _ => .unexpected h1 h2 h3
  | attached h1 h2 => exact fun _ _ _ _ => .attached h1 h2
  | bare h1 h2 => exact fun _ _ _ _ => .bare h1 h2
  | separate => exact fun _ _ _ h => by cases h
  | missing => exact fun _ _ h _ => by cases h
  | unknown h1 => exact fun _ _ _ _ => .unknown h1

theorem Reads.next {further : Bool} {x s s' : Str} {items : List Item} (h : Reads D further x (some s) items false) : Reads D further x (some s') items false := by
  cases h with
  | word h => exact .word h
  | short h1 h2 h3 => exact .short h1 h2 (h3.next s s' rfl rfl)
  | long h1 h2 h3 h4 => exact .long h1 h2 h3 h4
  | assigned h1 h2 h3 => exact .assigned h1 h2 h3
  | unexpected h1 h2 h3 h4 => exact .unexpected h1 h2 h3 h4
  | unknown h1 h2 h3 => exact .unknown h1 h2 h3
  | unknownAssigned h1 h2 h3 => exact .unknownAssigned h1 h2 h3

/-- The arguments before one that begins a group are read in the same way, whatever follows. -/
theorem ReadsAll.replace {further : Bool} {i : Nat} {l : List Str} {gs : List Group} (h : ReadsAll D further i l gs) : ∀ (pre : List Str) (s : Str) (post : List Str),
    l = pre ++ s :: post → (∃ g ∈ gs, g.index = i + pre.length ∧ g.further = false) →
    ∃ A g B, gs = A ++ g :: B ∧ ReadsAll D false (i + pre.length) (s :: post) (g :: B) ∧
      ∀ s' post' gs', ReadsAll D false (i + pre.length) (s' :: post') gs' → ReadsAll D further i (pre ++ s' :: post') (A ++ gs') := by
  have zero : ∀ {further : Bool} {i : Nat} {s : Str} {args : List Str} {g : Group} {gs : List Group}, ReadsAll D further i (s :: args) (g :: gs) →
      g.index = i → g.further = further → (∀ g' ∈ gs, i < g'.index) → (∃ g' ∈ g :: gs, g'.index = i ∧ g'.further = false) → ReadsAll D false i (s :: args) (g :: gs) ∧
      ∀ s' post' gs', ReadsAll D false i (s' :: post') gs' → ReadsAll D further i (s' :: post') gs' := by
    rintro further i s args g gs h h1 h2 h3 ⟨g', hg', h4, h5⟩
    rcases List.mem_cons.1 hg' with rfl | hg'
    · rw [h5] at h2
      subst h2
      exact ⟨h, fun _ _ _ h => h⟩
    · have := h3 g' hg'
      omega
  induction h with
  | done => intro pre s post h; simp at h
  | @one further further' i x args items gs h1 h2 h3 ih =>
    intro pre s post hl hg
    cases pre with
    | nil =>
      simp only [List.nil_append, List.cons.injEq] at hl
      obtain ⟨rfl, rfl⟩ := hl
      obtain ⟨h4, h5⟩ := zero (.one h1 h2 h3) rfl rfl (fun g' hg' => (by have := (h3.indexes.2 g' hg').1; omega)) hg
      exact ⟨[], _, gs, rfl, h4, h5⟩
    | cons y pre =>
      simp only [List.cons_append, List.cons.injEq] at hl
      obtain ⟨rfl, rfl⟩ := hl
      obtain ⟨g, hg, h4, h5⟩ := hg
      rcases List.mem_cons.1 hg with rfl | hg
      · simp at h4
      · obtain ⟨A, g', B, rfl, h6, h7⟩ := ih pre s post rfl ⟨g, hg, by rw [h4]; simp; omega, h5⟩
        have hx : i + (x :: pre).length = i + 1 + pre.length := by simp; omega
        rw [hx]
        refine ⟨_ :: A, g', B, rfl, h6, fun s' post' gs' h8 => .one (items := items) ?_ h2 (h7 s' post' gs' h8)⟩
        cases pre with
        | nil => exact h1.next
        | cons z pre => exact h1
  | @two further further' i x v args items gs h1 h2 h3 ih =>
    intro pre s post hl hg
    cases pre with
    | nil =>
      simp only [List.nil_append, List.cons.injEq] at hl
      obtain ⟨rfl, rfl⟩ := hl
      obtain ⟨h4, h5⟩ := zero (.two h1 h2 h3) rfl rfl (fun g' hg' => (by have := (h3.indexes.2 g' hg').1; omega)) hg
      exact ⟨[], _, gs, rfl, h4, h5⟩
    | cons y pre =>
      simp only [List.cons_append, List.cons.injEq] at hl
      obtain ⟨rfl, hl⟩ := hl
      obtain ⟨g, hg, h4, h5⟩ := hg
      rcases List.mem_cons.1 hg with rfl | hg
      · simp at h4
      · cases pre with
        | nil =>
          have := (h3.indexes.2 g hg).1
          simp at h4
          omega
        | cons z pre =>
          simp only [List.cons_append, List.cons.injEq] at hl
          obtain ⟨rfl, rfl⟩ := hl
          obtain ⟨A, g', B, rfl, h6, h7⟩ := ih pre s post rfl ⟨g, hg, by rw [h4]; simp; omega, h5⟩
          have hx : i + (x :: v :: pre).length = i + 2 + pre.length := by simp; omega
          rw [hx]
          exact ⟨_ :: A, g', B, rfl, h6, fun s' post' gs' h8 => .two (items := items) h1 h2 (h7 s' post' gs' h8)⟩

/-- Move a group to another argument. -/
def Group.shift (g : Group) : Group := { g with index := g.index + 1 }

theorem ReadsAll.shift {further : Bool} {i : Nat} {l : List Str} {gs : List Group} (h : ReadsAll D further i l gs) :
    ReadsAll D further (i + 1) l (gs.map Group.shift) := by
  induction h with
  | done => exact .done
  | one h1 h2 _ ih => exact .one h1 h2 ih
  | @two _ _ i _ _ _ _ _ h1 h2 _ ih =>
    refine .two h1 h2 ?_
    rw [show i + 1 + 2 = i + 2 + 1 from by omega]
    exact ih

theorem TakenAll.shift {gs : List Group} {u v : List Tok} (h : TakenAll D u gs v) : TakenAll D u (gs.map Group.shift) v := by
  induction h with
  | done => exact .done
  | next h1 _ ih => exact .next h1 ih

theorem taken_shift : ∀ {gs : List Group} {u v : List Tok}, TakenAll D u (gs.map Group.shift) v → TakenAll D u gs v
  | [], _, _, .done => .done
  | _ :: _, _, _, .next h1 h2 => .next h1 (taken_shift h2)

/-- The groups say the same. -/
structure SameGroups (D : Cmd) (gs gs' : List Group) : Prop where
  wrong : (∀ g ∈ gs, ∀ it ∈ g.items, it.wrong = false) ↔ ∀ g ∈ gs', ∀ it ∈ g.items, it.wrong = false
  shorts : ∀ j, D.FirstShort (gs.flatMap Group.items) j ↔ D.FirstShort (gs'.flatMap Group.items) j
  shortsAt : (∀ g ∈ gs, ∀ it ∈ g.items, ¬ D.ShortsAt it) ↔ ∀ g ∈ gs', ∀ it ∈ g.items, ¬ D.ShortsAt it
  taken : ∀ u v, TakenAll D u gs v ↔ TakenAll D u gs' v

theorem same_shortsAt {l l' : List Item} (h : List.Forall₂ SameItem l l') : (∀ it ∈ l, ¬ D.ShortsAt it) ↔ ∀ it ∈ l', ¬ D.ShortsAt it := by
  constructor
  · rintro h1 it hit ⟨n, v, rfl, h2⟩
    exact h1 _ ((same_option h).2 hit) ⟨n, v, rfl, h2⟩
  · rintro h1 it hit ⟨n, v, rfl, h2⟩
    exact h1 _ ((same_option h).1 hit) ⟨n, v, rfl, h2⟩

theorem same_firstShort {l l' : List Item} (h : List.Forall₂ SameItem l l') (j : Nat) (hf : D.FirstShort l j) : D.FirstShort l' j := by
  induction h with
  | nil => exact hf
  | @cons x y l l' h1 h2 ih =>
    obtain ⟨is, n, v, is', h3, h4, h5, h6⟩ := hf
    cases is with
    | nil =>
      simp only [List.nil_append, List.cons.injEq] at h3
      obtain ⟨rfl, rfl⟩ := h3
      rw [h1.option]
      exact ⟨[], n, v, l', rfl, h4, h5, by simp⟩
    | cons z is =>
      simp only [List.cons_append, List.cons.injEq] at h3
      obtain ⟨rfl, rfl⟩ := h3
      refine firstShort_cons ?_ (ih ⟨is, n, v, is', rfl, h4, h5, fun it hit => h6 it (by simp [hit])⟩)
      rintro ⟨n', v', rfl, h7⟩
      rw [h1.option'] at h6
      exact h6 _ (by simp) ⟨n', v', rfl, h7⟩

theorem flatMap_shift (B : List Group) : (B.map Group.shift).flatMap Group.items = B.flatMap Group.items := by
  rw [List.flatMap_map]
  rfl

theorem sameGroups {A B : List Group} {i : Nat} {f : Bool} {x : Item} {items items' : List Item} (h : List.Forall₂ SameItem items items') :
    SameGroups D (A ++ ⟨i, f, x :: items⟩ :: B) (A ++ ⟨i, f, [x]⟩ :: ⟨i + 1, f, items'⟩ :: B.map Group.shift) := by
  have hshift : ∀ P : Item → Prop, (∀ g ∈ B.map Group.shift, ∀ it ∈ g.items, P it) ↔ ∀ g ∈ B, ∀ it ∈ g.items, P it := by
    intro P
    simp [Group.shift]
  have hflat : List.Forall₂ SameItem ((A ++ ⟨i, f, x :: items⟩ :: B).flatMap Group.items)
      ((A ++ ⟨i, f, [x]⟩ :: ⟨i + 1, f, items'⟩ :: B.map Group.shift).flatMap Group.items) := by
    simp only [List.flatMap_append, List.flatMap_cons, flatMap_shift]
    exact List.rel_append (same_refl _) (.cons (.refl _) (List.rel_append h (same_refl _)))
  refine ⟨?_, fun j => ⟨same_firstShort hflat j, same_firstShort (same_symm hflat) j⟩, ?_, ?_⟩
  · have := same_wrong h
    simp only [List.mem_append, List.mem_cons, or_imp, forall_and, forall_eq, hshift, List.not_mem_nil, false_imp_iff, and_true] at this ⊢
    rw [this]
    tauto
  · have := same_shortsAt (D := D) h
    simp only [List.mem_append, List.mem_cons, or_imp, forall_and, forall_eq, hshift (fun it => ¬ D.ShortsAt it), List.not_mem_nil, false_imp_iff, and_true] at this ⊢
    rw [this]
    tauto
  · intro u v
    constructor
    · intro h1
      obtain ⟨w, h2, h3⟩ := h1.split
      cases h3 with
      | next h4 h5 =>
        obtain ⟨w', h6, h7⟩ := Taken.split (is := [x]) h4
        exact h2.append (.next h6 (.next (h7.same h) h5.shift))
    · intro h1
      obtain ⟨w, h2, h3⟩ := h1.split
      cases h3 with
      | next h4 h5 =>
        cases h5 with
        | next h6 h7 =>
          exact h2.append (.next (Taken.append (is := [x]) h4 (h6.same (same_symm h))) (taken_shift h7))

/-- What is read when a compound is divided. -/
theorem ReadsAll.divide {i : Nat} {pre post : List Str} {ch : Nat} {cs : Str} (hra : ∀ n, D.Requires n → D.Allows n) (hk : D.Known (.short ch)) (hna : ¬ D.Allows (.short ch)) (hne : ¬ D.EndsOptions (.short ch))
    (hc : ch ≠ 45) (hcs : cs ≠ []) (hh : cs.head? ≠ some 45) {gs : List Group} (h : ReadsAll D false i (pre ++ (45 :: ch :: cs) :: post) gs)
    (hg : ∃ g ∈ gs, g.index = i + pre.length ∧ g.further = false) :
    ∃ gs', ReadsAll D false i (pre ++ [45, ch] :: (45 :: cs) :: post) gs' ∧ SameGroups D gs gs' := by
  obtain ⟨A, g, B, rfl, h1, h2⟩ := h.replace pre _ post rfl hg
  have read : ∀ {next : Option Str} {items : List Item} {two : Bool}, Reads D false (45 :: ch :: cs) next items two → ∃ is is', items = .option (.short ch) none :: is ∧
      Reads D false (45 :: cs) next is' two ∧ List.Forall₂ SameItem is is' := by
    intro next items two h
    have hC : Compound D true (ch :: cs) next items two := by
      generalize hs : (45 :: ch :: cs : Str) = s at h
      cases h with
      | word h3 => subst hs; simp at h3; omega
      | short h3 h4 h5 =>
        simp only [List.cons.injEq, true_and] at hs
        obtain ⟨rfl, rfl⟩ := hs
        exact h5
      | _ => simp only [List.cons.injEq, true_and] at hs; exact absurd hs.1 hc
    cases hC with
    | plain _ _ h4 h5 =>
      obtain ⟨is', h6, h7⟩ := h5.first hcs
      refine ⟨_, is', rfl, ?_, h7⟩
      cases cs with
      | nil => exact absurd rfl hcs
      | cons y cs => exact .short rfl (fun h => hh (by rw [h]; rfl)) h6
    | unexpected _ _ h4 => exact absurd h4 hh
    | attached h4 => exact absurd h4 hna
    | bare h4 => exact absurd h4 hna
    | separate h4 => exact absurd (hra _ h4) hna
    | missing h4 => exact absurd (hra _ h4) hna
    | unknown h4 => exact absurd hk h4
  have hone : ∀ next, Reads D false [45, ch] next [.option (.short ch) none] false := fun next => .short rfl hc (.plain hk hna (by simp) .done)
  have hf1 : (false = true ↔ false = true ∨ ∃ n v, .option n v ∈ [Item.option (.short ch) none] ∧ D.EndsOptions n) := by
    simp only [Bool.false_eq_true, false_or, List.mem_singleton, Item.option.injEq, false_iff, not_exists, not_and]
    rintro n v ⟨rfl, rfl⟩
    exact hne
  have hf2 : ∀ {is is' : List Item} {further : Bool}, List.Forall₂ SameItem is is' →
      (further = true ↔ false = true ∨ ∃ n v, .option n v ∈ Item.option (.short ch) none :: is ∧ D.EndsOptions n) →
      (further = true ↔ false = true ∨ ∃ n v, .option n v ∈ is' ∧ D.EndsOptions n) := by
    intro is is' further hs hf
    rw [hf]
    simp only [Bool.false_eq_true, false_or, List.mem_cons, Item.option.injEq]
    constructor
    · rintro ⟨n, v, ⟨rfl, rfl⟩ | h3, h4⟩
      · exact absurd h4 hne
      · exact ⟨n, v, (same_option hs).1 h3, h4⟩
    · rintro ⟨n, v, h3, h4⟩
      exact ⟨n, v, Or.inr ((same_option hs).2 h3), h4⟩
  cases h1 with
  | one h3 h4 h5 =>
    obtain ⟨is, is', rfl, h6, h7⟩ := read h3
    exact ⟨_, h2 _ _ _ (.one (hone _) hf1 (.one h6 (hf2 h7 h4) h5.shift)), sameGroups h7⟩
  | two h3 h4 h5 =>
    obtain ⟨is, is', rfl, h6, h7⟩ := read h3
    refine ⟨_, h2 _ _ _ (.one (hone _) hf1 (.two h6 (hf2 h7 h4) ?_)), sameGroups (B := _) h7⟩
    have := h5.shift
    rwa [show ∀ k, k + 2 + 1 = k + 1 + 2 from by omega] at this

end

end Verif.CliProc
