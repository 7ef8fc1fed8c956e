import Verif.CliPattern.NfaLemmas
import Mathlib.Data.List.Induction
/-!
Words that lead to positions of the automaton.
-/
namespace Verif.CliPattern

/-- The symbol of a position. -/
def Nfa.sym (nfa : Nfa) (x : Nat) : Option PatternSymbol := (nfa.positions[x]?).map Position.symbol

/-- The positions after a symbol. -/
def Next (nfa : Nfa) (S : Nat → Prop) (a : PatternSymbol) (q : Nat) : Prop := ∃ x, S x ∧ nfa.sym x = some a ∧ q ∈ nfa.fol x

/-- The positions after a sequence of symbols. -/
def Reach (nfa : Nfa) (w : List PatternSymbol) : Nat → Prop := w.foldl (Next nfa) (· ∈ nfa.starts)

theorem reach_snoc (nfa : Nfa) (w : List PatternSymbol) (a : PatternSymbol) : Reach nfa (w ++ [a]) = Next nfa (Reach nfa w) a := by
  simp [Reach]

/-- A sequence of positions from a start position, and leading to `q`. -/
def Trace (nfa : Nfa) : List Nat → Nat → Prop
  | [], q => q ∈ nfa.starts
  | x :: l, q => x ∈ nfa.starts ∧ Walk (fun a b => b ∈ nfa.fol a) (fun z => q ∈ nfa.fol z) x l

theorem walk_snoc {R : Nat → Nat → Prop} {T : Nat → Prop} {z : Nat} : ∀ (l : List Nat) (x : Nat),
    Walk R T x (l ++ [z]) ↔ Walk R (fun y => R y z) x l ∧ T z
  | [], x => by simp [Walk]
  | y :: l, x => by simp only [List.cons_append, Walk, walk_snoc l y, and_assoc]

theorem trace_snoc {nfa : Nfa} {xs : List Nat} {x q : Nat} : Trace nfa (xs ++ [x]) q ↔ Trace nfa xs x ∧ q ∈ nfa.fol x := by
  cases xs with
  | nil => simp [Trace, Walk]
  | cons y xs => simp only [List.cons_append, Trace, walk_snoc, and_assoc]

theorem walk_prefix {R : Nat → Nat → Prop} {T : Nat → Prop} {y : Nat} {t : List Nat} : ∀ (l : List Nat) (x : Nat),
    Walk R T x (l ++ y :: t) → Walk R (fun z => R z y) x l
  | [], _, h => h.1
  | _ :: l, _, h => ⟨h.1, walk_prefix l _ h.2⟩

theorem trace_prefix {nfa : Nfa} {u t : List Nat} {x q : Nat} (h : Trace nfa (u ++ x :: t) q) : Trace nfa u x := by
  cases u with
  | nil => exact h.1
  | cons y u => exact ⟨h.1, walk_prefix u y h.2⟩

theorem reach_trace (nfa : Nfa) (w : List PatternSymbol) : ∀ q, Reach nfa w q ↔ ∃ xs, Trace nfa xs q ∧ xs.map nfa.sym = w.map some := by
  induction w using List.reverseRecOn with
  | nil =>
    intro q
    simp only [Reach, List.foldl_nil, List.map_nil, List.map_eq_nil_iff]
    constructor
    · intro h; exact ⟨[], h, rfl⟩
    · rintro ⟨_, h, rfl⟩; exact h
  | append_singleton w a ih =>
    intro q
    rw [reach_snoc]
    constructor
    · rintro ⟨x, h1, h2, h3⟩
      obtain ⟨xs, h4, h5⟩ := (ih x).1 h1
      exact ⟨xs ++ [x], trace_snoc.2 ⟨h4, h3⟩, by simp [h5, h2]⟩
    · rintro ⟨xs, h1, h2⟩
      rw [List.map_append] at h2
      obtain ⟨u, v, rfl, h3, h4⟩ := List.map_eq_append_iff.1 h2
      match v, h4 with
      | [x], h4 =>
        simp only [List.map_cons, List.map_nil, List.cons.injEq, and_true] at h4
        rw [trace_snoc] at h1
        exact ⟨x, (ih x).2 ⟨u, h1.1, h3⟩, h4, h1.2⟩
      | _ :: _ :: _, h4 => simp at h4

section
variable {nfa : Nfa} {ps : List Pat} (hn : NfaOf nfa ps)
include hn

omit hn in
theorem Edge_range {p : Pat} {G x y : Nat} (h : Edge p G x y) : (G ≤ x ∧ x < G + size p) ∧ G ≤ y ∧ y ≤ G + size p := by
  rcases h with h | ⟨h, rfl⟩
  · have := Fol_range _ _ _ _ h; omega
  · have := Last_range _ _ _ h; omega

omit hn in
theorem Start_range {p : Pat} {G x : Nat} (h : Start p G x) : G ≤ x ∧ x ≤ G + size p := by
  rcases h with h | ⟨_, rfl⟩
  · have := First_range _ _ _ h; omega
  · omega

/-- Edges from a position of a pattern. -/
theorem edge_iff {k : Nat} {p : Pat} (hk : ps[k]? = some p) {x y : Nat} (h1 : base ps k ≤ x) (h2 : x ≤ base ps k + size p) :
    y ∈ nfa.fol x ↔ Edge p (base ps k) x y := by
  rw [hn.edges]
  constructor
  · rintro ⟨j, q, hj, he⟩
    have hr := Edge_range he
    have := base_unique hj hk hr.1.1 (by omega) h1 h2
    subst this
    rw [hj] at hk
    cases hk
    exact he
  · intro h; exact ⟨k, p, hk, h⟩

/-- Edges to a position of a pattern. -/
theorem edge_iff' {k : Nat} {p : Pat} (hk : ps[k]? = some p) {x y : Nat} (h1 : base ps k ≤ y) (h2 : y ≤ base ps k + size p) :
    y ∈ nfa.fol x ↔ Edge p (base ps k) x y := by
  rw [hn.edges]
  constructor
  · rintro ⟨j, q, hj, he⟩
    have hr := Edge_range he
    have := base_unique hj hk hr.2.1 hr.2.2 h1 h2
    subst this
    rw [hj] at hk
    cases hk
    exact he
  · intro h; exact ⟨k, p, hk, h⟩

theorem start_iff {k : Nat} {p : Pat} (hk : ps[k]? = some p) {x : Nat} (h1 : base ps k ≤ x) (h2 : x ≤ base ps k + size p) :
    x ∈ nfa.starts ↔ Start p (base ps k) x := by
  rw [hn.starts]
  constructor
  · rintro ⟨j, q, hj, he⟩
    have hr := Start_range he
    have := base_unique hj hk hr.1 hr.2 h1 h2
    subst this
    rw [hj] at hk
    cases hk
    exact he
  · intro h; exact ⟨k, p, hk, h⟩

theorem sym_eq {k : Nat} {p : Pat} (hk : ps[k]? = some p) {x : Nat} (h1 : base ps k ≤ x) (h2 : x < base ps k + size p) :
    nfa.sym x = symAt p (base ps k) x := by
  have := hn.infos k p hk (x - base ps k) (by omega)
  rw [Nat.add_sub_cancel' h1] at this
  simp only [Nfa.infos, List.getElem?_map, Option.map_eq_some_iff] at this
  obtain ⟨P, h3, h4⟩ := this
  simp only [Nfa.sym, h3, Option.map_some, symAt, if_pos h1]
  have h5 : P.symbol = ((symbols p)[x - base ps k]?).getD dummy := congrArg Info.symbol h4
  rw [h5, List.getElem?_eq_getElem (by rw [symbols_length]; omega)]
  rfl

theorem fol_range {x y : Nat} (h : y ∈ nfa.fol x) : y < nfa.positions.length := by
  obtain ⟨k, p, hk, he⟩ := (hn.edges x y).1 h
  have := Edge_range he
  have := base_mono ps k ps.length p hk (List.getElem?_eq_some_iff.1 hk).1 (Nat.le_refl _)
  rw [hn.length, total]
  omega

theorem starts_range {x : Nat} (h : x ∈ nfa.starts) : x < nfa.positions.length := by
  obtain ⟨k, p, hk, he⟩ := (hn.starts x).1 h
  have := Start_range he
  have := base_mono ps k ps.length p hk (List.getElem?_eq_some_iff.1 hk).1 (Nat.le_refl _)
  rw [hn.length, total]
  omega

/-- A walk to a position of a pattern stays in the pattern. -/
theorem walk_in {k : Nat} {p : Pat} (hk : ps[k]? = some p) {T T' : Nat → Prop} (hT : ∀ z, T z → T' z ∧ base ps k ≤ z ∧ z ≤ base ps k + size p) :
    ∀ (l : List Nat) (x : Nat), Walk (fun a b => b ∈ nfa.fol a) T x l →
    Walk (Edge p (base ps k)) T' x l ∧ base ps k ≤ x ∧ x ≤ base ps k + size p
  | [], x, h => hT x h
  | y :: l, x, ⟨h, hw⟩ => by
    obtain ⟨h1, h2, h3⟩ := walk_in hk hT l y hw
    have he := (edge_iff' hn hk h2 h3).1 h
    have hr := Edge_range he
    exact ⟨⟨he, h1⟩, hr.1.1, by omega⟩

theorem walk_out {k : Nat} {p : Pat} (hk : ps[k]? = some p) {T T' : Nat → Prop} (hT : ∀ z, T z → T' z) :
    ∀ (l : List Nat) (x : Nat), Walk (Edge p (base ps k)) T x l → Walk (fun a b => b ∈ nfa.fol a) T' x l :=
  fun l x h => Walk.mono (fun x y h => (hn.edges x y).2 ⟨k, p, hk, h⟩) hT l x h

omit hn in
theorem edge_walk_fol {p : Pat} {G : Nat} {T T' : Nat → Prop} (hT : ∀ z, T z → T' z ∧ z < G + size p) :
    ∀ (l : List Nat) (x : Nat), Walk (Edge p G) T x l → Walk (Fol p G) T' x l ∧ x < G + size p
  | [], x, h => hT x h
  | y :: l, x, ⟨h, hw⟩ => by
    obtain ⟨h1, h2⟩ := edge_walk_fol hT l y hw
    rcases h with h | ⟨_, rfl⟩
    · exact ⟨⟨h, h1⟩, (Fol_range _ _ _ _ h).1.2⟩
    · omega

/-- Traces to the final position of a pattern are the matches of the pattern. -/
theorem trace_final {k : Nat} {p : Pat} (hk : ps[k]? = some p) (xs : List Nat) :
    Trace nfa xs (base ps k + size p) ↔ Path p (base ps k) xs := by
  rw [path_local]
  cases xs with
  | nil =>
    simp only [Trace, Local]
    rw [start_iff hn hk (by omega) (by omega)]
    constructor
    · rintro (h | ⟨h, _⟩)
      · have := First_range _ _ _ h; omega
      · exact h
    · intro h; exact Or.inr ⟨h, rfl⟩
  | cons x l =>
    simp only [Trace, Local]
    constructor
    · rintro ⟨h1, h2⟩
      obtain ⟨h3, h4, h5⟩ := walk_in hn hk (T' := fun z => Edge p (base ps k) z (base ps k + size p)) (by
        intro z hz
        have he := (edge_iff' hn hk (by omega) (by omega)).1 hz
        have := Edge_range he
        exact ⟨he, by omega, by omega⟩) l x h2
      obtain ⟨h6, h7⟩ := edge_walk_fol (T' := Last p (base ps k)) (by
        intro z hz
        have hr := Edge_range hz
        rcases hz with hz | hz
        · have := Fol_range _ _ _ _ hz; omega
        · exact ⟨hz.1, by omega⟩) l x h3
      refine ⟨?_, h6⟩
      rcases (start_iff hn hk h4 h5).1 h1 with h | ⟨_, h⟩
      · exact h
      · omega
    · rintro ⟨h1, h2⟩
      refine ⟨(hn.starts x).2 ⟨k, p, hk, Or.inl h1⟩, ?_⟩
      refine Walk.mono (fun a b h => (hn.edges a b).2 ⟨k, p, hk, Or.inl h⟩) (fun a h => (hn.edges _ _).2 ⟨k, p, hk, Or.inr ⟨h, rfl⟩⟩) l x h2

/-- Positions on a trace to a position in a pattern are in the pattern. -/
theorem trace_in {k : Nat} {p : Pat} (hk : ps[k]? = some p) {xs : List Nat} {q : Nat} (h1 : base ps k ≤ q) (h2 : q ≤ base ps k + size p)
    (h : Trace nfa xs q) : ∀ x ∈ xs, base ps k ≤ x ∧ x < base ps k + size p := by
  induction xs using List.reverseRecOn generalizing q with
  | nil => simp
  | append_singleton xs z ih =>
    rw [trace_snoc] at h
    have hr := Edge_range ((edge_iff' hn hk h1 h2).1 h.2)
    intro x hx
    rcases List.mem_append.1 hx with hx | hx
    · exact ih (by omega) (by omega) h.1 x hx
    · simp only [List.mem_singleton] at hx
      subst hx
      exact hr.1

theorem reach_final {k : Nat} {p : Pat} (hk : ps[k]? = some p) (w : List PatternSymbol) :
    Reach nfa w (base ps k + size p) ↔ Lang p w := by
  rw [reach_trace, lang_path p (base ps k)]
  constructor
  · rintro ⟨xs, h1, h2⟩
    refine ⟨xs, (trace_final hn hk xs).1 h1, ?_⟩
    rw [← h2]
    refine List.map_congr_left ?_
    intro x hx
    have := trace_in hn hk (by omega) (by omega) h1 x hx
    exact (sym_eq hn hk this.1 this.2).symm
  · rintro ⟨xs, h1, h2⟩
    have h3 := (trace_final hn hk xs).2 h1
    refine ⟨xs, h3, ?_⟩
    rw [← h2]
    refine List.map_congr_left ?_
    intro x hx
    have := trace_in hn hk (by omega) (by omega) h3 x hx
    exact (sym_eq hn hk this.1 this.2)

omit hn in
theorem walk_join {R : Nat → Nat → Prop} {T : Nat → Prop} {y : Nat} {v : List Nat} {l : List Nat} {x : Nat}
    (h : Walk R (fun z => R z y) x l) (h' : Walk R T y v) : Walk R T x (l ++ y :: v) := walk_append l x h h'

/-- A trace to a position that is not final can be extended to a match. -/
theorem trace_extend {k : Nat} {p : Pat} (hk : ps[k]? = some p) (hwf : Wf p .seq) {xs : List Nat} {q : Nat} (h1 : base ps k ≤ q)
    (h2 : q < base ps k + size p) (h : Trace nfa xs q) : ∃ l, Trace nfa (xs ++ q :: l) (base ps k + size p) := by
  obtain ⟨l, hl⟩ := walk_exists p (base ps k) _ hwf q h1 h2
  have hl' : Walk (fun a b => b ∈ nfa.fol a) (fun z => (base ps k + size p) ∈ nfa.fol z) q l :=
    Walk.mono (fun a b h => (hn.edges a b).2 ⟨k, p, hk, Or.inl h⟩) (fun a h => (hn.edges _ _).2 ⟨k, p, hk, Or.inr ⟨h, rfl⟩⟩) l q hl
  refine ⟨l, ?_⟩
  cases xs with
  | nil => exact ⟨h, hl'⟩
  | cons x xs => exact ⟨h.1, walk_join h.2 hl'⟩

/-- Every position is of some pattern. -/
theorem cover {x : Nat} (h : x < nfa.positions.length) : ∃ k p, ps[k]? = some p ∧ base ps k ≤ x ∧ x ≤ base ps k + size p := by
  rw [hn.length, total] at h
  exact base_cover ps x ps.length (Nat.le_refl _) h

theorem reach_range {w : List PatternSymbol} {q : Nat} (h : Reach nfa w q) : q < nfa.positions.length := by
  obtain ⟨xs, h1, _⟩ := (reach_trace nfa w q).1 h
  induction xs using List.reverseRecOn with
  | nil => exact starts_range hn h1
  | append_singleton xs z _ => rw [trace_snoc] at h1; exact fol_range hn h1.2

/-- The pattern of a position. -/
theorem pattern_eq {k : Nat} {p : Pat} (hk : ps[k]? = some p) {x : Nat} (h1 : base ps k ≤ x) (h2 : x ≤ base ps k + size p) :
    ∃ P, nfa.positions[x]? = some P ∧ P.patternIndex = k ∧ P.internalPos = x - base ps k := by
  have := hn.infos k p hk (x - base ps k) (by omega)
  rw [Nat.add_sub_cancel' h1] at this
  simp only [Nfa.infos, List.getElem?_map, Option.map_eq_some_iff] at this
  obtain ⟨P, h3, h4⟩ := this
  exact ⟨P, h3, congrArg Info.patternIndex h4, congrArg Info.internalPos h4⟩

/-- Precisely the final positions have no outgoing edges. -/
theorem final_iff {k : Nat} {p : Pat} (hk : ps[k]? = some p) (hwf : Wf p .seq) {x : Nat} (h1 : base ps k ≤ x) (h2 : x ≤ base ps k + size p) :
    nfa.fol x = [] ↔ x = base ps k + size p := by
  constructor
  · intro h
    apply Classical.byContradiction
    intro hx
    obtain ⟨l, hl⟩ := walk_exists p (base ps k) _ hwf x h1 (by omega)
    have : ∃ y, y ∈ nfa.fol x := by
      cases l with
      | nil => exact ⟨_, (hn.edges _ _).2 ⟨k, p, hk, Or.inr ⟨hl, rfl⟩⟩⟩
      | cons y l => exact ⟨y, (hn.edges _ _).2 ⟨k, p, hk, Or.inl hl.1⟩⟩
    rw [h] at this
    simp at this
  · intro h
    apply List.eq_nil_iff_forall_not_mem.2
    intro y hy
    have := Edge_range ((edge_iff hn hk h1 h2).1 hy)
    omega

/-- The words that lead to positions of a pattern are the beginnings of matches. -/
theorem reach_prefix {k : Nat} {p : Pat} (hk : ps[k]? = some p) (hwf : Wf p .seq) (w : List PatternSymbol) :
    (∃ q, base ps k ≤ q ∧ q ≤ base ps k + size p ∧ Reach nfa w q) ↔ ∃ v, Lang p (w ++ v) := by
  constructor
  · rintro ⟨q, h1, h2, h3⟩
    by_cases hq : q = base ps k + size p
    · subst hq
      exact ⟨[], by simpa using (reach_final hn hk w).1 h3⟩
    · obtain ⟨xs, h4, h5⟩ := (reach_trace nfa w q).1 h3
      obtain ⟨l, hl⟩ := trace_extend hn hk hwf h1 (by omega) h4
      have hin := trace_in hn hk (by omega) (by omega) hl
      have : ∃ v : List PatternSymbol, ((q :: l).map nfa.sym) = v.map some := by
        have : ∀ l : List Nat, (∀ x ∈ l, base ps k ≤ x ∧ x < base ps k + size p) → ∃ v : List PatternSymbol, l.map nfa.sym = v.map some := by
          intro l
          induction l with
          | nil => intro _; exact ⟨[], rfl⟩
          | cons x l ih =>
            intro h
            obtain ⟨v, hv⟩ := ih (fun y hy => h y (by simp [hy]))
            have hx := h x (by simp)
            have hs := sym_eq hn hk hx.1 hx.2
            rw [symAt, if_pos hx.1, List.getElem?_eq_getElem (by rw [symbols_length]; omega)] at hs
            exact ⟨_ :: v, by rw [List.map_cons, List.map_cons, hv, hs]⟩
        exact this (q :: l) (fun x hx => hin x (by simp only [List.mem_append]; exact Or.inr hx))
      obtain ⟨v, hv⟩ := this
      refine ⟨v, (reach_final hn hk _).1 ((reach_trace nfa _ _).2 ⟨xs ++ q :: l, hl, ?_⟩)⟩
      rw [List.map_append, List.map_append, h5, hv]
  · rintro ⟨v, hv⟩
    obtain ⟨xs, h1, h2⟩ := (reach_trace nfa _ _).1 ((reach_final hn hk _).2 hv)
    rw [List.map_append] at h2
    obtain ⟨u, t, rfl, h3, h4⟩ := List.map_eq_append_iff.1 h2
    have hin := trace_in hn hk (by omega) (by omega) h1
    cases t with
    | nil =>
      rw [List.append_nil] at h1
      exact ⟨base ps k + size p, by omega, by omega, (reach_trace nfa _ _).2 ⟨u, h1, h3⟩⟩
    | cons x t =>
      have hx := hin x (by simp)
      refine ⟨x, hx.1, by omega, (reach_trace nfa _ _).2 ⟨u, ?_, h3⟩⟩
      exact trace_prefix h1

end

end Verif.CliPattern
