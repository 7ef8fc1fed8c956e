import Verif.CliPattern.Spec
/-!
Matches of a pattern as walks over positions.
-/
namespace Verif.CliPattern

def First : Pat → Nat → Nat → Prop
  | .sym _, b, q => q = b
  | .opt p, b, q | .rep p, b, q | .alt p, b, q => First p b q
  | .nil, _, _ | .none, _, _ => False
  | .cons e s, b, q => First e b q ∨ (nul e = true ∧ First s (b + size e) q)
  | .or s t, b, q => First s b q ∨ First t (b + size s) q

def Last : Pat → Nat → Nat → Prop
  | .sym _, b, q => q = b
  | .opt p, b, q | .rep p, b, q | .alt p, b, q => Last p b q
  | .nil, _, _ | .none, _, _ => False
  | .cons e s, b, q => Last s (b + size e) q ∨ (nul s = true ∧ Last e b q)
  | .or s t, b, q => Last s b q ∨ Last t (b + size s) q

def Fol : Pat → Nat → Nat → Nat → Prop
  | .sym _, _, _, _ => False
  | .opt p, b, x, y | .alt p, b, x, y => Fol p b x y
  | .rep p, b, x, y => Fol p b x y ∨ (Last p b x ∧ First p b y)
  | .nil, _, _, _ | .none, _, _, _ => False
  | .cons e s, b, x, y => Fol e b x y ∨ Fol s (b + size e) x y ∨ (Last e b x ∧ First s (b + size e) y)
  | .or s t, b, x, y => Fol s b x y ∨ Fol t (b + size s) x y

/-- A walk along `R` from `x` through the given positions to a position in `T`. -/
def Walk (R : Nat → Nat → Prop) (T : Nat → Prop) : Nat → List Nat → Prop
  | x, [] => T x
  | x, y :: l => R x y ∧ Walk R T y l

theorem Walk.mono {R R' T T'} (hR : ∀ x y, R x y → R' x y) (hT : ∀ x, T x → T' x) : ∀ l x, Walk R T x l → Walk R' T' x l
  | [], _, h => hT _ h
  | y :: l, _, h => ⟨hR _ _ h.1, Walk.mono hR hT l y h.2⟩

theorem First_range : ∀ (p : Pat) (b q : Nat), First p b q → b ≤ q ∧ q < b + size p := by
  intro p
  induction p with
  | sym s => intro b q h; simp only [First, size] at *; omega
  | opt p ih => intro b q h; exact ih b q h
  | rep p ih => intro b q h; exact ih b q h
  | alt p ih => intro b q h; exact ih b q h
  | nil => intro b q h; exact h.elim
  | none => intro b q h; exact h.elim
  | cons e s ihe ihs =>
    intro b q h
    simp only [First, size] at *
    rcases h with h | ⟨_, h⟩
    · have := ihe _ _ h; omega
    · have := ihs _ _ h; omega
  | or s t ihe ihs =>
    intro b q h
    simp only [First, size] at *
    rcases h with h | h
    · have := ihe _ _ h; omega
    · have := ihs _ _ h; omega

theorem Last_range : ∀ (p : Pat) (b q : Nat), Last p b q → b ≤ q ∧ q < b + size p := by
  intro p
  induction p with
  | sym s => intro b q h; simp only [Last, size] at *; omega
  | opt p ih => intro b q h; exact ih b q h
  | rep p ih => intro b q h; exact ih b q h
  | alt p ih => intro b q h; exact ih b q h
  | nil => intro b q h; exact h.elim
  | none => intro b q h; exact h.elim
  | cons e s ihe ihs =>
    intro b q h
    simp only [Last, size] at *
    rcases h with h | ⟨_, h⟩
    · have := ihs _ _ h; omega
    · have := ihe _ _ h; omega
  | or s t ihe ihs =>
    intro b q h
    simp only [Last, size] at *
    rcases h with h | h
    · have := ihe _ _ h; omega
    · have := ihs _ _ h; omega

theorem Fol_range : ∀ (p : Pat) (b x y : Nat), Fol p b x y → (b ≤ x ∧ x < b + size p) ∧ b ≤ y ∧ y < b + size p := by
  intro p
  induction p with
  | sym s => intro b x y h; exact h.elim
  | opt p ih => intro b x y h; exact ih b x y h
  | rep p ih =>
    intro b x y h
    rcases h with h | ⟨h1, h2⟩
    · exact ih b x y h
    · exact ⟨Last_range p b x h1, First_range p b y h2⟩
  | alt p ih => intro b x y h; exact ih b x y h
  | nil => intro b x y h; exact h.elim
  | none => intro b x y h; exact h.elim
  | cons e s ihe ihs =>
    intro b x y h
    simp only [Fol, size] at *
    rcases h with h | h | ⟨h1, h2⟩
    · have := ihe _ _ _ h; omega
    · have := ihs _ _ _ h; omega
    · have := Last_range _ _ _ h1; have := First_range _ _ _ h2; omega
  | or s t ihe ihs =>
    intro b x y h
    simp only [Fol, size] at *
    rcases h with h | h
    · have := ihe _ _ _ h; omega
    · have := ihs _ _ _ h; omega

theorem Path_range : ∀ (p : Pat) (b : Nat) (ps : List Nat), Path p b ps → ∀ q ∈ ps, b ≤ q ∧ q < b + size p := by
  intro p
  induction p with
  | sym s => intro b ps h q hq; simp only [Path, size] at *; subst h; simp at hq; omega
  | opt p ih => 
    intro b ps h q hq
    rcases h with h | h
    · subst h; simp at hq
    · exact ih b ps h q hq
  | rep p ih =>
    intro b ps h q hq
    obtain ⟨pss, _, h, rfl⟩ := h
    obtain ⟨l, hl, hql⟩ := List.mem_flatten.1 hq
    exact ih b l (h l hl) q hql
  | alt p ih => intro b ps h; exact ih b ps h
  | nil => intro b ps h q hq; simp only [Path] at h; subst h; simp at hq
  | none => intro b ps h; exact h.elim
  | cons e s ihe ihs =>
    intro b ps h q hq
    obtain ⟨u, v, h1, h2, rfl⟩ := h
    simp only [size]
    rcases List.mem_append.1 hq with hq | hq
    · have := ihe _ _ h1 q hq; omega
    · have := ihs _ _ h2 q hq; omega
  | or s t ihe ihs =>
    intro b ps h q hq
    simp only [size]
    rcases h with h | h
    · have := ihe _ _ h q hq; omega
    · have := ihs _ _ h q hq; omega

/-- Matches as walks. -/
def Local (p : Pat) (b : Nat) : List Nat → Prop
  | [] => nul p = true
  | x :: l => First p b x ∧ Walk (Fol p b) (Last p b) x l

theorem walk_append {R : Nat → Nat → Prop} {T : Nat → Prop} {y : Nat} {v : List Nat} :
    ∀ (l : List Nat) (x : Nat), Walk R (fun z => R z y) x l → Walk R T y v → Walk R T x (l ++ y :: v)
  | [], _, h, hv => ⟨h, hv⟩
  | _ :: l, _, h, hv => ⟨h.1, walk_append l _ h.2 hv⟩

theorem local_cons {e s : Pat} {b : Nat} {u v : List Nat} (hu : Local e b u) (hv : Local s (b + size e) v) :
    Local (.cons e s) b (u ++ v) := by
  cases u with
  | nil =>
    cases v with
    | nil => simp [Local, nul] at *; exact ⟨hu, hv⟩
    | cons y v =>
      refine ⟨Or.inr ⟨hu, hv.1⟩, Walk.mono (fun _ _ h => Or.inr (Or.inl h)) (fun _ h => Or.inl h) _ _ hv.2⟩
  | cons x u =>
    refine ⟨Or.inl hu.1, ?_⟩
    cases v with
    | nil =>
      show Walk _ _ x (u ++ [])
      rw [List.append_nil]
      exact Walk.mono (fun _ _ h => Or.inl h) (fun _ h => Or.inr ⟨hv, h⟩) _ _ hu.2
    | cons y v =>
      refine walk_append u x ?_ ?_
      · exact Walk.mono (fun _ _ h => Or.inl h) (fun _ h => Or.inr (Or.inr ⟨h, hv.1⟩)) _ _ hu.2
      · exact Walk.mono (fun _ _ h => Or.inr (Or.inl h)) (fun _ h => Or.inl h) _ _ hv.2

theorem local_rep {p : Pat} {b : Nat} : ∀ (pss : List (List Nat)), pss ≠ [] → (∀ x ∈ pss, Local p b x) → Local (.rep p) b pss.flatten
  | [], h, _ => absurd rfl h
  | [l], _, h => by
    have h := h l (by simp)
    simp only [List.flatten_cons, List.flatten_nil, List.append_nil]
    cases l with
    | nil => exact h
    | cons x l => exact ⟨h.1, Walk.mono (fun _ _ h => Or.inl h) (fun _ h => h) _ _ h.2⟩
  | l :: l' :: pss, _, h => by
    have ih := local_rep (l' :: pss) (by simp) (fun x hx => h x (by simp only [List.mem_cons] at hx ⊢; exact Or.inr hx))
    have hl := h l (by simp)
    rw [List.flatten_cons]
    generalize (l' :: pss).flatten = v at *
    cases l with
    | nil => exact ih
    | cons x l =>
      refine ⟨hl.1, ?_⟩
      cases v with
      | nil =>
        show Walk _ _ x (l ++ [])
        rw [List.append_nil]
        exact Walk.mono (fun _ _ h => Or.inl h) (fun _ h => h) _ _ hl.2
      | cons y v =>
        refine walk_append l x ?_ ih.2
        exact Walk.mono (fun _ _ h => Or.inl h) (fun _ h => Or.inr ⟨h, ih.1⟩) _ _ hl.2

/-- A walk in a sequence that starts in the tail. -/
theorem walk_tail {e s : Pat} {b : Nat} : ∀ (l : List Nat) (x : Nat), b + size e ≤ x →
    Walk (Fol (.cons e s) b) (Last (.cons e s) b) x l → Walk (Fol s (b + size e)) (Last s (b + size e)) x l
  | [], x, hx, h => by
    rcases h with h | ⟨_, h⟩
    · exact h
    · have := Last_range _ _ _ h; omega
  | y :: l, x, hx, ⟨h, hw⟩ => by
    rcases h with h | h | ⟨h, _⟩
    · have := Fol_range _ _ _ _ h; omega
    · exact ⟨h, walk_tail l y (Fol_range _ _ _ _ h).2.1 hw⟩
    · have := Last_range _ _ _ h; omega

/-- A walk in a sequence that starts in the first element. -/
theorem walk_head {e s : Pat} {b : Nat} : ∀ (l : List Nat) (x : Nat), x < b + size e →
    Walk (Fol (.cons e s) b) (Last (.cons e s) b) x l →
    ∃ u v, l = u ++ v ∧ Walk (Fol e b) (Last e b) x u ∧ Local s (b + size e) v
  | [], x, hx, h => by
    rcases h with h | ⟨h', h⟩
    · have := Last_range _ _ _ h; omega
    · exact ⟨[], [], rfl, h, h'⟩
  | y :: l, x, hx, ⟨h, hw⟩ => by
    rcases h with h | h | ⟨h, h'⟩
    · obtain ⟨u, v, rfl, h1, h2⟩ := walk_head l y (Fol_range _ _ _ _ h).2.2 hw
      exact ⟨y :: u, v, rfl, ⟨h, h1⟩, h2⟩
    · have := Fol_range _ _ _ _ h; omega
    · exact ⟨[], y :: l, rfl, h, h', walk_tail l y (First_range _ _ _ h').1 hw⟩

theorem walk_rep {p : Pat} {b : Nat} : ∀ (l : List Nat) (x : Nat), Walk (Fol (.rep p) b) (Last (.rep p) b) x l →
    ∃ (u : List Nat) (pss : List (List Nat)), l = u ++ pss.flatten ∧ Walk (Fol p b) (Last p b) x u ∧ ∀ v ∈ pss, Local p b v
  | [], x, h => ⟨[], [], rfl, h, by simp⟩
  | y :: l, x, ⟨h, hw⟩ => by
    obtain ⟨u, pss, rfl, h1, h2⟩ := walk_rep l y hw
    rcases h with h | ⟨h, h'⟩
    · exact ⟨y :: u, pss, rfl, ⟨h, h1⟩, h2⟩
    · refine ⟨[], (y :: u) :: pss, rfl, h, ?_⟩
      intro v hv
      rcases List.mem_cons.1 hv with rfl | hv
      · exact ⟨h', h1⟩
      · exact h2 v hv

theorem walk_or_left {s t : Pat} {b : Nat} : ∀ (l : List Nat) (x : Nat), x < b + size s →
    Walk (Fol (.or s t) b) (Last (.or s t) b) x l → Walk (Fol s b) (Last s b) x l
  | [], x, hx, h => by
    rcases h with h | h
    · exact h
    · have := Last_range _ _ _ h; omega
  | y :: l, x, hx, ⟨h, hw⟩ => by
    rcases h with h | h
    · exact ⟨h, walk_or_left l y (Fol_range _ _ _ _ h).2.2 hw⟩
    · have := Fol_range _ _ _ _ h; omega

theorem walk_or_right {s t : Pat} {b : Nat} : ∀ (l : List Nat) (x : Nat), b + size s ≤ x →
    Walk (Fol (.or s t) b) (Last (.or s t) b) x l → Walk (Fol t (b + size s)) (Last t (b + size s)) x l
  | [], x, hx, h => by
    rcases h with h | h
    · have := Last_range _ _ _ h; omega
    · exact h
  | y :: l, x, hx, ⟨h, hw⟩ => by
    rcases h with h | h
    · have := Fol_range _ _ _ _ h; omega
    · exact ⟨h, walk_or_right l y (Fol_range _ _ _ _ h).2.1 hw⟩

theorem path_local : ∀ (p : Pat) (b : Nat) (ps : List Nat), Path p b ps ↔ Local p b ps := by
  intro p
  induction p with
  | sym s =>
    intro b ps
    constructor
    · intro h; simp only [Path] at h; subst h; exact ⟨rfl, rfl⟩
    · intro h
      match ps, h with
      | [x], ⟨h, _⟩ => simp only [First] at h; subst h; rfl
      | x :: y :: l, ⟨h, h', _⟩ => exact h'.elim
  | opt p ih =>
    intro b ps
    cases ps with
    | nil => simp [Path, Local, nul]
    | cons x l =>
      have := ih b (x :: l)
      simp only [Path, Local, reduceCtorEq, false_or] at *
      exact this
  | rep p ih =>
    intro b ps
    constructor
    · rintro ⟨pss, h1, h2, rfl⟩
      exact local_rep pss h1 (fun x hx => (ih b x).1 (h2 x hx))
    · intro h
      cases ps with
      | nil => exact ⟨[[]], by simp, by intro x hx; simp at hx; subst hx; exact (ih b []).2 h, by simp⟩
      | cons x l =>
        obtain ⟨u, pss, rfl, h1, h2⟩ := walk_rep l x h.2
        refine ⟨(x :: u) :: pss, by simp, ?_, rfl⟩
        intro v hv
        rcases List.mem_cons.1 hv with rfl | hv
        · exact (ih b _).2 ⟨h.1, h1⟩
        · exact (ih b _).2 (h2 v hv)
  | alt p ih =>
    intro b ps
    have := ih b ps
    cases ps <;> exact this
  | nil =>
    intro b ps
    cases ps <;> simp [Path, Local, nul, First]
  | none =>
    intro b ps
    cases ps <;> simp [Path, Local, nul, First]
  | cons e s ihe ihs =>
    intro b ps
    constructor
    · rintro ⟨u, v, h1, h2, rfl⟩
      exact local_cons ((ihe _ _).1 h1) ((ihs _ _).1 h2)
    · intro h
      cases ps with
      | nil =>
        simp only [Local, nul, Bool.and_eq_true] at h
        exact ⟨[], [], (ihe _ _).2 h.1, (ihs _ _).2 h.2, rfl⟩
      | cons x l =>
        obtain ⟨h, hw⟩ := h
        rcases h with h | ⟨h', h⟩
        · obtain ⟨u, v, rfl, h1, h2⟩ := walk_head l x (First_range _ _ _ h).2 hw
          exact ⟨x :: u, v, (ihe _ _).2 ⟨h, h1⟩, (ihs _ _).2 h2, rfl⟩
        · exact ⟨[], x :: l, (ihe _ _).2 h', (ihs _ _).2 ⟨h, walk_tail l x (First_range _ _ _ h).1 hw⟩, rfl⟩
  | or s t ihs iht =>
    intro b ps
    simp only [Path, ihs, iht]
    cases ps with
    | nil => simp [Local, nul]
    | cons x l =>
      constructor
      · rintro (h | h)
        · exact ⟨Or.inl h.1, Walk.mono (fun _ _ h => Or.inl h) (fun _ h => Or.inl h) _ _ h.2⟩
        · exact ⟨Or.inr h.1, Walk.mono (fun _ _ h => Or.inr h) (fun _ h => Or.inr h) _ _ h.2⟩
      · rintro ⟨h | h, hw⟩
        · exact Or.inl ⟨h, walk_or_left l x (First_range _ _ _ h).2 hw⟩
        · exact Or.inr ⟨h, walk_or_right l x (First_range _ _ _ h).1 hw⟩

/-! Usefulness of positions -/

theorem path_exists : ∀ (p : Pat) (b : Nat) (k : Kind), Wf p k → p ≠ .none → ∃ ps, Path p b ps := by
  intro p
  induction p with
  | sym s => intro b _ _ _; exact ⟨_, rfl⟩
  | opt p ih => intro b _ _ _; exact ⟨[], Or.inl rfl⟩
  | rep p ih =>
    intro b k h _
    cases k with
    | elem =>
      obtain ⟨ps, h'⟩ := ih b _ h (by rintro rfl; exact h)
      exact ⟨ps, [ps], by simp, by simpa using h', by simp⟩
    | _ => exact h.elim
  | alt p ih =>
    intro b k h _
    cases k with
    | elem => exact ih b _ h.1 h.2
    | _ => exact h.elim
  | nil => intro b _ _ _; exact ⟨[], rfl⟩
  | none => intro b _ _ h; exact absurd rfl h
  | cons e s ihe ihs =>
    intro b k h _
    cases k with
    | seq =>
      obtain ⟨u, hu⟩ := ihe b _ h.1 (by rintro rfl; exact h.1)
      obtain ⟨v, hv⟩ := ihs (b + size e) _ h.2 (by rintro rfl; exact h.2)
      exact ⟨_, u, v, hu, hv, rfl⟩
    | _ => exact h.elim
  | or s t ihs _ =>
    intro b k h _
    cases k with
    | branches =>
      obtain ⟨u, hu⟩ := ihs b _ h.1 (by rintro rfl; exact h.1)
      exact ⟨u, Or.inl hu⟩
    | _ => exact h.elim

/-- From every position, there is a way to the end. -/
theorem walk_exists : ∀ (p : Pat) (b : Nat) (k : Kind), Wf p k → ∀ x, b ≤ x → x < b + size p → ∃ l, Walk (Fol p b) (Last p b) x l := by
  intro p
  induction p with
  | sym s => intro b _ _ x h1 h2; simp only [size] at h2; exact ⟨[], by simp only [Walk, Last]; omega⟩
  | opt p ih =>
    intro b k h
    cases k with
    | elem => exact ih b _ h
    | _ => exact h.elim
  | rep p ih =>
    intro b k h x h1 h2
    cases k with
    | elem =>
      obtain ⟨l, h⟩ := ih b _ h x h1 h2
      exact ⟨l, Walk.mono (fun _ _ h => Or.inl h) (fun _ h => h) _ _ h⟩
    | _ => exact h.elim
  | alt p ih =>
    intro b k h
    cases k with
    | elem => exact ih b _ h.1
    | _ => exact h.elim
  | nil => intro b _ _ x h1 h2; simp only [size] at h2; omega
  | none => intro b _ _ x h1 h2; simp only [size] at h2; omega
  | cons e s ihe ihs =>
    intro b k h x h1 h2
    cases k with
    | seq =>
      simp only [size] at h2
      by_cases hx : x < b + size e
      · obtain ⟨l, hl⟩ := ihe b _ h.1 x h1 hx
        obtain ⟨v, hv⟩ := path_exists s (b + size e) _ h.2 (by rintro rfl; exact h.2)
        rw [path_local] at hv
        cases v with
        | nil => exact ⟨l, Walk.mono (fun _ _ h => Or.inl h) (fun _ h => Or.inr ⟨hv, h⟩) _ _ hl⟩
        | cons y v =>
          refine ⟨l ++ y :: v, walk_append l x ?_ ?_⟩
          · exact Walk.mono (fun _ _ h => Or.inl h) (fun _ h => Or.inr (Or.inr ⟨h, hv.1⟩)) _ _ hl
          · exact Walk.mono (fun _ _ h => Or.inr (Or.inl h)) (fun _ h => Or.inl h) _ _ hv.2
      · obtain ⟨l, hl⟩ := ihs (b + size e) _ h.2 x (by omega) (by omega)
        exact ⟨l, Walk.mono (fun _ _ h => Or.inr (Or.inl h)) (fun _ h => Or.inl h) _ _ hl⟩
    | _ => exact h.elim
  | or s t ihs iht =>
    intro b k h x h1 h2
    cases k with
    | branches =>
      simp only [size] at h2
      by_cases hx : x < b + size s
      · obtain ⟨l, hl⟩ := ihs b _ h.1 x h1 hx
        exact ⟨l, Walk.mono (fun _ _ h => Or.inl h) (fun _ h => Or.inl h) _ _ hl⟩
      · obtain ⟨l, hl⟩ := iht (b + size s) _ h.2 x (by omega) (by omega)
        exact ⟨l, Walk.mono (fun _ _ h => Or.inr h) (fun _ h => Or.inr h) _ _ hl⟩
    | _ => exact h.elim

theorem symbols_length : ∀ p : Pat, (symbols p).length = size p := by
  intro p
  induction p with
  | sym s => rfl
  | opt p ih => exact ih
  | rep p ih => exact ih
  | alt p ih => exact ih
  | nil => rfl
  | none => rfl
  | cons e s ihe ihs => simp [symbols, size, ihe, ihs]
  | or e s ihe ihs => simp [symbols, size, ihe, ihs]

/-! The symbol at a position, when the first symbol of the pattern is at `b`. -/

def symAt (p : Pat) (b i : Nat) : Option PatternSymbol := if b ≤ i then (symbols p)[i - b]? else none

theorem symAt_append_left {p q : Pat} {l : List PatternSymbol} {b i : Nat} (h : symbols q = symbols p ++ l) (hi : i < b + size p) :
    symAt q b i = symAt p b i := by
  unfold symAt
  split
  · rw [h, List.getElem?_append_left (by rw [symbols_length]; omega)]
  · rfl

theorem symAt_append_right {p q r : Pat} {b i : Nat} (h : symbols q = symbols p ++ symbols r) (hi : b + size p ≤ i) :
    symAt q b i = symAt r (b + size p) i := by
  unfold symAt
  rw [if_pos (by omega), if_pos hi, h, List.getElem?_append_right (by rw [symbols_length]; omega), symbols_length]
  congr 1
  omega

theorem map_symAt_congr {p q : Pat} {b b' : Nat} {ps : List Nat} (h : ∀ i ∈ ps, symAt q b' i = symAt p b i) :
    ps.map (symAt q b') = ps.map (symAt p b) := List.map_congr_left h

/-- The pattern matches precisely the symbols along its paths. -/
theorem lang_path : ∀ (p : Pat) (b : Nat) (w : List PatternSymbol), Lang p w ↔ ∃ ps, Path p b ps ∧ ps.map (symAt p b) = w.map some := by
  intro p
  induction p with
  | sym s =>
    intro b w
    simp only [Lang, Path, exists_eq_left, List.map_cons, List.map_nil]
    have : symAt (.sym s) b b = some s := by simp [symAt, symbols]
    rw [this]
    constructor
    · rintro rfl; rfl
    · intro h
      match w, h with
      | [t], h => simp at h; rw [h]
  | opt p ih =>
    intro b w
    simp only [Lang, Path, ih b w]
    constructor
    · rintro (rfl | ⟨ps, h1, h2⟩)
      · exact ⟨[], Or.inl rfl, rfl⟩
      · exact ⟨ps, Or.inr h1, h2⟩
    · rintro ⟨ps, rfl | h1, h2⟩
      · left; simpa using h2.symm
      · exact Or.inr ⟨ps, h1, h2⟩
  | rep p ih =>
    intro b w
    simp only [Lang, Path]
    constructor
    · rintro ⟨ws, h1, h2, rfl⟩
      have : ∀ ws : List (List PatternSymbol), (∀ v ∈ ws, Lang p v) → ∃ pss : List (List Nat),
          pss.length = ws.length ∧ (∀ x ∈ pss, Path p b x) ∧ pss.flatten.map (symAt p b) = ws.flatten.map some := by
        intro ws
        induction ws with
        | nil => intro _; exact ⟨[], rfl, by simp, rfl⟩
        | cons v ws ih' =>
          intro h
          obtain ⟨pss, h1, h2, h3⟩ := ih' (fun v hv => h v (by simp [hv]))
          obtain ⟨ps, h4, h5⟩ := (ih b v).1 (h v (by simp))
          refine ⟨ps :: pss, by simp [h1], ?_, by simp only [List.flatten_cons, List.map_append, h3, h5]⟩
          intro x hx
          rcases List.mem_cons.1 hx with rfl | hx
          · exact h4
          · exact h2 x hx
      obtain ⟨pss, h3, h4, h5⟩ := this ws h2
      refine ⟨_, ⟨pss, ?_, h4, rfl⟩, h5⟩
      rintro rfl
      simp at h3
      exact h1 (List.length_eq_zero_iff.1 h3.symm)
    · rintro ⟨_, ⟨pss, h1, h2, rfl⟩, h3⟩
      have : ∀ (pss : List (List Nat)) (w : List PatternSymbol), (∀ x ∈ pss, Path p b x) →
          pss.flatten.map (symAt p b) = w.map some → ∃ ws : List (List PatternSymbol), ws.length = pss.length ∧
          (∀ v ∈ ws, Lang p v) ∧ w = ws.flatten := by
        intro pss
        induction pss with
        | nil => intro w _ h; exact ⟨[], rfl, by simp, by simpa using h.symm⟩
        | cons ps pss ih' =>
          intro w h h'
          rw [List.flatten_cons, List.map_append] at h'
          obtain ⟨u, v, rfl, hu, hv⟩ := List.append_eq_map_iff.1 h'
          obtain ⟨ws, h3, h4, rfl⟩ := ih' v (fun x hx => h x (by simp [hx])) hv.symm
          refine ⟨u :: ws, by simp [h3], ?_, rfl⟩
          intro x hx
          rcases List.mem_cons.1 hx with rfl | hx
          · exact (ih b _).2 ⟨ps, h ps (by simp), hu.symm⟩
          · exact h4 x hx
      obtain ⟨ws, h4, h5, rfl⟩ := this pss w h2 h3
      refine ⟨ws, ?_, h5, rfl⟩
      rintro rfl
      simp at h4
      exact h1 (List.length_eq_zero_iff.1 h4.symm)
  | alt p ih => intro b w; exact ih b w
  | nil =>
    intro b w
    simp only [Lang, Path, exists_eq_left, List.map_nil]
    constructor
    · rintro rfl; rfl
    · intro h; simpa using h.symm
  | none => intro b w; simp [Lang, Path]
  | cons e s ihe ihs =>
    intro b w
    simp only [Lang, Path]
    constructor
    · rintro ⟨u, v, h1, h2, rfl⟩
      obtain ⟨x, h3, h4⟩ := (ihe b u).1 h1
      obtain ⟨y, h5, h6⟩ := (ihs (b + size e) v).1 h2
      refine ⟨_, ⟨x, y, h3, h5, rfl⟩, ?_⟩
      rw [List.map_append, List.map_append, ← h4, ← h6]
      congr 1
      · exact map_symAt_congr fun i hi => symAt_append_left (l := symbols s) rfl (Path_range _ _ _ h3 i hi).2
      · exact map_symAt_congr fun i hi => symAt_append_right rfl (Path_range _ _ _ h5 i hi).1
    · rintro ⟨_, ⟨x, y, h3, h5, rfl⟩, h⟩
      rw [List.map_append] at h
      obtain ⟨u, v, rfl, hu, hv⟩ := List.append_eq_map_iff.1 h
      refine ⟨u, v, (ihe b u).2 ⟨x, h3, ?_⟩, (ihs (b + size e) v).2 ⟨y, h5, ?_⟩, rfl⟩
      · rw [hu]; exact (map_symAt_congr fun i hi => symAt_append_left (l := symbols s) rfl (Path_range _ _ _ h3 i hi).2).symm
      · rw [hv]; exact (map_symAt_congr fun i hi => symAt_append_right rfl (Path_range _ _ _ h5 i hi).1).symm
  | or s t ihs iht =>
    intro b w
    simp only [Lang, Path, ihs b w, iht (b + size s) w]
    constructor
    · rintro (⟨x, h1, h2⟩ | ⟨x, h1, h2⟩)
      · refine ⟨x, Or.inl h1, ?_⟩
        rw [← h2]
        exact map_symAt_congr fun i hi => symAt_append_left (l := symbols t) rfl (Path_range _ _ _ h1 i hi).2
      · refine ⟨x, Or.inr h1, ?_⟩
        rw [← h2]
        exact map_symAt_congr fun i hi => symAt_append_right rfl (Path_range _ _ _ h1 i hi).1
    · rintro ⟨x, h1 | h1, h2⟩
      · refine Or.inl ⟨x, h1, ?_⟩
        rw [← h2]
        exact (map_symAt_congr fun i hi => symAt_append_left (l := symbols t) rfl (Path_range _ _ _ h1 i hi).2).symm
      · refine Or.inr ⟨x, h1, ?_⟩
        rw [← h2]
        exact (map_symAt_congr fun i hi => symAt_append_right rfl (Path_range _ _ _ h1 i hi).1).symm

/-- Paths of a pattern that is moved. -/
theorem path_shift : ∀ (p : Pat) (b c : Nat) (ps : List Nat), Path p b ps → Path p (c + b) (ps.map (c + ·)) := by
  intro p
  induction p with
  | sym s => intro b c ps h; simp only [Path] at *; subst h; rfl
  | opt p ih =>
    intro b c ps h
    rcases h with rfl | h
    · exact Or.inl rfl
    · exact Or.inr (ih _ _ _ h)
  | rep p ih =>
    intro b c ps h
    obtain ⟨pss, h1, h2, rfl⟩ := h
    refine ⟨pss.map (List.map (c + ·)), by simpa using h1, ?_, by rw [List.map_flatten]⟩
    intro x hx
    obtain ⟨y, hy, rfl⟩ := List.mem_map.1 hx
    exact ih _ _ _ (h2 y hy)
  | alt p ih => intro b c ps h; exact ih _ _ _ h
  | nil => intro b c ps h; simp only [Path] at *; subst h; rfl
  | none => intro b c ps h; exact h.elim
  | cons e s ihe ihs =>
    intro b c ps h
    obtain ⟨u, v, h1, h2, rfl⟩ := h
    refine ⟨_, _, ihe _ c _ h1, ?_, List.map_append⟩
    rw [Nat.add_assoc]
    exact ihs _ c _ h2
  | or s t ihs iht =>
    intro b c ps h
    rcases h with h | h
    · exact Or.inl (ihs _ c _ h)
    · refine Or.inr ?_
      rw [Nat.add_assoc]
      exact iht _ c _ h

theorem path_unshift : ∀ (p : Pat) (b c : Nat) (qs : List Nat), Path p (c + b) qs → ∃ ps, qs = ps.map (c + ·) ∧ Path p b ps := by
  intro p
  induction p with
  | sym s => intro b c ps h; simp only [Path] at *; subst h; exact ⟨[b], rfl, rfl⟩
  | opt p ih =>
    intro b c ps h
    rcases h with rfl | h
    · exact ⟨[], rfl, Or.inl rfl⟩
    · obtain ⟨ps, h1, h2⟩ := ih _ _ _ h
      exact ⟨ps, h1, Or.inr h2⟩
  | rep p ih =>
    intro b c ps h
    obtain ⟨pss, h1, h2, rfl⟩ := h
    have : ∀ pss : List (List Nat), (∀ x ∈ pss, Path p (c + b) x) →
        ∃ qss : List (List Nat), pss = qss.map (List.map (c + ·)) ∧ ∀ x ∈ qss, Path p b x := by
      intro pss
      induction pss with
      | nil => intro _; exact ⟨[], rfl, by simp⟩
      | cons x pss ih' =>
        intro h
        obtain ⟨qss, h1, h2⟩ := ih' (fun y hy => h y (by simp [hy]))
        obtain ⟨y, h3, h4⟩ := ih _ _ _ (h x (by simp))
        refine ⟨y :: qss, by simp [h1, h3], ?_⟩
        intro z hz
        rcases List.mem_cons.1 hz with rfl | hz
        · exact h4
        · exact h2 z hz
    obtain ⟨qss, rfl, h3⟩ := this pss h2
    exact ⟨qss.flatten, by rw [List.map_flatten], qss, by simpa using h1, h3, rfl⟩
  | alt p ih => intro b c ps h; exact ih _ _ _ h
  | nil => intro b c ps h; simp only [Path] at *; subst h; exact ⟨[], rfl, rfl⟩
  | none => intro b c ps h; exact h.elim
  | cons e s ihe ihs =>
    intro b c ps h
    obtain ⟨u, v, h1, h2, rfl⟩ := h
    rw [Nat.add_assoc] at h2
    obtain ⟨u, rfl, h3⟩ := ihe _ _ _ h1
    obtain ⟨v, rfl, h4⟩ := ihs _ _ _ h2
    exact ⟨u ++ v, by rw [List.map_append], u, v, h3, h4, rfl⟩
  | or s t ihs iht =>
    intro b c ps h
    rcases h with h | h
    · obtain ⟨u, h1, h2⟩ := ihs _ _ _ h
      exact ⟨u, h1, Or.inl h2⟩
    · rw [Nat.add_assoc] at h
      obtain ⟨u, h1, h2⟩ := iht _ _ _ h
      exact ⟨u, h1, Or.inr h2⟩

theorem nul_lang : ∀ p : Pat, nul p = true ↔ Lang p [] := by
  intro p
  rw [lang_path p 0]
  constructor
  · intro h; exact ⟨[], (path_local p 0 []).2 h, rfl⟩
  · rintro ⟨ps, h1, h2⟩
    simp only [List.map_nil, List.map_eq_nil_iff] at h2
    subst h2
    exact (path_local p 0 []).1 h1

end Verif.CliPattern
