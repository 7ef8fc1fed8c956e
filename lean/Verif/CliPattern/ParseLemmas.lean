import Verif.CliPattern.DescLemmas
import Verif.CliPattern.ArgsSpec
/-!
The parsing of arguments follows the structure of the match.
-/
namespace Verif.CliPattern

theorem deriv_no_params : ∀ (p : Pat) (b : Nat) (ms : List MatchPos) (k : Nat) (ds : List Entry), (Wf p .seq ∨ Wf p .elem) → params p = 0 →
    Deriv p b ms k ds → ds = [] := by
  intro p
  induction p with
  | sym s =>
    rintro b ms k ds _ hp ⟨_, a, _, rfl⟩
    simp only [params] at hp
    split at hp
    · simp at hp
    · rename_i h; simp [h]
  | opt p ih | rep p ih | alt p ih => intro b ms k ds _ hp; simp [params] at hp
  | nil => rintro b ms k ds _ _ ⟨_, _, rfl⟩; rfl
  | none => rintro b ms k ds _ _ h; exact h.elim
  | cons e s ihe ihs =>
    rintro b ms k ds (hw | hw) hp ⟨_, u, v, d, d', h1, h2, rfl, rfl⟩
    · simp only [params] at hp
      rw [ihe _ _ _ _ (Or.inr hw.1) (by omega) h1, ihs _ _ _ _ (Or.inl hw.2) (by omega) h2]
      rfl
    · exact hw.elim
  | or s r _ _ => rintro b ms k ds (hw | hw) <;> exact hw.elim

theorem deriv_repFirst : ∀ (p : Pat) (b : Nat) (ms : List MatchPos) (k : Nat) (ds : List Entry), Wf p .seq → repFirst p →
    Deriv p b ms k ds → ∃ e d, ds = e :: d ∧ e.type = .rep := by
  intro p
  induction p with
  | cons e s ihe ihs =>
    rintro b ms k ds hw hr ⟨_, u, v, d, d', h1, h2, rfl, rfl⟩
    rcases hr with ⟨hp, hr⟩ | ⟨q, rfl⟩
    · rw [deriv_no_params e _ _ _ _ (Or.inr hw.1) hp h1]
      exact ihs _ _ _ _ hw.2 hr h2
    · obtain ⟨_, l, _, _, _, rfl⟩ := h1
      exact ⟨_, _, rfl, rfl⟩
  | sym _ | opt _ _ | rep _ _ | alt _ _ | nil | none | or _ _ _ _ => intro b ms k ds _ h; exact h.elim

section
variable (t : Tables) (good : Ty → Nat → Bool) (numArgs : Nat)

/-- The descriptors `D` are as described by `ds`, and the parser turns them into the value `v`. -/
def Parses (P : ArgParser) (D : List Desc) (v : Val) : Prop := ∀ rest, P (D ++ rest) = some (v, rest, bads v)

def VElem (p : Pat) : Prop := Wf p .elem → params p ≠ 0 → ∀ b ms ds τ D, Fits p τ → ¬ AltSize p τ → Deriv p b ms 0 ds →
  D.map (view t) = ds.map some → (∀ m ∈ ms, m.argIndex < numArgs) →
    ∃ v, Value good p b ms τ v ∧ Parses (parsers t good numArgs τ).1 D v

def VSeq (p : Pat) : Prop := Wf p .seq → ∀ b ms ds ts D, Fits p ts → ¬ AltSize p ts → Deriv p b ms 0 ds →
  D.map (view t) = ds.map some → (∀ m ∈ ms, m.argIndex < numArgs) →
    ∃ v, Value good p b ms ts v ∧ Parses (parseAll ((parsersOf t good numArgs ts).map Prod.fst)) D v

def VBranches (p : Pat) : Prop := Wf p .branches → ∀ b ms k ds ts D, Fits p ts → ¬ AltSize p ts → Deriv p b ms k ds →
  D.map (view t) = ds.map some → (∀ m ∈ ms, m.argIndex < numArgs) →
    ∃ v P, Value good p b ms ts (.variant k v) ∧ ((parsersOf t good numArgs ts).map Prod.snd)[k]? = some P ∧ Parses P D v

variable {t good numArgs}

/-- A type that is parsed as a tuple of one. -/
theorem parse_single {τ : Ty} {D : List Desc} {P : ArgParser} (hP : (parsers t good numArgs τ).1 = P) {v : Val}
    (h : Parses (parseAll ((parsersOf t good numArgs (.cons τ .nil)).map Prod.fst)) D v) : ∃ w, v = .cons w .nil ∧ Parses P D w := by
  simp only [Parses, parsersOf, List.map_cons, List.map_nil, parseAll, hP, Option.bind_eq_bind] at h
  have h0 := h []
  rw [List.append_nil] at h0
  cases hp : P D with
  | none => simp [hp] at h0
  | some x =>
    obtain ⟨w, r, e⟩ := x
    simp only [hp, Option.bind_some, Option.some.injEq, Prod.mk.injEq, List.append_nil] at h0
    refine ⟨w, h0.1.symm, ?_⟩
    intro rest
    have h1 := h rest
    cases hp' : P (D ++ rest) with
    | none => simp [hp'] at h1
    | some x' =>
      obtain ⟨w', r', e'⟩ := x'
      simp only [hp', Option.bind_some, Option.some.injEq, Prod.mk.injEq, List.append_nil] at h1
      have hw : w' = w := by
        have := h1.1.trans h0.1.symm
        cases this
        rfl
      subst hw
      rw [h1.2.1, h1.2.2, ← h0.1]
      simp [bads]

theorem parse_tuple {p : Pat} (h : VSeq t good numArgs p) (hw : Wf p .seq) {b : Nat} {ms : List MatchPos} {ds : List Entry} {τ : Ty} {D : List Desc}
    (hf : FitsTuple (Fits p) τ) (ha : ¬ FitsTuple (AltSize p) τ) (hd : Deriv p b ms 0 ds) (hD : D.map (view t) = ds.map some)
    (hms : ∀ m ∈ ms, m.argIndex < numArgs) : ∃ v, TupleValue (Value good p b ms) τ v ∧ Parses (parsers t good numArgs τ).2 D v := by
  have aux : FitsTuple (Fits p) τ = Fits p (.cons τ .nil) → FitsTuple (AltSize p) τ = AltSize p (.cons τ .nil) →
      (∀ w, TupleValue (Value good p b ms) τ w = Value good p b ms (.cons τ .nil) (.cons w .nil)) →
      (parsers t good numArgs τ).2 = (parsers t good numArgs τ).1 →
      ∃ v, TupleValue (Value good p b ms) τ v ∧ Parses (parsers t good numArgs τ).2 D v := by
    intro e1 e2 e3 e4
    rw [e1] at hf
    rw [e2] at ha
    obtain ⟨v, h1, h2⟩ := h hw b ms ds _ D hf ha hd hD hms
    obtain ⟨w, rfl, h3⟩ := parse_single rfl h2
    exact ⟨w, by rw [e3]; exact h1, by rw [e4]; exact h3⟩
  cases τ with
  | tuple ts =>
    obtain ⟨v, h1, h2⟩ := h hw b ms ds ts D hf ha hd hD hms
    refine ⟨.tuple v, ⟨v, rfl, h1⟩, ?_⟩
    intro rest
    simp only [parsers, parseTuple, h2 rest, Option.bind_eq_bind, Option.bind_some, bads]
  | _ => exact aux rfl rfl (fun _ => rfl) (by simp only [parsers])

theorem next_of {D : List Desc} {e : Entry} {d : List Entry} (h : D.map (view t) = (e :: d).map some) : ∃ desc D' el, D = desc :: D' ∧
    D'.map (view t) = d.map some ∧ el.type = e.type ∧ el.collapsible = e.collapsible ∧
    (∀ rest, nextDesc t (desc :: rest) = some (el, e.value, rest)) := by
  cases D with
  | nil => simp at h
  | cons desc D' =>
    simp only [List.map_cons, List.cons.injEq] at h
    obtain ⟨h1, h2⟩ := h
    simp only [view] at h1
    cases hel : t.elems[desc.elemIndex]? with
    | none => simp [hel] at h1
    | some el =>
      simp only [hel, Option.map_some, Option.some.injEq] at h1
      subst h1
      exact ⟨desc, D', el, rfl, h2, rfl, rfl, fun rest => by simp [nextDesc, hel]⟩

theorem bads_listOf : ∀ l : List Val, bads (listOf l) = (l.map bads).flatten
  | [] => rfl
  | v :: l => by simp [listOf, bads, bads_listOf l]

/-- The repetitions of a repetition construct. -/
theorem parse_repeat {p : Pat} (h : VSeq t good numArgs p) (hw : Wf p .seq) {b : Nat} {τ : Ty} (hf : FitsTuple (Fits p) τ)
    (ha : ¬ FitsTuple (AltSize p) τ) : ∀ (l : List (List MatchPos × List Entry)) (D : List Desc), (∀ x ∈ l, Deriv p b x.1 0 x.2) →
    D.map (view t) = ((l.map Prod.snd).flatten).map some → (∀ x ∈ l, ∀ m ∈ x.1, m.argIndex < numArgs) →
    ∃ l' : List (List MatchPos × Val), l'.map Prod.fst = l.map Prod.fst ∧ (∀ x ∈ l', TupleValue (Value good p b x.1) τ x.2) ∧
      ∀ rest, parseRepeat (parsers t good numArgs τ).2 l.length (D ++ rest) =
        some (listOf (l'.map Prod.snd), rest, bads (listOf (l'.map Prod.snd)))
  | [], D, _, hD, _ => by
    simp only [List.map_nil, List.flatten_nil, List.map_eq_nil_iff] at hD
    subst hD
    exact ⟨[], rfl, by simp, fun rest => by simp [parseRepeat, listOf, bads]⟩
  | x :: l, D, hd, hD, hms => by
    simp only [List.map_cons, List.flatten_cons, List.map_append] at hD
    obtain ⟨D1, D2, rfl, h1, h2⟩ := List.map_eq_append_iff.1 hD
    obtain ⟨v, h3, h4⟩ := parse_tuple h hw hf ha (hd x (by simp)) h1 (hms x (by simp))
    obtain ⟨l', h5, h6, h7⟩ := parse_repeat h hw hf ha l D2 (fun y hy => hd y (by simp [hy])) h2 (fun y hy => hms y (by simp [hy]))
    refine ⟨(x.1, v) :: l', by simp [h5], ?_, ?_⟩
    · intro y hy
      rcases List.mem_cons.1 hy with rfl | hy
      · exact h3
      · exact h6 y hy
    · intro rest
      simp only [List.length_cons, parseRepeat, List.append_assoc, h4 (D2 ++ rest), Option.bind_eq_bind, Option.bind_some, h7, List.map_cons, listOf, bads]

theorem vgoals : ∀ p : Pat, VElem t good numArgs p ∧ VSeq t good numArgs p ∧ VBranches t good numArgs p := by
  intro p
  induction p with
  | sym s =>
    refine ⟨?_, fun h => h.elim, fun h => h.elim⟩
    intro _ hp b ms ds τ D hf ha hd hD hms
    obtain ⟨_, a, rfl, rfl⟩ := hd
    have hs : s.type = .valueSlot := by
      apply Classical.byContradiction
      intro h
      simp [params, h] at hp
    rw [if_pos hs] at hD
    obtain ⟨desc, D', el, rfl, h2, h3, h4, h5⟩ := next_of hD
    dsimp only at h3 h4 h5
    simp only [List.map_nil, List.map_eq_nil_iff] at h2
    subst h2
    have ha' : a < numArgs := hms ⟨b, a⟩ (by simp)
    have hreg : ∀ rest, parseRegular good numArgs τ el a rest = some (if good τ a then .arg a else .bad a, rest,
        bads (if good τ a then .arg a else .bad a)) := by
      intro rest
      simp only [parseRegular, h3, if_true, ha']
      split <;> simp [bads]
    refine ⟨_, ⟨a, rfl, rfl⟩, ?_⟩
    intro rest
    cases τ with
    | optional _ | vector _ | variant _ => exact hf.elim
    | bool | size =>
      simp only [parsers, parseBool, parseSize, List.cons_append, h5, Option.bind_eq_bind, Option.bind_some, h3, hreg, List.nil_append]
      simp
    | _ => simp only [parsers, parseOther, List.cons_append, h5, Option.bind_eq_bind, Option.bind_some, hreg, List.nil_append]
  | opt p ih =>
    refine ⟨?_, fun h => h.elim, fun h => h.elim⟩
    intro hw hp b ms ds τ D hf ha hd hD hms
    obtain ⟨_, ⟨rfl, rfl⟩ | ⟨d, hd, rfl⟩⟩ := hd
    · obtain ⟨desc, D', el, rfl, h2, h3, h4, h5⟩ := next_of hD
      dsimp only at h3 h4 h5
      simp only [List.map_nil, List.map_eq_nil_iff] at h2
      subst h2
      cases τ with
      | optional τ =>
        refine ⟨.absent, Or.inl ⟨rfl, rfl⟩, fun rest => ?_⟩
        simp [parsers, parseOptional, List.cons_append, h5, h3, bads]
      | bool =>
        refine ⟨.bool false, Or.inl ⟨rfl, rfl⟩, fun rest => ?_⟩
        simp only [Fits] at hf
        simp [parsers, parseBool, List.cons_append, h5, h3, h4, hf, bads]
      | vector τ =>
        refine ⟨.vec .nil, Or.inl ⟨rfl, rfl⟩, fun rest => ?_⟩
        simp [parsers, parseVector, List.cons_append, h5, h3, bads]
      | size =>
        refine ⟨.size 0, Or.inl ⟨rfl, rfl⟩, fun rest => ?_⟩
        simp [parsers, parseSize, List.cons_append, h5, h3, bads]
      | _ => exact hf.elim
    · obtain ⟨desc, D', el, rfl, h2, h3, h4, h5⟩ := next_of hD
      dsimp only at h3 h4 h5
      cases τ with
      | optional τ =>
        obtain ⟨v, h6, h7⟩ := parse_tuple ih.2.1 hw hf ha hd h2 hms
        refine ⟨.present v, Or.inr ⟨v, rfl, h6⟩, fun rest => ?_⟩
        simp only [parsers, parseOptional, List.cons_append, h5, h3, Option.bind_eq_bind, Option.bind_some, h7 rest, bads]
        simp
      | bool =>
        simp only [Fits] at hf
        rw [deriv_no_params p _ _ _ _ (Or.inl hw) hf hd] at h2
        simp only [List.map_nil, List.map_eq_nil_iff] at h2
        subst h2
        refine ⟨.bool true, Or.inr ⟨deriv_path _ _ _ _ _ hd, rfl⟩, fun rest => ?_⟩
        simp [parsers, parseBool, List.cons_append, h5, h3, h4, hf, bads]
      | vector τ =>
        obtain ⟨v, h6, h7⟩ := ih.2.1 hw b ms d _ D' hf.2.2 ha hd h2 hms
        obtain ⟨w, rfl, h8⟩ := parse_single rfl h7
        refine ⟨w, Or.inr h6, fun rest => ?_⟩
        obtain ⟨e, d', rfl, he⟩ := deriv_repFirst p _ _ _ _ hw hf.2.1 hd
        obtain ⟨desc', D'', el', rfl, g2, g3, g4, g5⟩ := next_of h2
        rw [he] at g3
        have := h8 rest
        simp only [parsers, parseVector, List.cons_append, g5, g3, Option.bind_eq_bind, Option.bind_some] at this
        simp only [reduceCtorEq, if_false, if_true] at this
        simp only [parsers, parseVector, List.cons_append, h5, h3, Option.bind_eq_bind, Option.bind_some, List.cons_append, g5, g3]
        simpa using this
      | size =>
        obtain ⟨v, h6, h7⟩ := ih.2.1 hw b ms d _ D' hf.2.2 ha hd h2 hms
        obtain ⟨w, rfl, h8⟩ := parse_single rfl h7
        refine ⟨w, Or.inr h6, fun rest => ?_⟩
        obtain ⟨e, d', rfl, he⟩ := deriv_repFirst p _ _ _ _ hw hf.2.1 hd
        obtain ⟨desc', D'', el', rfl, g2, g3, g4, g5⟩ := next_of h2
        rw [he] at g3
        have := h8 rest
        simp only [parsers, parseSize, List.cons_append, g5, g3, Option.bind_eq_bind, Option.bind_some] at this
        simp only [ne_eq, reduceCtorEq, not_false_eq_true, not_true_eq_false, if_false, if_true] at this
        simp only [parsers, parseSize, List.cons_append, h5, h3, Option.bind_eq_bind, Option.bind_some, List.cons_append, g5, g3]
        simpa using this
      | _ => exact hf.elim
  | rep p ih =>
    refine ⟨?_, fun h => h.elim, fun h => h.elim⟩
    intro hw hp b ms ds τ D hf ha hd hD hms
    obtain ⟨_, l, hl, hall, rfl, rfl⟩ := hd
    obtain ⟨desc, D', el, rfl, h2, h3, h4, h5⟩ := next_of hD
    dsimp only at h3 h4 h5
    cases τ with
    | vector τ =>
      obtain ⟨l', h6, h7, h8⟩ := parse_repeat ih.2.1 hw hf ha l D' hall h2
        (fun x hx m hm => hms m (List.mem_flatten.2 ⟨x.1, List.mem_map.2 ⟨x, hx, rfl⟩, hm⟩))
      refine ⟨.vec (listOf (l'.map Prod.snd)), ⟨l', ?_, h7, by rw [h6], rfl⟩, fun rest => ?_⟩
      · rintro rfl
        simp only [List.map_nil] at h6
        exact hl (List.map_eq_nil_iff.1 h6.symm)
      · simp only [parsers, parseVector, List.cons_append, h5, h3, Option.bind_eq_bind, Option.bind_some, h8, bads]
        simp
    | size =>
      simp only [Fits] at hf
      have : (l.map Prod.snd).flatten = [] := by
        rw [List.flatten_eq_nil_iff]
        intro x hx
        obtain ⟨y, hy, rfl⟩ := List.mem_map.1 hx
        exact deriv_no_params p _ _ _ _ (Or.inl hw) hf (hall y hy)
      rw [this] at h2
      simp only [List.map_nil, List.map_eq_nil_iff] at h2
      subst h2
      refine ⟨.size l.length, ⟨l.map Prod.fst, by simpa using hl, ?_, rfl, by simp⟩, fun rest => ?_⟩
      · intro x hx
        obtain ⟨y, hy, rfl⟩ := List.mem_map.1 hx
        exact deriv_path _ _ _ _ _ (hall y hy)
      · simp [parsers, parseSize, List.cons_append, h5, h3, h4, hf, bads]
    | _ => exact hf.elim
  | alt p ih =>
    refine ⟨?_, fun h => h.elim, fun h => h.elim⟩
    intro hw hp b ms ds τ D hf ha hd hD hms
    obtain ⟨_, k, d, hd, rfl⟩ := hd
    obtain ⟨desc, D', el, rfl, h2, h3, h4, h5⟩ := next_of hD
    dsimp only at h3 h4 h5
    cases τ with
    | variant ts =>
      obtain ⟨v, P, h6, h7, h8⟩ := ih.2.2 hw.1 b ms k d ts D' hf ha hd h2 hms
      refine ⟨.variant k v, h6, fun rest => ?_⟩
      simp only [parsers, parseVariant, List.cons_append, h5, h3, Option.bind_eq_bind, Option.bind_some, h7, h8 rest, bads]
      simp
    | size => exact absurd trivial ha
    | _ => exact hf.elim
  | nil =>
    refine ⟨fun h => h.elim, ?_, fun h => h.elim⟩
    intro _ b ms ds ts D hf ha hd hD _
    obtain ⟨_, rfl, rfl⟩ := hd
    simp only [List.map_nil, List.map_eq_nil_iff] at hD
    subst hD
    cases ts <;> first | exact hf.elim | skip
    exact ⟨.nil, ⟨rfl, rfl⟩, fun rest => by simp [parsersOf, parseAll, bads]⟩
  | none =>
    refine ⟨fun h => h.elim, fun h => h.elim, ?_⟩
    intro _ b ms k ds ts D _ _ hd
    exact hd.elim
  | cons e s ihe ihs =>
    refine ⟨fun h => h.elim, ?_, fun h => h.elim⟩
    intro hw b ms ds ts D hf ha hd hD hms
    obtain ⟨_, u, w, d, d', h1, h2, rfl, rfl⟩ := hd
    simp only [List.map_append] at hD
    obtain ⟨D1, D2, rfl, h3, h4⟩ := List.map_eq_append_iff.1 hD
    rcases hf with ⟨hp, hf⟩ | ⟨hp, τ, ts', rfl, hf1, hf2⟩
    · obtain ⟨v, h5, h6⟩ := ihs.2.1 hw.2 _ w d' ts D2 hf (fun h => ha (Or.inl ⟨hp, h⟩)) h2 h4 (fun m hm => hms m (by simp [hm]))
      rw [deriv_no_params e _ _ _ _ (Or.inr hw.1) hp h1] at h3
      simp only [List.map_nil, List.map_eq_nil_iff] at h3
      subst h3
      exact ⟨v, Or.inl ⟨hp, u, w, rfl, deriv_path _ _ _ _ _ h1, h5⟩, h6⟩
    · obtain ⟨v, h5, h6⟩ := ihe.1 hw.1 hp b u d τ D1 hf1 (fun h => ha (Or.inr ⟨hp, τ, ts', rfl, Or.inl h⟩)) h1 h3
        (fun m hm => hms m (by simp [hm]))
      obtain ⟨vs, h7, h8⟩ := ihs.2.1 hw.2 _ w d' ts' D2 hf2 (fun h => ha (Or.inr ⟨hp, τ, ts', rfl, Or.inr h⟩)) h2 h4
        (fun m hm => hms m (by simp [hm]))
      refine ⟨.cons v vs, Or.inr ⟨hp, u, w, τ, ts', v, vs, rfl, rfl, rfl, h5, h7⟩, fun rest => ?_⟩
      simp only [parsersOf, List.map_cons, parseAll, List.append_assoc, h6 (D2 ++ rest), Option.bind_eq_bind, Option.bind_some, h8 rest, bads]
  | or s r ihs ihr =>
    refine ⟨fun h => h.elim, fun h => h.elim, ?_⟩
    intro hw b ms k ds ts D hf ha hd hD hms
    cases ts <;> first | exact hf.elim | skip
    rename_i τ ts
    rcases hd with ⟨rfl, hd⟩ | ⟨j, rfl, hd⟩
    · obtain ⟨v, h1, h2⟩ := parse_tuple ihs.2.1 hw.1 hf.1 (fun h => ha (Or.inl h)) hd hD hms
      exact ⟨v, _, Or.inl ⟨v, rfl, h1⟩, by simp [parsersOf], h2⟩
    · obtain ⟨v, P, h1, h2, h3⟩ := ihr.2.2 hw.2 _ ms j ds ts D hf.2 (fun h => ha (Or.inr h)) hd hD hms
      exact ⟨v, P, Or.inr ⟨j, v, rfl, h1⟩, by simpa [parsersOf] using h2, h3⟩

/-! Conversely, every assignment of values arises from a structure of the match. -/

section
variable (t good numArgs)

def UElem (p : Pat) : Prop := Wf p .elem → params p ≠ 0 → ∀ b ms τ v, Fits p τ → ¬ AltSize p τ → Value good p b ms τ v →
  (∀ m ∈ ms, m.argIndex < numArgs) → ∃ ds, Deriv p b ms 0 ds ∧
    ∀ D, D.map (view t) = ds.map some → Parses (parsers t good numArgs τ).1 D v

def USeq (p : Pat) : Prop := Wf p .seq → ∀ b ms ts v, Fits p ts → ¬ AltSize p ts → Value good p b ms ts v →
  (∀ m ∈ ms, m.argIndex < numArgs) → ∃ ds, Deriv p b ms 0 ds ∧
    ∀ D, D.map (view t) = ds.map some → Parses (parseAll ((parsersOf t good numArgs ts).map Prod.fst)) D v

def UBranches (p : Pat) : Prop := Wf p .branches → ∀ b ms ts v, Fits p ts → ¬ AltSize p ts → Value good p b ms ts v →
  (∀ m ∈ ms, m.argIndex < numArgs) → ∃ k w ds P, v = .variant k w ∧ Deriv p b ms k ds ∧
    ((parsersOf t good numArgs ts).map Prod.snd)[k]? = some P ∧ ∀ D, D.map (view t) = ds.map some → Parses P D w

end

theorem tuple_u {p : Pat} (h : USeq t good numArgs p) (hw : Wf p .seq) {b : Nat} {ms : List MatchPos} {τ : Ty} {v : Val}
    (hf : FitsTuple (Fits p) τ) (ha : ¬ FitsTuple (AltSize p) τ) (hv : TupleValue (Value good p b ms) τ v)
    (hms : ∀ m ∈ ms, m.argIndex < numArgs) : ∃ ds, Deriv p b ms 0 ds ∧
      ∀ D, D.map (view t) = ds.map some → Parses (parsers t good numArgs τ).2 D v := by
  have aux : FitsTuple (Fits p) τ = Fits p (.cons τ .nil) → FitsTuple (AltSize p) τ = AltSize p (.cons τ .nil) →
      (∀ w, TupleValue (Value good p b ms) τ w = Value good p b ms (.cons τ .nil) (.cons w .nil)) →
      (parsers t good numArgs τ).2 = (parsers t good numArgs τ).1 →
      ∃ ds, Deriv p b ms 0 ds ∧ ∀ D, D.map (view t) = ds.map some → Parses (parsers t good numArgs τ).2 D v := by
    intro e1 e2 e3 e4
    rw [e1] at hf
    rw [e2] at ha
    rw [e3] at hv
    obtain ⟨ds, h1, h2⟩ := h hw b ms _ _ hf ha hv hms
    refine ⟨ds, h1, fun D hD => ?_⟩
    obtain ⟨w, hw', h3⟩ := parse_single rfl (h2 D hD)
    cases hw'
    rw [e4]
    exact h3
  cases τ with
  | tuple ts =>
    obtain ⟨vs, rfl, hv⟩ := hv
    obtain ⟨ds, h1, h2⟩ := h hw b ms ts vs hf ha hv hms
    refine ⟨ds, h1, fun D hD rest => ?_⟩
    simp only [parsers, parseTuple, h2 D hD rest, Option.bind_eq_bind, Option.bind_some, bads]
  | _ => exact aux rfl rfl (fun _ => rfl) (by simp only [parsers])

theorem repeat_u {p : Pat} (h : USeq t good numArgs p) (hw : Wf p .seq) {b : Nat} {τ : Ty} (hf : FitsTuple (Fits p) τ)
    (ha : ¬ FitsTuple (AltSize p) τ) : ∀ l : List (List MatchPos × Val), (∀ x ∈ l, TupleValue (Value good p b x.1) τ x.2) →
    (∀ x ∈ l, ∀ m ∈ x.1, m.argIndex < numArgs) → ∃ l' : List (List MatchPos × List Entry), l'.map Prod.fst = l.map Prod.fst ∧
      (∀ x ∈ l', Deriv p b x.1 0 x.2) ∧ ∀ D, D.map (view t) = ((l'.map Prod.snd).flatten).map some →
        ∀ rest, parseRepeat (parsers t good numArgs τ).2 l'.length (D ++ rest) =
          some (listOf (l.map Prod.snd), rest, bads (listOf (l.map Prod.snd)))
  | [], _, _ => by
    refine ⟨[], rfl, by simp, fun D hD rest => ?_⟩
    simp only [List.map_nil, List.flatten_nil, List.map_eq_nil_iff] at hD
    subst hD
    simp [parseRepeat, listOf, bads]
  | x :: l, hv, hms => by
    obtain ⟨ds, h1, h2⟩ := tuple_u h hw hf ha (hv x (by simp)) (hms x (by simp))
    obtain ⟨l', h3, h4, h5⟩ := repeat_u h hw hf ha l (fun y hy => hv y (by simp [hy])) (fun y hy => hms y (by simp [hy]))
    refine ⟨(x.1, ds) :: l', by simp [h3], ?_, ?_⟩
    · intro y hy
      rcases List.mem_cons.1 hy with rfl | hy
      · exact h1
      · exact h4 y hy
    · intro D hD rest
      simp only [List.map_cons, List.flatten_cons, List.map_append] at hD
      obtain ⟨D1, D2, rfl, g1, g2⟩ := List.map_eq_append_iff.1 hD
      simp only [List.length_cons, parseRepeat, List.append_assoc, h2 D1 g1 (D2 ++ rest), Option.bind_eq_bind, Option.bind_some, h5 D2 g2,
        List.map_cons, listOf, bads]

theorem path_deriv_seq {p : Pat} (hw : Wf p .seq) {b : Nat} {ms : List MatchPos} (h : Path p b (ms.map MatchPos.pos)) :
    ∃ ds, Deriv p b ms 0 ds := by
  obtain ⟨k, ds, h1, h2⟩ := path_deriv p b ms .seq hw h
  rw [h2 (by simp)] at h1
  exact ⟨ds, h1⟩

theorem path_deriv_elem {p : Pat} (hw : Wf p .elem) {b : Nat} {ms : List MatchPos} (h : Path p b (ms.map MatchPos.pos)) :
    ∃ ds, Deriv p b ms 0 ds := by
  obtain ⟨k, ds, h1, h2⟩ := path_deriv p b ms .elem hw h
  rw [h2 (by simp)] at h1
  exact ⟨ds, h1⟩

theorem repeat_paths {p : Pat} (hw : Wf p .seq) {b : Nat} : ∀ l : List (List MatchPos), (∀ x ∈ l, Path p b (x.map MatchPos.pos)) →
    ∃ l' : List (List MatchPos × List Entry), l'.map Prod.fst = l ∧ ∀ x ∈ l', Deriv p b x.1 0 x.2
  | [], _ => ⟨[], rfl, by simp⟩
  | x :: l, h => by
    obtain ⟨ds, h1⟩ := path_deriv_seq hw (h x (by simp))
    obtain ⟨l', h2, h3⟩ := repeat_paths hw l (fun y hy => h y (by simp [hy]))
    refine ⟨(x, ds) :: l', by simp [h2], ?_⟩
    intro y hy
    rcases List.mem_cons.1 hy with rfl | hy
    · exact h1
    · exact h3 y hy

theorem ugoals : ∀ p : Pat, UElem t good numArgs p ∧ USeq t good numArgs p ∧ UBranches t good numArgs p := by
  intro p
  induction p with
  | sym s =>
    refine ⟨?_, fun h => h.elim, fun h => h.elim⟩
    intro hw hp b ms τ v hf ha hv hms
    obtain ⟨a, rfl, rfl⟩ := hv
    obtain ⟨ds, hd⟩ := path_deriv_elem (p := .sym s) (b := b) (ms := [⟨b, a⟩]) hw (by simp [Path])
    refine ⟨ds, hd, fun D hD => ?_⟩
    obtain ⟨v, ⟨a', h1, rfl⟩, h2⟩ := (vgoals (.sym s)).1 hw hp b _ ds τ D hf ha hd hD hms
    cases h1
    exact h2
  | opt p ih =>
    refine ⟨?_, fun h => h.elim, fun h => h.elim⟩
    intro hw hp b ms τ v hf ha hv hms
    cases τ with
    | optional τ =>
      rcases hv with ⟨rfl, rfl⟩ | ⟨w, rfl, hv⟩
      · refine ⟨_, ⟨rfl, Or.inl ⟨rfl, rfl⟩⟩, fun D hD => ?_⟩
        obtain ⟨desc, D', el, rfl, h2, h3, h4, h5⟩ := next_of hD
        dsimp only at h3 h4 h5
        simp only [List.map_nil, List.map_eq_nil_iff] at h2
        subst h2
        intro rest
        simp [parsers, parseOptional, h5, h3, bads]
      · obtain ⟨d, hd, hP⟩ := tuple_u ih.2.1 hw hf ha hv hms
        refine ⟨_, ⟨rfl, Or.inr ⟨d, hd, rfl⟩⟩, fun D hD => ?_⟩
        obtain ⟨desc, D', el, rfl, h2, h3, h4, h5⟩ := next_of hD
        dsimp only at h3 h4 h5
        intro rest
        simp only [parsers, parseOptional, List.cons_append, h5, h3, Option.bind_eq_bind, Option.bind_some, hP D' h2 rest, bads]
        simp
    | bool =>
      simp only [Fits] at hf
      rcases hv with ⟨rfl, rfl⟩ | ⟨hv, rfl⟩
      · refine ⟨_, ⟨rfl, Or.inl ⟨rfl, rfl⟩⟩, fun D hD => ?_⟩
        obtain ⟨desc, D', el, rfl, h2, h3, h4, h5⟩ := next_of hD
        dsimp only at h3 h4 h5
        simp only [List.map_nil, List.map_eq_nil_iff] at h2
        subst h2
        intro rest
        simp [parsers, parseBool, h5, h3, h4, hf, bads]
      · obtain ⟨d, hd⟩ := path_deriv_seq hw hv
        have := deriv_no_params p _ _ _ _ (Or.inl hw) hf hd
        subst this
        refine ⟨_, ⟨rfl, Or.inr ⟨_, hd, rfl⟩⟩, fun D hD => ?_⟩
        obtain ⟨desc, D', el, rfl, h2, h3, h4, h5⟩ := next_of hD
        dsimp only at h3 h4 h5
        simp only [List.map_nil, List.map_eq_nil_iff] at h2
        subst h2
        intro rest
        simp [parsers, parseBool, h5, h3, h4, hf, bads]
    | vector τ =>
      rcases hv with ⟨rfl, rfl⟩ | hv
      · refine ⟨_, ⟨rfl, Or.inl ⟨rfl, rfl⟩⟩, fun D hD => ?_⟩
        obtain ⟨desc, D', el, rfl, h2, h3, h4, h5⟩ := next_of hD
        dsimp only at h3 h4 h5
        simp only [List.map_nil, List.map_eq_nil_iff] at h2
        subst h2
        intro rest
        simp [parsers, parseVector, h5, h3, bads]
      · obtain ⟨d, hd, hP⟩ := ih.2.1 hw b ms _ _ hf.2.2 ha hv hms
        refine ⟨_, ⟨rfl, Or.inr ⟨d, hd, rfl⟩⟩, fun D hD => ?_⟩
        obtain ⟨desc, D', el, rfl, h2, h3, h4, h5⟩ := next_of hD
        dsimp only at h3 h4 h5
        intro rest
        obtain ⟨w, hw', h8⟩ := parse_single rfl (hP D' h2)
        cases hw'
        obtain ⟨e, d', rfl, he⟩ := deriv_repFirst p _ _ _ _ hw hf.2.1 hd
        obtain ⟨desc', D'', el', rfl, g2, g3, g4, g5⟩ := next_of h2
        rw [he] at g3
        have := h8 rest
        simp only [parsers, parseVector, List.cons_append, g5, g3, Option.bind_eq_bind, Option.bind_some] at this
        simp only [reduceCtorEq, if_false, if_true] at this
        simp only [parsers, parseVector, List.cons_append, h5, h3, Option.bind_eq_bind, Option.bind_some, g5, g3]
        simpa using this
    | size =>
      rcases hv with ⟨rfl, rfl⟩ | hv
      · refine ⟨_, ⟨rfl, Or.inl ⟨rfl, rfl⟩⟩, fun D hD => ?_⟩
        obtain ⟨desc, D', el, rfl, h2, h3, h4, h5⟩ := next_of hD
        dsimp only at h3 h4 h5
        simp only [List.map_nil, List.map_eq_nil_iff] at h2
        subst h2
        intro rest
        simp [parsers, parseSize, h5, h3, bads]
      · obtain ⟨d, hd, hP⟩ := ih.2.1 hw b ms _ _ hf.2.2 ha hv hms
        refine ⟨_, ⟨rfl, Or.inr ⟨d, hd, rfl⟩⟩, fun D hD => ?_⟩
        obtain ⟨desc, D', el, rfl, h2, h3, h4, h5⟩ := next_of hD
        dsimp only at h3 h4 h5
        intro rest
        obtain ⟨w, hw', h8⟩ := parse_single rfl (hP D' h2)
        cases hw'
        obtain ⟨e, d', rfl, he⟩ := deriv_repFirst p _ _ _ _ hw hf.2.1 hd
        obtain ⟨desc', D'', el', rfl, g2, g3, g4, g5⟩ := next_of h2
        rw [he] at g3
        have := h8 rest
        simp only [parsers, parseSize, List.cons_append, g5, g3, Option.bind_eq_bind, Option.bind_some] at this
        simp only [ne_eq, reduceCtorEq, not_false_eq_true, not_true_eq_false, if_false, if_true] at this
        simp only [parsers, parseSize, List.cons_append, h5, h3, Option.bind_eq_bind, Option.bind_some, g5, g3]
        simpa using this
    | _ => exact hf.elim
  | rep p ih =>
    refine ⟨?_, fun h => h.elim, fun h => h.elim⟩
    intro hw hp b ms τ v hf ha hv hms
    cases τ with
    | vector τ =>
      obtain ⟨l, hl, hall, rfl, rfl⟩ := hv
      obtain ⟨l', h6, h7, h8⟩ := repeat_u ih.2.1 hw hf ha l hall
        (fun x hx m hm => hms m (List.mem_flatten.2 ⟨x.1, List.mem_map.2 ⟨x, hx, rfl⟩, hm⟩))
      refine ⟨_, ⟨rfl, l', ?_, h7, by rw [h6], rfl⟩, fun D hD => ?_⟩
      · rintro rfl
        simp only [List.map_nil] at h6
        exact hl (List.map_eq_nil_iff.1 h6.symm)
      · obtain ⟨desc, D', el, rfl, h2, h3, h4, h5⟩ := next_of hD
        dsimp only at h3 h4 h5
        intro rest
        simp only [parsers, parseVector, List.cons_append, h5, h3, Option.bind_eq_bind, Option.bind_some, h8 D' h2, bads]
        simp
    | size =>
      simp only [Fits] at hf
      obtain ⟨l, hl, hall, rfl, rfl⟩ := hv
      obtain ⟨l', rfl, h7⟩ := repeat_paths hw l hall
      have : (l'.map Prod.snd).flatten = [] := by
        rw [List.flatten_eq_nil_iff]
        intro x hx
        obtain ⟨y, hy, rfl⟩ := List.mem_map.1 hx
        exact deriv_no_params p _ _ _ _ (Or.inl hw) hf (h7 y hy)
      refine ⟨_, ⟨rfl, l', by simpa using hl, h7, rfl, rfl⟩, fun D hD => ?_⟩
      obtain ⟨desc, D', el, rfl, h2, h3, h4, h5⟩ := next_of hD
      dsimp only at h3 h4 h5
      rw [this] at h2
      simp only [List.map_nil, List.map_eq_nil_iff] at h2
      subst h2
      intro rest
      simp [parsers, parseSize, h5, h3, h4, hf, bads]
    | _ => exact hf.elim
  | alt p ih =>
    refine ⟨?_, fun h => h.elim, fun h => h.elim⟩
    intro hw hp b ms τ v hf ha hv hms
    cases τ with
    | variant ts =>
      obtain ⟨k, w, ds, P, rfl, h1, h7, h8⟩ := ih.2.2 hw.1 b ms ts v hf ha hv hms
      refine ⟨_, ⟨rfl, k, ds, h1, rfl⟩, fun D hD => ?_⟩
      obtain ⟨desc, D', el, rfl, h2, h3, h4, h5⟩ := next_of hD
      dsimp only at h3 h4 h5
      intro rest
      simp only [parsers, parseVariant, List.cons_append, h5, h3, Option.bind_eq_bind, Option.bind_some, h7, h8 D' h2 rest, bads]
      simp
    | size => exact absurd trivial ha
    | _ => exact hf.elim
  | nil =>
    refine ⟨fun h => h.elim, ?_, fun h => h.elim⟩
    intro _ b ms ts v hf ha hv _
    cases ts <;> first | exact hf.elim | skip
    obtain ⟨rfl, rfl⟩ := hv
    refine ⟨[], ⟨rfl, rfl, rfl⟩, fun D hD => ?_⟩
    simp only [List.map_nil, List.map_eq_nil_iff] at hD
    subst hD
    exact fun rest => by simp [parsersOf, parseAll, bads]
  | none =>
    refine ⟨fun h => h.elim, fun h => h.elim, ?_⟩
    intro _ b ms ts v _ _ hv
    cases ts <;> exact hv.elim
  | cons e s ihe ihs =>
    refine ⟨fun h => h.elim, ?_, fun h => h.elim⟩
    intro hw b ms ts v hf ha hv hms
    rcases hf with ⟨hp, hf⟩ | ⟨hp, τ, ts', rfl, hf1, hf2⟩
    · rcases hv with ⟨_, u, w, rfl, hu, hv⟩ | ⟨hp', _⟩
      · obtain ⟨d, hd⟩ := path_deriv_elem hw.1 hu
        have := deriv_no_params e _ _ _ _ (Or.inr hw.1) hp hd
        subst this
        obtain ⟨ds, h5, h6⟩ := ihs.2.1 hw.2 _ w ts v hf (fun h => ha (Or.inl ⟨hp, h⟩)) hv (fun m hm => hms m (by simp [hm]))
        exact ⟨ds, ⟨rfl, u, w, [], ds, hd, h5, rfl, rfl⟩, h6⟩
      · exact absurd hp hp'
    · rcases hv with ⟨hp', _⟩ | ⟨_, u, w, τ', ts'', x, xs, rfl, hts, rfl, hx, hxs⟩
      · exact absurd hp' hp
      · cases hts
        obtain ⟨d, h5, h6⟩ := ihe.1 hw.1 hp b u τ x hf1 (fun h => ha (Or.inr ⟨hp, τ, ts', rfl, Or.inl h⟩)) hx
          (fun m hm => hms m (by simp [hm]))
        obtain ⟨d', h7, h8⟩ := ihs.2.1 hw.2 _ w ts' xs hf2 (fun h => ha (Or.inr ⟨hp, τ, ts', rfl, Or.inr h⟩)) hxs
          (fun m hm => hms m (by simp [hm]))
        refine ⟨d ++ d', ⟨rfl, u, w, d, d', h5, h7, rfl, rfl⟩, fun D hD rest => ?_⟩
        simp only [List.map_append] at hD
        obtain ⟨D1, D2, rfl, h3, h4⟩ := List.map_eq_append_iff.1 hD
        simp only [parsersOf, List.map_cons, parseAll, List.append_assoc, h6 D1 h3 (D2 ++ rest), Option.bind_eq_bind, Option.bind_some,
          h8 D2 h4 rest, bads]
  | or s r ihs ihr =>
    refine ⟨fun h => h.elim, fun h => h.elim, ?_⟩
    intro hw b ms ts v hf ha hv hms
    cases ts <;> first | exact hf.elim | skip
    rename_i τ ts
    rcases hv with ⟨w, rfl, hv⟩ | ⟨k, w, rfl, hv⟩
    · obtain ⟨ds, h1, h2⟩ := tuple_u ihs.2.1 hw.1 hf.1 (fun h => ha (Or.inl h)) hv hms
      exact ⟨0, w, ds, _, rfl, Or.inl ⟨rfl, h1⟩, by simp [parsersOf], h2⟩
    · obtain ⟨k', w', ds, P, h0, h1, h2, h3⟩ := ihr.2.2 hw.2 _ ms ts _ hf.2 (fun h => ha (Or.inr h)) hv hms
      cases h0
      exact ⟨k + 1, w, ds, P, rfl, Or.inr ⟨k, rfl, h1⟩, by simpa [parsersOf] using h2, h3⟩

end

theorem parseArgs_main {t : Tables} {good : Ty → Nat → Bool} {numArgs : Nat} {p : Pat} (hw : Wf p .seq) {ts : Ty} (hf : Fits p ts)
    (ha : ¬ AltSize p ts) {ms : List MatchPos} {ds : List Entry} {D : List Desc} (hd : Deriv p 0 ms 0 ds) (hD : D.map (view t) = ds.map some)
    (hms : ∀ m ∈ ms, m.argIndex < numArgs) : ∃ vs, Value good p 0 ms ts vs ∧ parseArgs t good numArgs ts D = some (vs, bads vs) := by
  obtain ⟨vs, h1, h2⟩ := (vgoals p).2.1 hw 0 ms ds ts D hf ha hd hD hms
  refine ⟨vs, h1, ?_⟩
  have := h2 []
  simp only [List.append_nil] at this
  simp [parseArgs, this]

theorem parseArgs_unique {t : Tables} {good : Ty → Nat → Bool} {numArgs : Nat} {p : Pat} (hw : Wf p .seq) {ts : Ty} (hf : Fits p ts)
    (ha : ¬ AltSize p ts) {ms : List MatchPos} {vs : Val} (hv : Value good p 0 ms ts vs) (hms : ∀ m ∈ ms, m.argIndex < numArgs) :
    ∃ ds, Deriv p 0 ms 0 ds ∧ ∀ D, D.map (view t) = ds.map some → parseArgs t good numArgs ts D = some (vs, bads vs) := by
  obtain ⟨ds, h1, h2⟩ := (ugoals p).2.1 hw 0 ms ts vs hf ha hv hms
  refine ⟨ds, h1, fun D hD => ?_⟩
  have := h2 D hD []
  simp only [List.append_nil] at this
  simp [parseArgs, this]

end Verif.CliPattern
