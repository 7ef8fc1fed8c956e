import Verif.CliPattern.Glushkov
import Verif.CliPattern.Descs
import Verif.CliPattern.DescSpec
import Mathlib.Tactic.Tauto
import Mathlib.Tactic.Convert
/-!
The generation of descriptors follows the structure of the match.
-/
namespace Verif.CliPattern

theorem deriv_path : ∀ (p : Pat) (b : Nat) (ms : List MatchPos) (k : Nat) (ds : List Entry), Deriv p b ms k ds →
    Path p b (ms.map MatchPos.pos) := by
  intro p
  induction p with
  | sym s => rintro b ms k ds ⟨_, a, rfl, _⟩; rfl
  | opt p ih =>
    rintro b ms k ds ⟨_, ⟨rfl, _⟩ | ⟨d, h, _⟩⟩
    · exact Or.inl rfl
    · exact Or.inr (ih _ _ _ _ h)
  | rep p ih =>
    rintro b ms k ds ⟨_, l, hl, h, rfl, _⟩
    refine ⟨l.map (fun x => x.1.map MatchPos.pos), by simpa using hl, ?_, ?_⟩
    · intro x hx
      obtain ⟨y, hy, rfl⟩ := List.mem_map.1 hx
      exact ih _ _ _ _ (h y hy)
    · rw [List.map_flatten, List.map_map]; rfl
  | alt p ih => rintro b ms k ds ⟨_, i, d, h, _⟩; exact ih _ _ _ _ h
  | nil => rintro b ms k ds ⟨_, rfl, _⟩; rfl
  | none => rintro b ms k ds h; exact h.elim
  | cons e s ihe ihs =>
    rintro b ms k ds ⟨_, u, v, d, d', h1, h2, rfl, _⟩
    exact ⟨_, _, ihe _ _ _ _ h1, ihs _ _ _ _ h2, by simp⟩
  | or s r ihs ihr =>
    rintro b ms k ds (⟨_, h⟩ | ⟨j, _, h⟩)
    · exact Or.inl (ihs _ _ _ _ h)
    · exact Or.inr (ihr _ _ _ _ h)

theorem deriv_zero {p : Pat} {b : Nat} {ms : List MatchPos} {k : Nat} {ds : List Entry} (h : Deriv p b ms k ds) (hw : Wf p .seq) : k = 0 := by
  cases p <;> first | exact h.1 | exact hw.elim | exact h.elim

/-- Every association of arguments with the symbols of a match can be described. -/
theorem path_deriv : ∀ (p : Pat) (b : Nat) (ms : List MatchPos) (kind : Kind), Wf p kind → Path p b (ms.map MatchPos.pos) →
    ∃ k ds, Deriv p b ms k ds ∧ (kind ≠ .branches → k = 0) := by
  intro p
  induction p with
  | sym s =>
    intro b ms _ _ h
    simp only [Path] at h
    match ms, h with
    | [m], h =>
      simp only [List.map_cons, List.map_nil, List.cons.injEq, and_true] at h
      exact ⟨0, _, ⟨rfl, m.argIndex, by rw [← h], rfl⟩, fun _ => rfl⟩
    | _ :: _ :: _, h => simp at h
  | opt p ih =>
    intro b ms kind hw h
    cases kind with
    | elem =>
      by_cases hms : ms = []
      · exact ⟨0, _, ⟨rfl, Or.inl ⟨hms, rfl⟩⟩, fun _ => rfl⟩
      · rcases h with h | h
        · simp at h; exact absurd h hms
        · obtain ⟨k, ds, hd, hk⟩ := ih b ms .seq hw h
          have hk := hk (by simp)
          subst hk
          exact ⟨0, _, ⟨rfl, Or.inr ⟨ds, hd, rfl⟩⟩, fun _ => rfl⟩
    | seq => exact hw.elim
    | branches => exact hw.elim
  | rep p ih =>
    intro b ms kind hw h
    cases kind with
    | elem =>
      obtain ⟨pss, hne, hall, hms⟩ := h
      have : ∀ (pss : List (List Nat)) (ms : List MatchPos), (∀ x ∈ pss, Path p b x) → ms.map MatchPos.pos = pss.flatten →
          ∃ l : List (List MatchPos × List Entry), l.length = pss.length ∧ (∀ x ∈ l, Deriv p b x.1 0 x.2) ∧ ms = (l.map Prod.fst).flatten := by
        intro pss
        induction pss with
        | nil => intro ms _ hms; exact ⟨[], rfl, by simp, by simpa using hms⟩
        | cons x pss ih2 =>
          intro ms hall hms
          rw [List.flatten_cons] at hms
          obtain ⟨u, v, rfl, h1, h2⟩ := List.map_eq_append_iff.1 hms
          obtain ⟨l, h3, h4, h5⟩ := ih2 v (fun y hy => hall y (by simp [hy])) h2
          obtain ⟨k, ds, hd, hk⟩ := ih b u .seq hw (by rw [h1]; exact hall x (by simp))
          have hk := hk (by simp)
          subst hk
          refine ⟨(u, ds) :: l, by simp [h3], ?_, by simp [h5]⟩
          intro y hy
          rcases List.mem_cons.1 hy with rfl | hy
          · exact hd
          · exact h4 y hy
      obtain ⟨l, h1, h2, h3⟩ := this pss ms hall hms
      refine ⟨0, _, ⟨rfl, l, ?_, h2, h3, rfl⟩, fun _ => rfl⟩
      intro hl
      rw [hl] at h1
      exact hne (List.length_eq_zero_iff.1 h1.symm)
    | seq => exact hw.elim
    | branches => exact hw.elim
  | alt p ih =>
    intro b ms kind hw h
    cases kind with
    | elem =>
      obtain ⟨k, ds, hd, _⟩ := ih b ms .branches hw.1 h
      exact ⟨0, _, ⟨rfl, k, ds, hd, rfl⟩, fun _ => rfl⟩
    | seq => exact hw.elim
    | branches => exact hw.elim
  | nil => intro b ms _ _ h; exact ⟨0, [], ⟨rfl, by simpa [Path] using h, rfl⟩, fun _ => rfl⟩
  | none => intro b ms _ _ h; exact h.elim
  | cons e s ihe ihs =>
    intro b ms kind hw h
    cases kind with
    | seq =>
      obtain ⟨u, v, h1, h2, h3⟩ := h
      obtain ⟨u, v, rfl, rfl, rfl⟩ := List.map_eq_append_iff.1 h3
      obtain ⟨k, ds, hd, hk⟩ := ihe b u .elem hw.1 h1
      obtain ⟨k', ds', hd', hk'⟩ := ihs _ v .seq hw.2 h2
      have hk := hk (by simp)
      have hk' := hk' (by simp)
      subst hk hk'
      exact ⟨0, _, ⟨rfl, u, v, ds, ds', hd, hd', rfl, rfl⟩, fun _ => rfl⟩
    | elem => exact hw.elim
    | branches => exact hw.elim
  | or s r ihs ihr =>
    intro b ms kind hw h
    cases kind with
    | branches =>
      rcases h with h | h
      · obtain ⟨k, ds, hd, hk⟩ := ihs b ms .seq hw.1 h
        have hk := hk (by simp)
        subst hk
        exact ⟨0, ds, Or.inl ⟨rfl, hd⟩, by simp⟩
      · obtain ⟨k, ds, hd, hk⟩ := ihr _ ms .branches hw.2 h
        exact ⟨k + 1, ds, Or.inr ⟨k, rfl, hd⟩, by simp⟩
    | elem => exact hw.elim
    | seq => exact hw.elim

theorem deriv_nul {p : Pat} {b : Nat} {k : Nat} {ds : List Entry} (h : Deriv p b [] k ds) : nul p = true :=
  (path_local p b []).1 (deriv_path p b [] k ds h)

theorem deriv_first {p : Pat} {b : Nat} {m : MatchPos} {ms : List MatchPos} {k : Nat} {ds : List Entry} (h : Deriv p b (m :: ms) k ds) :
    First p b m.pos := ((path_local p b _).1 (deriv_path p b (m :: ms) k ds h)).1

/-- What is required of the position that comes next after a match of `p`, whose first symbol is at position `b`, when the beginning
position is taken to be `b0`. -/
def Ahead (p : Pat) (b0 b q : Nat) : Prop :=
  ¬ (b0 ≤ q ∧ q < b + size p) ∨ (nul p = false ∧ repeating p = false ∧ ((b0 ≤ q ∧ q < b) ∨ First p b q))

/-- How a descriptor is seen. -/
def view (t : Tables) (d : Desc) : Option Entry := (t.elems[d.elemIndex]?).map (fun el => ⟨el.type, el.endPos, el.collapsible, d.value⟩)

inductive DSteps (t : Tables) (positions : List MatchPos) : Nat → DescState → DescState → Prop where
  | refl (st) : DSteps t positions 0 st st
  | head {n a b c} (hs : descStep t positions a = some (.inl b)) (h : DSteps t positions n b c) : DSteps t positions (n + 1) a c

theorem DSteps.trans {t positions n m a b c} (h : DSteps t positions n a b) (h' : DSteps t positions m b c) : DSteps t positions (n + m) a c := by
  induction h with
  | refl => simpa using h'
  | head hs _ ih => rw [Nat.add_right_comm]; exact .head hs (ih h')

theorem descLoop_steps {t positions n a b} (h : DSteps t positions n a b) (fuel : Nat) :
    descLoop t positions (n + fuel) a = descLoop t positions fuel b := by
  induction h with
  | refl => simp
  | head hs _ ih =>
    rw [Nat.add_right_comm]
    simp only [descLoop, hs, Option.bind_eq_bind, Option.bind_some]
    exact ih

/-- What is to be shown about an element. -/
def DElem (t : Tables) (p : Pat) : Prop := Wf p .elem → Clear p → ∀ sq i b b0 di stack pre ms q post D ds, i < sq.numElems →
  Enc t p (sq.elemsOffset + i) b → b0 ≤ b → Deriv p b ms 0 ds → Ahead p b0 b q.pos → ∃ n D' di',
    DSteps t (pre ++ ms ++ q :: post) n ⟨⟨sq, i, b0, di⟩, stack, pre.length, D⟩
      ⟨⟨sq, i + 1, b + size p, di'⟩, stack, pre.length + ms.length, D ++ D'⟩ ∧ D'.map (view t) = ds.map some

/-- What is to be shown about a sequence. -/
def DSeq (t : Tables) (p : Pat) : Prop := Wf p .seq → Clear p → ∀ sq i b b0 di stack pre ms q post D ds, i + len p = sq.numElems →
  Enc t p (sq.elemsOffset + i) b → b0 ≤ b → Deriv p b ms 0 ds → Ahead p b0 b q.pos → ∃ n D' b1 di',
    DSteps t (pre ++ ms ++ q :: post) n ⟨⟨sq, i, b0, di⟩, stack, pre.length, D⟩
      ⟨⟨sq, sq.numElems, b1, di'⟩, stack, pre.length + ms.length, D ++ D'⟩ ∧ D'.map (view t) = ds.map some

/-- What is to be shown about a list of branches. -/
def DBranches (t : Tables) (p : Pat) : Prop := Wf p .branches → Clear p → ∀ i b ms k ds, Enc t p i b → Deriv p b ms k ds →
  ∃ s bs sq, k < len p ∧ t.seqs[i + k]? = some sq ∧ sq.numElems = len s ∧ Enc t s sq.elemsOffset bs ∧ DSeq t s ∧ Wf s .seq ∧ Clear s ∧
    Deriv s bs ms 0 ds ∧ b ≤ bs ∧ (∀ b0 q, b0 ≤ b → Ahead p b0 b q → Ahead s b0 bs q) ∧ (ms = [] → nullIndex p = k) ∧
    (∀ m ms', ms = m :: ms' → ∀ off j, off + j = i → findBranch t m.pos off (len p) j = some (j + k))

theorem dstep_one {t : Tables} {positions : List MatchPos} {a b : DescState} (hs : descStep t positions a = some (.inl b)) :
    DSteps t positions 1 a b := .head hs (.refl b)

theorem get_mid {pre post : List MatchPos} {m : MatchPos} : (pre ++ m :: post)[pre.length]? = some m := by simp

theorem modify_at {D E : List Desc} {d : Desc} {f : Desc → Desc} : (D ++ d :: E).modify D.length f = D ++ f d :: E := by
  induction D with
  | nil => simp
  | cons x D ih => simp [ih]

/-- The repetitions of a repetition construct. -/
theorem rep_loop {t : Tables} {p : Pat} (ih : DSeq t p) (hw : Wf p .seq) (hc : Clear p) (hnul : nul p = false) (hrep : repeating p = false)
    {sq sub : Seq} {i b b0 : Nat} {stack : List DFrame} {el : Elem} (hel : t.elems[sq.elemsOffset + i]? = some el) (htype : el.type = .rep)
    (hend : el.endPos = b + size p) (hsub : t.seqs[el.index]? = some sub) (hlen : sub.numElems = len p) (henc : Enc t p sub.elemsOffset b)
    (hb : b0 ≤ b) {q : MatchPos} {post : List MatchPos} (hq : ¬ (b0 ≤ q.pos ∧ q.pos < b + size p)) (D : List Desc) (ei : Nat) :
    ∀ (l : List (List MatchPos × List Entry)) (x : List MatchPos × List Entry) (pre : List MatchPos) (c : Nat) (E : List Desc) (di : Nat),
    (∀ y ∈ x :: l, Deriv p b y.1 0 y.2) → ∃ n E',
    DSteps t (pre ++ x.1 ++ (l.map Prod.fst).flatten ++ q :: post) n
      ⟨⟨sub, 0, b0, di⟩, ⟨sq, i, b0, D.length⟩ :: stack, pre.length, D ++ ⟨ei, c⟩ :: E⟩
      ⟨⟨sq, i + 1, b + size p, D.length⟩, stack, pre.length + x.1.length + (l.map Prod.fst).flatten.length, D ++ ⟨ei, c + l.length⟩ :: (E ++ E')⟩ ∧
    E'.map (view t) = (x.2 ++ (l.map Prod.snd).flatten).map some
  | [], x, pre, c, E, di, h => by
    obtain ⟨n, E', b1, di', h1, h2⟩ := ih hw hc sub 0 b b0 di (⟨sq, i, b0, D.length⟩ :: stack) pre x.1 q post (D ++ ⟨ei, c⟩ :: E) x.2
      (by simpa using hlen.symm) (by simpa using henc) hb (h x (by simp)) (Or.inl hq)
    refine ⟨n + 1, E', ?_, by simpa using h2⟩
    simp only [List.map_nil, List.flatten_nil, List.append_nil, List.length_nil, Nat.add_zero]
    refine h1.trans (dstep_one ?_)
    have hget : (pre ++ x.1 ++ q :: post)[pre.length + x.1.length]? = some q := by
      rw [← List.length_append]; exact get_mid
    simp only [descStep, hget, Option.bind_eq_bind, Option.bind_some, Nat.lt_irrefl, if_false, hel, htype, posInRange, hend]
    have : (decide (b0 ≤ q.pos) && decide (q.pos < b + size p)) = false := by
      rw [Bool.eq_false_iff]
      simpa using hq
    simp only [this, Bool.false_eq_true, if_false, nextElem, hend]
    simp
  | y :: l, x, pre, c, E, di, h => by
    have hy := h y (by simp)
    obtain ⟨m, ms, hm⟩ : ∃ m ms, y.1 = m :: ms := by
      cases hy1 : y.1 with
      | nil => rw [hy1] at hy; rw [deriv_nul hy] at hnul; simp at hnul
      | cons m ms => exact ⟨m, ms, rfl⟩
    have hfirst : First p b m.pos := by rw [hm] at hy; exact deriv_first hy
    have hrange := First_range _ _ _ hfirst
    obtain ⟨n, E', b1, di', h1, h2⟩ := ih hw hc sub 0 b b0 di (⟨sq, i, b0, D.length⟩ :: stack) pre x.1 m
      (ms ++ (l.map Prod.fst).flatten ++ q :: post) (D ++ ⟨ei, c⟩ :: E) x.2
      (by simpa using hlen.symm) (by simpa using henc) hb (h x (by simp)) (Or.inr ⟨hnul, hrep, Or.inr hfirst⟩)
    obtain ⟨n', E'', h3, h4⟩ := rep_loop ih hw hc hnul hrep hel htype hend hsub hlen henc hb (post := post) hq D ei (stack := stack) l y (pre ++ x.1)
      (c + 1) (E ++ E') D.length (fun z hz => h z (by simp only [List.mem_cons] at hz ⊢; tauto))
    have hpos : pre ++ x.1 ++ ((y :: l).map Prod.fst).flatten ++ q :: post = pre ++ x.1 ++ m :: (ms ++ (l.map Prod.fst).flatten ++ q :: post) := by
      simp [hm]
    have hpos' : pre ++ x.1 ++ y.1 ++ (l.map Prod.fst).flatten ++ q :: post = pre ++ x.1 ++ m :: (ms ++ (l.map Prod.fst).flatten ++ q :: post) := by
      simp [hm]
    rw [hpos'] at h3
    refine ⟨n + (1 + n'), E' ++ E'', ?_, ?_⟩
    · rw [hpos]
      refine h1.trans (DSteps.trans (b := ⟨⟨sub, 0, b0, D.length⟩, ⟨sq, i, b0, D.length⟩ :: stack, pre.length + x.1.length,
        D ++ ⟨ei, c + 1⟩ :: (E ++ E')⟩) (dstep_one ?_) ?_)
      · have hget : (pre ++ x.1 ++ m :: (ms ++ (l.map Prod.fst).flatten ++ q :: post))[pre.length + x.1.length]? = some m := by
          rw [← List.length_append]; exact get_mid
        simp only [descStep, hget, Option.bind_eq_bind, Option.bind_some, Nat.lt_irrefl, if_false, hel, htype, posInRange, hend]
        have : (decide (b0 ≤ m.pos) && decide (m.pos < b + size p)) = true := by simp; omega
        simp only [this, if_true, enterSubseq, htype, hsub]
        simp [modify_at]
      · convert h3 using 2
        · simp
        · simp; omega
        · simp; omega
    · simp [h2, h4]

theorem dgoals (t : Tables) : ∀ p : Pat, DElem t p ∧ DSeq t p ∧ DBranches t p := by
  intro p
  induction p with
  | sym s =>
    refine ⟨?_, fun h => h.elim, fun h => h.elim⟩
    intro _ _ sq i b b0 di stack pre ms q post D ds hi henc hb hd _
    obtain ⟨el, h1, h2, h3, h4, h5⟩ := henc
    obtain ⟨_, a, rfl, rfl⟩ := hd
    refine ⟨1, if s.type = .valueSlot then [⟨sq.elemsOffset + i, a⟩] else [], di, dstep_one ?_, ?_⟩
    · have hget : (pre ++ [(⟨b, a⟩ : MatchPos)] ++ q :: post)[pre.length]? = some ⟨b, a⟩ := by simp
      simp only [descStep, hget, Option.bind_eq_bind, Option.bind_some, if_pos hi, h1, descElem, h2, posInRange, h4, h5.1, nextElem]
      have : (decide (b0 ≤ b) && decide (b < b + 1)) = true ∧ pre.length + 1 < (pre ++ [(⟨b, a⟩ : MatchPos)] ++ q :: post).length := by
        simp; omega
      rw [if_pos this]
      by_cases hv : s.type = .valueSlot <;> simp [hv, size]
    · by_cases hv : s.type = .valueSlot <;> simp [hv, view, h1, h2, h4, h5]
  | opt p ih =>
    refine ⟨?_, fun h => h.elim, fun h => h.elim⟩
    intro hw hc sq i b b0 di stack pre ms q post D ds hi henc hb hd ha
    obtain ⟨el, h1, h2, h3, h4, sub, h5, h6, h7, h8, h9⟩ := henc
    have hq : ¬ (b0 ≤ q.pos ∧ q.pos < b + size p) := by
      rcases ha with h | ⟨h, _⟩
      · exact h
      · simp [nul] at h
    obtain ⟨_, ⟨rfl, rfl⟩ | ⟨d, hd, rfl⟩⟩ := hd
    · refine ⟨1, [⟨sq.elemsOffset + i, 0⟩], di, dstep_one ?_, ?_⟩
      · have hget : (pre ++ [] ++ q :: post)[pre.length]? = some q := by simp
        simp only [descStep, hget, Option.bind_eq_bind, Option.bind_some, if_pos hi, h1, descElem, h2, posInRange, h3, nextElem]
        have : (decide (b0 ≤ q.pos) && decide (q.pos < b + size p)) = false := by
          rw [Bool.eq_false_iff]
          simpa using hq
        rw [this]
        simp [size]
      · simp [view, h1, h2, h3, h4]
    · obtain ⟨m, ms', rfl⟩ : ∃ m ms', ms = m :: ms' := by
        cases ms with
        | nil => have := deriv_nul hd; rw [hc.1] at this; simp at this
        | cons m ms' => exact ⟨m, ms', rfl⟩
      have hr := First_range _ _ _ (deriv_first hd)
      obtain ⟨n, D', b1, di', h10, h11⟩ := ih.2.1 hw hc.2 sub 0 b b0 di (⟨sq, i, b0, di⟩ :: stack) pre (m :: ms') q post
        (D ++ [⟨sq.elemsOffset + i, 1⟩]) d (by simpa using h6.symm) (by simpa using h9) hb hd (Or.inl hq)
      refine ⟨1 + (n + 1), ⟨sq.elemsOffset + i, 1⟩ :: D', di, ?_, ?_⟩
      · refine DSteps.trans (dstep_one ?_) (h10.trans (dstep_one ?_))
        · have hget : (pre ++ (m :: ms') ++ q :: post)[pre.length]? = some m := by simp
          simp only [descStep, hget, Option.bind_eq_bind, Option.bind_some, if_pos hi, h1, descElem, h2, posInRange, h3]
          have : (decide (b0 ≤ m.pos) && decide (m.pos < b + size p)) = true := by simp; omega
          rw [this]
          simp only [Bool.not_true, Bool.false_eq_true, if_false, enterSubseq, h2, true_or, if_true, h5, Option.bind_eq_bind, Option.bind_some]
        · have hget : (pre ++ (m :: ms') ++ q :: post)[pre.length + (m :: ms').length]? = some q := by
            rw [← List.length_append]; exact get_mid
          simp only [descStep, hget, Option.bind_eq_bind, Option.bind_some, Nat.lt_irrefl, if_false, h1, h2, nextElem, h3]
          simp [size]
      · simp [view, h1, h2, h3, h4, h11]
  | rep p ih =>
    refine ⟨?_, fun h => h.elim, fun h => h.elim⟩
    intro hw hc sq i b b0 di stack pre ms q post D ds hi henc hb hd ha
    obtain ⟨el, h1, h2, h3, h4, sub, h5, h6, h7, h8, h9⟩ := henc
    have hq : ¬ (b0 ≤ q.pos ∧ q.pos < b + size p) := by
      rcases ha with h | ⟨_, h, _⟩
      · exact h
      · simp [repeating] at h
    obtain ⟨_, l, hl, hall, rfl, rfl⟩ := hd
    cases l with
    | nil => exact absurd rfl hl
    | cons x l =>
      have hx := hall x (by simp)
      obtain ⟨m, ms, hm⟩ : ∃ m ms, x.1 = m :: ms := by
        cases hx1 : x.1 with
        | nil => rw [hx1] at hx; have := deriv_nul hx; rw [hc.1] at this; simp at this
        | cons m ms => exact ⟨m, ms, rfl⟩
      have hr : b ≤ m.pos ∧ m.pos < b + size p := by rw [hm] at hx; exact First_range _ _ _ (deriv_first hx)
      obtain ⟨n, E', h10, h11⟩ := rep_loop ih.2.1 hw hc.2.2 hc.1 hc.2.1 h1 h2 h3 h5 h6 h9 hb (post := post) hq D (sq.elemsOffset + i) (stack := stack)
        l x pre 1 [] D.length hall
      have hpos : pre ++ ((x :: l).map Prod.fst).flatten ++ q :: post = pre ++ x.1 ++ (l.map Prod.fst).flatten ++ q :: post := by simp
      refine ⟨1 + n, ⟨sq.elemsOffset + i, 1 + l.length⟩ :: E', D.length, ?_, ?_⟩
      · rw [hpos]
        refine DSteps.trans (b := ⟨⟨sub, 0, b0, D.length⟩, ⟨sq, i, b0, D.length⟩ :: stack, pre.length, D ++ [⟨sq.elemsOffset + i, 1⟩]⟩)
          (dstep_one ?_) ?_
        · have hget : (pre ++ x.1 ++ (l.map Prod.fst).flatten ++ q :: post)[pre.length]? = some m := by simp [hm]
          simp only [descStep, hget, Option.bind_eq_bind, Option.bind_some, if_pos hi, h1, descElem, h2, posInRange, h3]
          have : (decide (b0 ≤ m.pos) && decide (m.pos < b + size p)) = true := by simp; omega
          rw [this]
          simp only [if_true, enterSubseq, h2, or_true, h5, Option.bind_eq_bind, Option.bind_some]
        · simpa [size, Nat.add_assoc] using h10
      · simp only [List.map_cons, h11, view, h1, h2, h3, h4, Option.map_some, List.length_cons, Nat.add_comm 1, List.flatten_cons]
  | alt p ih =>
    refine ⟨?_, fun h => h.elim, fun h => h.elim⟩
    intro hw hc sq i b b0 di stack pre ms q post D ds hi henc hb hd ha
    obtain ⟨el, h1, h2, h3, h4, a, h5, h6, h7, h8⟩ := henc
    obtain ⟨_, k, d, hd, rfl⟩ := hd
    obtain ⟨s, bs, sub, g1, g2, g3, g4, g5, g6, g7, g8, g9, g10, g11, g12⟩ := ih.2.2 hw.1 hc a.seqsOffset b ms k d h8 hd
    obtain ⟨n, D', b1, di', h10, h11⟩ := g5 g6 g7 sub 0 bs b0 di (⟨sq, i, b0, di⟩ :: stack) pre ms q post
      (D ++ [⟨sq.elemsOffset + i, k⟩]) d (by simpa using g3.symm) (by simpa using g4) (by omega) g8 (g10 b0 q.pos hb ha)
    refine ⟨1 + (n + 1), ⟨sq.elemsOffset + i, k⟩ :: D', di, ?_, ?_⟩
    · refine DSteps.trans (dstep_one ?_) (h10.trans (dstep_one ?_))
      · cases ms with
        | nil =>
          have hnul : nul p = true := deriv_nul hd
          have hq : ¬ (b0 ≤ q.pos ∧ q.pos < b + size p) := by
            rcases ha with h | ⟨h, _⟩
            · exact h
            · simp only [nul] at h; rw [hnul] at h; simp at h
          have hget : (pre ++ [] ++ q :: post)[pre.length]? = some q := by simp
          simp only [descStep, hget, Option.bind_eq_bind, Option.bind_some, if_pos hi, h1, descElem, h2, posInRange, h3, h5]
          have : (decide (b0 ≤ q.pos) && decide (q.pos < b + size p)) = false := by
            rw [Bool.eq_false_iff]
            simpa using hq
          rw [this]
          simp only [Bool.not_false, if_true, h7, g11 rfl, h6, g1, Option.bind_some, g2]
        | cons m ms' =>
          have hr := First_range _ _ _ (deriv_first hd)
          have hget : (pre ++ (m :: ms') ++ q :: post)[pre.length]? = some m := by simp
          simp only [descStep, hget, Option.bind_eq_bind, Option.bind_some, if_pos hi, h1, descElem, h2, posInRange, h3, h5]
          have : (decide (b0 ≤ m.pos) && decide (m.pos < b + size p)) = true := by simp; omega
          rw [this]
          simp only [Bool.not_true, Bool.false_eq_true, if_false, h6, g12 m ms' rfl a.seqsOffset 0 (by omega), Nat.zero_add, Option.bind_some, g1, g2, if_true]
      · have hget : (pre ++ ms ++ q :: post)[pre.length + ms.length]? = some q := by
          rw [← List.length_append]; exact get_mid
        simp only [descStep, hget, Option.bind_eq_bind, Option.bind_some, Nat.lt_irrefl, if_false, h1, h2, nextElem, h3]
        simp [size]
    · simp [view, h1, h2, h3, h4, h11]
  | nil =>
    refine ⟨fun h => h.elim, ?_, fun h => h.elim⟩
    intro _ _ sq i b b0 di stack pre ms q post D ds hi _ _ hd _
    obtain ⟨_, rfl, rfl⟩ := hd
    simp only [len, Nat.add_zero] at hi
    subst hi
    exact ⟨0, [], b0, di, by simpa using DSteps.refl _, rfl⟩
  | none =>
    refine ⟨fun h => h.elim, fun h => h.elim, ?_⟩
    intro _ _ i b ms k ds _ hd
    exact hd.elim
  | cons e s ihe ihs =>
    refine ⟨fun h => h.elim, ?_, fun h => h.elim⟩
    intro hw hc sq i b b0 di stack pre ms q post D ds hi henc hb hd ha
    simp only [len] at hi
    obtain ⟨_, u, v, d, d', hd1, hd2, rfl, rfl⟩ := hd
    have hs : Ahead s (b + size e) (b + size e) q.pos := by
      rcases ha with h | ⟨h1, h2, h3⟩
      · left; simp only [size] at h; omega
      · simp only [nul, repeating] at h1 h2
        rcases h3 with h3 | h3 | ⟨h3, h4⟩
        · left; omega
        · left; have := First_range _ _ _ h3; omega
        · right
          rw [h3] at h1 h2
          simp only [Bool.true_and, Bool.or_eq_false_iff] at h1 h2
          exact ⟨h1, h2.2, Or.inr h4⟩
    have he : ∀ m ms', v ++ q :: post = m :: ms' → Ahead e b0 b m.pos := by
      intro m ms' hm
      cases v with
      | cons y v =>
        simp only [List.cons_append, List.cons.injEq] at hm
        have := First_range _ _ _ (deriv_first hd2)
        rw [hm.1] at this
        left; omega
      | nil =>
        simp only [List.nil_append, List.cons.injEq] at hm
        rw [← hm.1]
        have hns := deriv_nul hd2
        rcases ha with h | ⟨h1, h2, h3⟩
        · left; simp only [size] at h; omega
        · simp only [nul, repeating, hns, Bool.and_true, Bool.or_eq_false_iff] at h1 h2
          rcases h3 with h3 | h3 | ⟨h3, h4⟩
          · right; exact ⟨h1, h2.1, Or.inl h3⟩
          · right; exact ⟨h1, h2.1, Or.inr h3⟩
          · left; have := First_range _ _ _ h4; omega
    obtain ⟨m, ms', hm⟩ : ∃ m ms', v ++ q :: post = m :: ms' := by
      cases v with
      | nil => exact ⟨_, _, rfl⟩
      | cons y v => exact ⟨_, _, rfl⟩
    obtain ⟨n, D', di', h1, h2⟩ := ihe.1 hw.1 hc.1 sq i b b0 di stack pre u m ms' D d (by omega) henc.1 hb hd1 (he m ms' hm)
    obtain ⟨n', D'', b1, di'', h3, h4⟩ := ihs.2.1 hw.2 hc.2 sq (i + 1) (b + size e) (b + size e) di' stack (pre ++ u) v q post (D ++ D') d'
      (by omega) henc.2 (Nat.le_refl _) hd2 hs
    have hpos : pre ++ (u ++ v) ++ q :: post = pre ++ u ++ m :: ms' := by rw [← hm]; simp
    have hpos' : pre ++ u ++ v ++ q :: post = pre ++ u ++ m :: ms' := by rw [← hm]; simp
    rw [hpos', List.length_append] at h3
    refine ⟨n + n', D' ++ D'', b1, di'', ?_, by simp [h2, h4]⟩
    rw [hpos]
    have := h1.trans h3
    simpa [Nat.add_assoc] using this
  | or s r ihs ihr =>
    refine ⟨fun h => h.elim, fun h => h.elim, ?_⟩
    intro hw hc i b ms k ds henc hd
    obtain ⟨⟨sq, h1, h2, h3, h4, h5⟩, henc'⟩ := henc
    rcases hd with ⟨rfl, hd⟩ | ⟨k, rfl, hd⟩
    · refine ⟨s, b, sq, by simp [len], h1, h2, h5, ihs.2.1, hw.1, hc.2.1, hd, Nat.le_refl _, ?_, ?_, ?_⟩
      · intro b0 q hb ha
        rcases ha with h | ⟨ha1, ha2, ha3⟩
        · left; simp only [size] at h; omega
        · simp only [nul, repeating, Bool.or_eq_false_iff] at ha1 ha2
          rcases ha3 with h | h | h
          · right; exact ⟨ha1.1, ha2.1, Or.inl h⟩
          · right; exact ⟨ha1.1, ha2.1, Or.inr h⟩
          · left; have := First_range _ _ _ h; omega
      · rintro rfl
        simp [nullIndex, deriv_nul hd]
      · rintro m ms' rfl off j hj
        have := First_range _ _ _ (deriv_first hd)
        rw [← hj] at h1
        simp only [len, findBranch, h1, Option.bind_eq_bind, Option.bind_some, h3]
        rw [if_neg (by omega)]
        rfl
    · obtain ⟨s', bs, sub, g1, g2, g3, g4, g5, g6, g7, g8, g9, g10, g11, g12⟩ := ihr.2.2 hw.2 hc.2.2 (i + 1) (b + size s) ms k ds henc' hd
      refine ⟨s', bs, sub, by simp only [len]; omega, by rw [← g2]; congr 1; omega, g3, g4, g5, g6, g7, g8, by omega, ?_, ?_, ?_⟩
      · intro b0 q hb ha
        refine g10 b0 q (by omega) ?_
        rcases ha with h | ⟨ha1, ha2, ha3⟩
        · left; simp only [size] at h; omega
        · simp only [nul, repeating, Bool.or_eq_false_iff] at ha1 ha2
          right
          refine ⟨ha1.2, ha2.2, ?_⟩
          rcases ha3 with h | h | h
          · left; omega
          · left; have := First_range _ _ _ h; omega
          · exact Or.inr h
      · rintro rfl
        have hn := deriv_nul hd
        have : nul s = false := by
          cases hs : nul s with
          | false => rfl
          | true => exact absurd ⟨hs, hn⟩ hc.1
        simp [nullIndex, this, g11 rfl]
      · rintro m ms' rfl off j hj
        have := First_range _ _ _ (deriv_first hd)
        rw [← hj] at h1
        simp only [len, findBranch, h1, Option.bind_eq_bind, Option.bind_some, h3]
        rw [if_pos (by omega), g12 m ms' rfl off (j + 1) (by omega)]
        congr 1
        omega

/-- The generated descriptors describe the match. -/
theorem generateDescs_main {t : Tables} {p : Pat} {i : Nat} (henc : EncRoot t p i) (hc : Clear p) {ms : List MatchPos} {ds : List Entry}
    (hd : Deriv p 0 ms 0 ds) (n : Nat) : ∃ D, D.map (view t) = ds.map some ∧ ∃ N, ∀ fuel, N ≤ fuel →
      generateDescs fuel t i (ms ++ [⟨size p, n⟩]) = some D := by
  obtain ⟨hw, sq, h1, h2, h3, h4, h5⟩ := henc
  obtain ⟨k, D, b1, di, h6, h7⟩ := (dgoals t p).2.1 hw hc sq 0 0 0 0 [] [] ms ⟨size p, n⟩ [] [] ds (by simpa using h2.symm) (by simpa using h5)
    (Nat.le_refl _) hd (Or.inl (by simp))
  refine ⟨D, h7, k + 1, ?_⟩
  intro fuel hf
  obtain ⟨r, rfl⟩ := Nat.exists_eq_add_of_le hf
  simp only [generateDescs, h1, Option.bind_eq_bind, Option.bind_some]
  rw [if_pos (by simp)]
  simp only [List.nil_append, List.length_nil] at h6
  rw [Nat.add_assoc, descLoop_steps h6, Nat.add_comm 1 r, descLoop]
  have hget : (ms ++ [⟨size p, n⟩])[0 + ms.length]? = some (⟨size p, n⟩ : MatchPos) := by simp
  simp only [descStep, hget, Option.bind_eq_bind, Option.bind_some, Nat.lt_irrefl, if_false]
  simp

end Verif.CliPattern
