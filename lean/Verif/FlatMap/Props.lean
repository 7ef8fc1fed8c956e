import Verif.FlatMap.Lemmas

/-
Property theorems about flat maps and multimaps (claims C32, C33).
-/
namespace Verif.FlatMap
open Spec (SWO eqv)

variable {K V : Type}

/-! ### C32: flat map -/

/-- Operations on a flat map. -/
inductive Op (K V : Type) where
  | insert (k : K) (v : V)
  | assign (k : K) (v : V)
  | erase (k : K)
  | clear
  | at (k : K)
  | contains (k : K)
  | size

/-- What an operation reports. -/
inductive Out (V : Type) where
  | unit
  | bool (b : Bool)
  | num (n : Nat)
  | val (v : Option V)
deriving DecidableEq, Repr

/-- One operation on the model. -/
def step (lt : K → K → Bool) (dflt : V) (es : List (K × V)) : Op K V → Option (List (K × V) × Out V)
  | .insert k v => do
    let (es', i, b) ← insert lt es k v
    -- the returned iterator designates an entry with an equivalent key
    let x ← es'[i]?
    if eqv lt x.1 k then some (es', .bool b) else none
  | .assign k v => do some (← assign lt dflt es k v, .unit)
  | .erase k => do
    let (es', n) ← erase lt es k
    some (es', .num n)
  | .clear => some ([], .unit)
  | .at k => do some (es, .val (← at? lt es k))
  | .contains k => do some (es, .bool (← contains lt es k))
  | .size => some (es, .num es.length)

/-- One operation on the specification. -/
def specStep (lt : K → K → Bool) (m : List (K × V)) : Op K V → List (K × V) × Out V
  | .insert k v => (Spec.insert lt m k v, .bool (!(Spec.lookup lt m k).isSome))
  | .assign k v => (Spec.assign lt m k v, .unit)
  | .erase k => (Spec.erase lt m k, .num (if (Spec.lookup lt m k).isSome then 1 else 0))
  | .clear => ([], .unit)
  | .at k => (m, .val (Spec.lookup lt m k))
  | .contains k => (m, .bool (Spec.lookup lt m k).isSome)
  | .size => (m, .num m.length)

def run (lt : K → K → Bool) (dflt : V) : List (Op K V) → List (K × V) → Option (List (K × V) × List (Out V))
  | [], es => some (es, [])
  | op :: ops, es => do
    let (es, o) ← step lt dflt es op
    let (es, os) ← run lt dflt ops es
    some (es, o :: os)

def specRun (lt : K → K → Bool) : List (Op K V) → List (K × V) → List (K × V) × List (Out V)
  | [], m => (m, [])
  | op :: ops, m =>
    let r := specRun lt ops (specStep lt m op).1
    (r.1, (specStep lt m op).2 :: r.2)

theorem take_append_drop_eq {α : Type} (l : List α) (i : Nat) {x : α} {t : List α} (h : l.drop i = x :: t) :
    l = l.take i ++ x :: t := by rw [← h, List.take_append_drop]

/-- Presence in terms of a split of the list. -/
theorem lookup_absent {lt : K → K → Bool} (es : List (K × V)) (key : K) (i : Nat)
    (h1 : ∀ x ∈ es.take i, lt x.1 key = true) (h2 : ∀ x ∈ es.drop i, lt key x.1 = true) :
    Spec.entries lt es key = [] := by
  unfold Spec.entries
  rw [List.filter_eq_nil_iff]
  intro x hx
  rw [← List.take_append_drop i es, List.mem_append] at hx
  rcases hx with hx | hx
  · simp [eqv, h1 x hx]
  · simp [eqv, h2 x hx]

theorem lookup_present {lt : K → K → Bool} (es : List (K × V)) (key : K) (i : Nat) (x : K × V) (t : List (K × V))
    (hd : es.drop i = x :: t)
    (h1 : ∀ y ∈ es.take i, lt y.1 key = true) (hx : eqv lt x.1 key = true) (h2 : ∀ y ∈ t, lt key y.1 = true) :
    Spec.entries lt es key = [x] := by
  unfold Spec.entries
  rw [take_append_drop_eq es i hd, List.filter_append, List.filter_cons_of_pos (by simpa using hx)]
  have e1 : (es.take i).filter (fun x => eqv lt x.1 key) = [] := by
    rw [List.filter_eq_nil_iff]; intro y hy; simp [eqv, h1 y hy]
  have e2 : t.filter (fun x => eqv lt x.1 key) = [] := by
    rw [List.filter_eq_nil_iff]; intro y hy; simp [eqv, h2 y hy]
  rw [e1, e2]; simp

/-- The refinement relation: strictly sorted, and a rearrangement of the specification. -/
def Rel (lt : K → K → Bool) (es m : List (K × V)) : Prop := StrictSorted lt es ∧ es.Perm m

theorem strictSorted_insert {lt : K → K → Bool} {es : List (K × V)} (hs : StrictSorted lt es) (key : K) (v : V) (i : Nat)
    (w : SWO lt) (h1 : ∀ x ∈ es.take i, lt x.1 key = true) (h2 : ∀ x ∈ es.drop i, lt key x.1 = true) :
    StrictSorted lt (es.take i ++ [(key, v)] ++ es.drop i) := by
  unfold StrictSorted at hs ⊢
  rw [List.append_assoc, List.pairwise_append]
  refine ⟨hs.sublist (List.take_sublist _ _), ?_, ?_⟩
  · rw [List.singleton_append, List.pairwise_cons]
    exact ⟨h2, hs.sublist (List.drop_sublist _ _)⟩
  · intro a ha b hb
    rw [List.singleton_append, List.mem_cons] at hb
    rcases hb with rfl | hb
    · exact h1 a ha
    · exact w.trans _ _ _ (h1 a ha) (h2 b hb)

theorem perm_insert {es m : List (K × V)} (hp : es.Perm m) (x : K × V) (i : Nat) :
    (es.take i ++ [x] ++ es.drop i).Perm (m ++ [x]) := by
  have h1 : (es.take i ++ [x] ++ es.drop i).Perm (x :: es) := by
    have := List.perm_middle (a := x) (l₁ := es.take i) (l₂ := es.drop i)
    rw [List.take_append_drop] at this
    simpa using this
  exact h1.trans ((List.Perm.cons x hp).trans (List.perm_append_singleton x m).symm)

theorem set_map {lt : K → K → Bool} {es : List (K × V)} {key : K} {i : Nat} {x : K × V} {t : List (K × V)} (v : V)
    (hd : es.drop i = x :: t)
    (h1 : ∀ y ∈ es.take i, lt y.1 key = true) (hx : eqv lt x.1 key = true) (h2 : ∀ y ∈ t, lt key y.1 = true)
    (hi : i < es.length) :
    es.set i (x.1, v) = es.map (fun y => if eqv lt y.1 key then (y.1, v) else y) := by
  have he := take_append_drop_eq es i hd
  have hlen : (es.take i).length = i := by simp; omega
  have e1 : (es.take i).map (fun y => if eqv lt y.1 key then (y.1, v) else y) = es.take i := by
    conv => rhs; rw [← List.map_id (es.take i)]
    apply List.map_congr_left
    intro y hy; simp [eqv, h1 y hy]
  have e2 : t.map (fun y => if eqv lt y.1 key then (y.1, v) else y) = t := by
    conv => rhs; rw [← List.map_id t]
    apply List.map_congr_left
    intro y hy; simp [eqv, h2 y hy]
  conv => rhs; rw [he]
  rw [List.map_append, List.map_cons, e1, e2, if_pos hx]
  conv => lhs; rw [he]
  rw [List.set_append, if_neg (by omega), hlen]
  simp

theorem strictSorted_map {lt : K → K → Bool} {es : List (K × V)} (hs : StrictSorted lt es) (f : K × V → K × V)
    (hf : ∀ x, (f x).1 = x.1) : StrictSorted lt (es.map f) := by
  unfold StrictSorted at hs ⊢
  rw [List.pairwise_map]
  exact hs.imp (fun {a b} h => by rw [hf, hf]; exact h)

theorem step_refines {lt : K → K → Bool} (w : SWO lt) (dflt : V) (es m : List (K × V)) (op : Op K V)
    (h : Rel lt es m) :
    ∃ es', step lt dflt es op = some (es', (specStep lt m op).2) ∧ Rel lt es' (specStep lt m op).1 := by
  obtain ⟨hs, hp⟩ := h
  have hdist := hs.distinct
  have hent := fun k => entries_perm w hdist hp k
  have hlook : ∀ k, Spec.lookup lt m k = ((Spec.entries lt es k).head?).map (·.2) := fun k => by
    rw [lookup_entries, hent]
  cases op with
  | insert k v =>
    obtain ⟨i, hi, h1, h2⟩ := doFind_spec w es hs k
    simp only [step, specStep, insert]
    rcases h2 with ⟨e, h2⟩ | ⟨e, x, t, hd, hx, hxk, h2⟩
    · have habs := lookup_absent es k i h1 h2
      have hl : Spec.lookup lt m k = none := by rw [hlook, habs]; rfl
      simp only [e, Option.bind_eq_bind, Option.bind_some, Bool.not_false, if_true, hl, Option.isSome_none,
        Spec.insert, Bool.false_eq_true, if_false]
      have hget : (es.take i ++ [(k, v)] ++ es.drop i)[i]? = some (k, v) := by
        rw [List.append_assoc, List.getElem?_append_right (by simp; omega)]
        have : i - (es.take i).length = 0 := by simp; omega
        rw [this]; rfl
      rw [hget]
      have hkk : eqv lt k k = true := by simp [eqv, w.irrefl]
      simp only [Option.bind_some, hkk, if_true]
      exact ⟨_, rfl, strictSorted_insert hs k v i w h1 h2, perm_insert hp _ i⟩
    · have hpr := lookup_present es k i x t hd h1 hxk h2
      have hl : Spec.lookup lt m k = some x.2 := by rw [hlook, hpr]; rfl
      simp only [e, Option.bind_eq_bind, Option.bind_some, Bool.not_true, Bool.false_eq_true, if_false, hl,
        Option.isSome_some, Spec.insert, if_true, hx, hxk]
      exact ⟨es, rfl, hs, hp⟩
  | assign k v =>
    obtain ⟨i, hi, h1, h2⟩ := doFind_spec w es hs k
    simp only [step, specStep, assign, insert]
    rcases h2 with ⟨e, h2⟩ | ⟨e, x, t, hd, hx, hxk, h2⟩
    · have habs := lookup_absent es k i h1 h2
      have hl : Spec.lookup lt m k = none := by rw [hlook, habs]; rfl
      simp only [e, Option.bind_eq_bind, Option.bind_some, Bool.not_false, if_true, hl, Option.isSome_none,
        Spec.assign, Bool.false_eq_true, if_false]
      have hget : (es.take i ++ [(k, dflt)] ++ es.drop i)[i]? = some (k, dflt) := by
        rw [List.append_assoc, List.getElem?_append_right (by simp; omega)]
        have : i - (es.take i).length = 0 := by simp; omega
        rw [this]; rfl
      rw [hget]
      simp only [Option.bind_some]
      have hset : (es.take i ++ [(k, dflt)] ++ es.drop i).set i (k, v) = es.take i ++ [(k, v)] ++ es.drop i := by
        rw [List.append_assoc, List.set_append, if_neg (by simp; omega)]
        have : i - (es.take i).length = 0 := by simp; omega
        rw [this]; simp
      rw [hset]
      exact ⟨_, rfl, strictSorted_insert hs k v i w h1 h2, perm_insert hp _ i⟩
    · have hpr := lookup_present es k i x t hd h1 hxk h2
      have hl : Spec.lookup lt m k = some x.2 := by rw [hlook, hpr]; rfl
      have hilt : i < es.length := by
        rcases Nat.lt_or_ge i es.length with h | h
        · exact h
        · rw [List.getElem?_eq_none h] at hx; simp at hx
      simp only [e, Option.bind_eq_bind, Option.bind_some, Bool.not_true, Bool.false_eq_true, if_false, hl,
        Option.isSome_some, Spec.assign, if_true, hx]
      rw [set_map v hd h1 hxk h2 hilt]
      refine ⟨_, rfl, strictSorted_map hs _ (fun x => by split <;> rfl), hp.map _⟩
  | erase k =>
    obtain ⟨b, e, h1, h2, h3, h4, h5, h6⟩ := equalRange_spec w es (hs.sorted w) k
    obtain ⟨p1, p2⟩ := parts es k b e h2 h4 h5 h6
    simp only [step, specStep, erase, h1, Option.bind_eq_bind, Option.bind_some, h2, h3, and_self, if_true]
    have hn : e - b = (Spec.entries lt es k).length := by rw [← p1]; simp; omega
    have hl : (if (Spec.lookup lt m k).isSome then 1 else 0) = (Spec.entries lt es k).length := by
      rw [hlook]
      rcases entries_le_one w hdist k with h | ⟨x, h⟩ <;> rw [h] <;> simp
    rw [hn, hl, p2]
    exact ⟨_, rfl, List.Pairwise.sublist List.filter_sublist hs, hp.filter _⟩
  | clear => exact ⟨[], rfl, List.Pairwise.nil, List.Perm.refl _⟩
  | «at» k =>
    obtain ⟨i, hi, h1, h2⟩ := doFind_spec w es hs k
    simp only [step, specStep, at?, find]
    rcases h2 with ⟨e, h2⟩ | ⟨e, x, t, hd, hx, hxk, h2⟩
    · have habs := lookup_absent es k i h1 h2
      have hl : Spec.lookup lt m k = none := by rw [hlook, habs]; rfl
      simp only [e, Option.bind_eq_bind, Option.bind_some, Bool.false_eq_true, if_false, ne_eq, not_true_eq_false, hl]
      exact ⟨es, rfl, hs, hp⟩
    · have hpr := lookup_present es k i x t hd h1 hxk h2
      have hl : Spec.lookup lt m k = some x.2 := by rw [hlook, hpr]; rfl
      have hilt : i ≠ es.length := by
        intro h
        rw [List.getElem?_eq_none (by omega)] at hx; simp at hx
      simp only [e, Option.bind_eq_bind, Option.bind_some, if_true, ne_eq, hilt, not_false_eq_true, hx, hl]
      exact ⟨es, rfl, hs, hp⟩
  | contains k =>
    obtain ⟨i, hi, h1, h2⟩ := doFind_spec w es hs k
    simp only [step, specStep, contains, find]
    rcases h2 with ⟨e, h2⟩ | ⟨e, x, t, hd, hx, hxk, h2⟩
    · have habs := lookup_absent es k i h1 h2
      have hl : Spec.lookup lt m k = none := by rw [hlook, habs]; rfl
      simp only [e, Option.bind_eq_bind, Option.bind_some, Bool.false_eq_true, if_false, ne_eq, not_true_eq_false, hl]
      exact ⟨es, rfl, hs, hp⟩
    · have hpr := lookup_present es k i x t hd h1 hxk h2
      have hl : Spec.lookup lt m k = some x.2 := by rw [hlook, hpr]; rfl
      have hilt : i ≠ es.length := by
        intro h
        rw [List.getElem?_eq_none (by omega)] at hx; simp at hx
      simp only [e, Option.bind_eq_bind, Option.bind_some, if_true, ne_eq, hilt, not_false_eq_true, hl]
      exact ⟨es, rfl, hs, hp⟩
  | size =>
    simp only [step, specStep]
    exact ⟨es, by rw [hp.length_eq], hs, hp⟩

/-- C32. For every history of operations on an initially empty flat map: no undefined behaviour, every
reported result is that of the specification, and the entries are in strictly increasing key order and
are a rearrangement of the entries of the specification. -/
theorem C32_flat_map {lt : K → K → Bool} (w : SWO lt) (dflt : V) (ops : List (Op K V)) :
    ∃ es, run lt dflt ops [] = some (es, (specRun lt ops []).2) ∧
      es.Pairwise (fun a b => lt a.1 b.1 = true) ∧ es.Perm (specRun lt ops []).1 := by
  have key : ∀ es m, Rel lt es m → ∃ es', run lt dflt ops es = some (es', (specRun lt ops m).2) ∧
      Rel lt es' (specRun lt ops m).1 := by
    induction ops with
    | nil => intro es m h; exact ⟨es, rfl, h⟩
    | cons op ops ih =>
      intro es m h
      obtain ⟨es1, e1, h1⟩ := step_refines w dflt es m op h
      obtain ⟨es2, e2, h2⟩ := ih es1 _ h1
      exact ⟨es2, by simp [run, e1, e2, specRun], h2⟩
  exact key [] [] ⟨List.Pairwise.nil, List.Perm.refl _⟩

theorem nat_swo : SWO (fun a b : Nat => decide (a < b)) where
  irrefl a := by simp
  trans a b c := by simp; omega
  incomp a b c := by simp; omega

/-- Order of pairs by the first component only: a strict weak order with distinct equivalent keys. -/
theorem fst_swo : SWO (fun a b : Nat × Nat => decide (a.1 < b.1)) where
  irrefl a := by simp
  trans a b c := by simp; omega
  incomp a b c := by simp; omega

example : run (fun a b : Nat => decide (a < b)) 0
    [.insert 5 50, .insert 3 30, .assign 4 40, .insert 5 51, .assign 3 31, .erase 4, .erase 9, .at 3, .contains 4, .size] [] =
    some ([(3, 31), (5, 50)], [.bool true, .bool true, .unit, .bool false, .unit, .num 1, .num 0, .val (some 31),
      .bool false, .num 2]) := by decide +kernel

/-! ### C33: flat multimap -/

inductive MOp (K V : Type) where
  | insert (k : K) (v : V)
  | erase (k : K)
  | equalRange (k : K)
  | count (k : K)

inductive MOut (K V : Type) where
  | unit
  | num (n : Nat)
  | range (l : List (K × V))
deriving DecidableEq, Repr

/-- One operation on the model. The reported range is the list of entries between the two returned
positions. -/
def mstep (lt : K → K → Bool) (es : List (K × V)) : MOp K V → Option (List (K × V) × MOut K V)
  | .insert k v => do
    let (es', _) ← insertMulti lt es k v
    some (es', .unit)
  | .erase k => do
    let (es', n) ← erase lt es k
    some (es', .num n)
  | .equalRange k => do
    let (b, e) ← equalRange lt es k
    some (es, .range ((es.take e).drop b))
  | .count k => do some (es, .num (← count lt es k))

/-- One operation on the specification. -/
def mspecStep (lt : K → K → Bool) (m : List (K × V)) : MOp K V → List (K × V) × MOut K V
  | .insert k v => (m ++ [(k, v)], .unit)
  | .erase k => (Spec.erase lt m k, .num (Spec.entries lt m k).length)
  | .equalRange k => (m, .range (Spec.entries lt m k))
  | .count k => (m, .num (Spec.entries lt m k).length)

def mrun (lt : K → K → Bool) : List (MOp K V) → List (K × V) → Option (List (K × V) × List (MOut K V))
  | [], es => some (es, [])
  | op :: ops, es => do
    let (es, o) ← mstep lt es op
    let (es, os) ← mrun lt ops es
    some (es, o :: os)

def mspecRun (lt : K → K → Bool) : List (MOp K V) → List (K × V) → List (K × V) × List (MOut K V)
  | [], m => (m, [])
  | op :: ops, m =>
    let r := mspecRun lt ops (mspecStep lt m op).1
    (r.1, (mspecStep lt m op).2 :: r.2)

/-- Sorted, same entries, and for every key the same order of entries. -/
def MRel (lt : K → K → Bool) (es m : List (K × V)) : Prop :=
  Sorted lt es ∧ es.Perm m ∧ ∀ k, Spec.entries lt es k = Spec.entries lt m k

theorem mstep_refines {lt : K → K → Bool} (w : SWO lt) (es m : List (K × V)) (op : MOp K V)
    (h : MRel lt es m) :
    ∃ es', mstep lt es op = some (es', (mspecStep lt m op).2) ∧ MRel lt es' (mspecStep lt m op).1 := by
  obtain ⟨hs, hp, he⟩ := h
  cases op with
  | insert k v =>
    obtain ⟨i, h1, _, h2, h3, h4⟩ := doUpperBound_spec w es hs k 0 (Nat.zero_le _) (by simp)
    simp only [mstep, mspecStep, insertMulti, upperBound, h1, Option.bind_eq_bind, Option.bind_some]
    refine ⟨_, rfl, ?_, perm_insert hp _ i, ?_⟩
    · unfold Sorted at hs ⊢
      rw [List.append_assoc, List.pairwise_append]
      refine ⟨hs.sublist (List.take_sublist _ _), ?_, ?_⟩
      · rw [List.singleton_append, List.pairwise_cons]
        exact ⟨fun a ha => w.asymm (h4 a ha), hs.sublist (List.drop_sublist _ _)⟩
      · intro a ha b hb
        rw [List.singleton_append, List.mem_cons] at hb
        rcases hb with rfl | hb
        · exact h3 a ha
        · exact w.le_trans (h3 a ha) (w.asymm (h4 b hb))
    · intro k'
      have e1 : Spec.entries lt es k' = Spec.entries lt (es.take i) k' ++ Spec.entries lt (es.drop i) k' := by
        unfold Spec.entries
        rw [← List.filter_append, List.take_append_drop]
      have e2 : Spec.entries lt (es.take i ++ [(k, v)] ++ es.drop i) k' =
          Spec.entries lt (es.take i) k' ++ Spec.entries lt [(k, v)] k' ++ Spec.entries lt (es.drop i) k' := by
        unfold Spec.entries
        rw [List.filter_append, List.filter_append]
      have e3 : Spec.entries lt (m ++ [(k, v)]) k' = Spec.entries lt m k' ++ Spec.entries lt [(k, v)] k' := by
        unfold Spec.entries; rw [List.filter_append]
      rw [e2, e3, ← he, e1]
      by_cases hk : eqv lt k k' = true
      · have : Spec.entries lt (es.drop i) k' = [] := by
          unfold Spec.entries
          rw [List.filter_eq_nil_iff]
          intro x hx hc
          have h5 := h4 x hx
          rw [eqv_symm] at hk
          have := eqv_trans w hc hk
          simp [eqv, h5] at this
        rw [this]; simp
      · have : Spec.entries lt [(k, v)] k' = [] := by
          unfold Spec.entries
          rw [List.filter_eq_nil_iff]
          intro x hx
          rw [List.mem_singleton] at hx
          subst hx
          exact hk
        rw [this]; simp
  | erase k =>
    obtain ⟨b, e, h1, h2, h3, h4, h5, h6⟩ := equalRange_spec w es hs k
    obtain ⟨p1, p2⟩ := parts es k b e h2 h4 h5 h6
    simp only [mstep, mspecStep, erase, h1, Option.bind_eq_bind, Option.bind_some, h2, h3, and_self, if_true]
    have hn : e - b = (Spec.entries lt es k).length := by rw [← p1]; simp; omega
    rw [hn, p2, he]
    refine ⟨_, rfl, List.Pairwise.sublist List.filter_sublist hs, hp.filter _, ?_⟩
    intro k'
    have hc : ∀ l : List (K × V), Spec.entries lt (Spec.erase lt l k) k' =
        (Spec.entries lt l k').filter (fun x => !eqv lt x.1 k) := by
      intro l; unfold Spec.entries Spec.erase
      rw [List.filter_filter, List.filter_filter]
      congr 1; funext x; exact Bool.and_comm _ _
    rw [hc, hc, he]
  | equalRange k =>
    obtain ⟨b, e, h1, h2, h3, h4, h5, h6⟩ := equalRange_spec w es hs k
    obtain ⟨p1, p2⟩ := parts es k b e h2 h4 h5 h6
    simp only [mstep, mspecStep, h1, Option.bind_eq_bind, Option.bind_some, p1, he]
    exact ⟨es, rfl, hs, hp, he⟩
  | count k =>
    obtain ⟨b, e, h1, h2, h3, h4, h5, h6⟩ := equalRange_spec w es hs k
    obtain ⟨p1, p2⟩ := parts es k b e h2 h4 h5 h6
    have hn : e - b = (Spec.entries lt es k).length := by rw [← p1]; simp; omega
    simp only [mstep, mspecStep, count, h1, Option.bind_eq_bind, Option.bind_some, hn, he]
    exact ⟨es, rfl, hs, hp, he⟩

/-- C33. For every history of operations on an initially empty flat multimap: no undefined behaviour,
every reported result (in particular the entries in the range of a key, in order, and the number of
erased entries) is that of the specification, and the entries are in nondecreasing key order, are a
rearrangement of the specification, and have entries with equivalent keys in order of insertion. -/
theorem C33_flat_multimap {lt : K → K → Bool} (w : SWO lt) (ops : List (MOp K V)) :
    ∃ es, mrun lt ops [] = some (es, (mspecRun lt ops []).2) ∧
      es.Pairwise (fun a b => lt b.1 a.1 = false) ∧ es.Perm (mspecRun lt ops []).1 ∧
      ∀ k, Spec.entries lt es k = Spec.entries lt (mspecRun lt ops []).1 k := by
  have key : ∀ es m, MRel lt es m → ∃ es', mrun lt ops es = some (es', (mspecRun lt ops m).2) ∧
      MRel lt es' (mspecRun lt ops m).1 := by
    induction ops with
    | nil => intro es m h; exact ⟨es, rfl, h⟩
    | cons op ops ih =>
      intro es m h
      obtain ⟨es1, e1, h1⟩ := mstep_refines w es m op h
      obtain ⟨es2, e2, h2⟩ := ih es1 _ h1
      exact ⟨es2, by simp [mrun, e1, e2, mspecRun], h2⟩
  exact key [] [] ⟨List.Pairwise.nil, List.Perm.refl _, fun _ => rfl⟩

example : mrun (fun a b : Nat × Nat => decide (a.1 < b.1))
    [.insert (5, 1) 'a', .insert (3, 1) 'b', .insert (5, 2) 'c', .insert (4, 0) 'd', .insert (5, 0) 'e', .erase (4, 9),
      .equalRange (5, 7), .count (3, 3)] [] =
    some ([((3, 1), 'b'), ((5, 1), 'a'), ((5, 2), 'c'), ((5, 0), 'e')],
      [.unit, .unit, .unit, .unit, .unit, .num 1, .range [((5, 1), 'a'), ((5, 2), 'c'), ((5, 0), 'e')], .num 1]) := by
  decide +kernel

end Verif.FlatMap
