import Verif.Deque.Erase
/-
Properties of the deque.
-/
set_option linter.unusedSimpArgs false
set_option linter.unusedVariables false
namespace Verif.Deque
open Uninit Spec
variable {α : Type u}

/-! ## Auxiliary -/

theorem replicate_throws (n : Nat) (x : α) : ¬ none ∈ List.replicate n (some x) := by
  simp [List.mem_replicate]

theorem values_replicate (n : Nat) (x : α) : values (List.replicate n (some x)) = List.replicate n x := by
  induction n with
  | zero => rfl
  | succ n ih =>
    rw [List.replicate_succ, List.replicate_succ, ← ih]; rfl

theorem values_map (xs : List α) : values (xs.map some) = xs := by
  induction xs with
  | nil => rfl
  | cons x xs ih => rw [List.map_cons]; show x :: values (xs.map some) = _; rw [ih]

theorem Good.mono {E : Env} {d : Deq α} {need : Nat} {throws throws' : Prop} {eff excEff : List α} {o : Out (Deq α)}
    (h : Good E d need throws eff excEff o) (ht : throws ↔ throws') : Good E d need throws' eff excEff o := by
  rwa [show throws = throws' from propext ht] at h

theorem good_of_ok {E : Env} {d d' : Deq α} {need : Nat} {throws : Prop} {eff excEff : List α} {o : Out (Deq α)}
    (ho : o = .ok d') (h : Inv E d' eff) (ht : ¬ throws) (hc : d'.alloc = d.alloc) (hg : d'.gen = d.gen)
    (hn : need ≤ capacity d) : Good E d need throws eff excEff o :=
  .inl ⟨d', ho, h, ht, by rw [cap_eq, cap_eq, hc], by rw [cap_eq] at hn ⊢; omega, fun _ => ⟨hc, hg⟩⟩

theorem assign_good {E : Env} {d : Deq α} {xs ys : List α} (h : Inv E d xs)
    {f : Deq α → Out (Deq α)} {need : Nat} {throws : Prop}
    (hf : ∀ d', Inv E d' [] → Good E d' need throws ys [] (f d')) :
    Good E d need throws ys [] ((clear d).bind f) := by
  obtain ⟨d', e1, e2, e3, e4⟩ := clear_spec h
  have hc : capacity d' = capacity d := by rw [cap_eq, cap_eq, e3]
  rw [e1, bind_ok]
  rcases hf d' e2 with ⟨w, a1, a2, a3, a4, a5, a6⟩ | ⟨e, w, a1, a2, a3, a4, a5⟩
  · exact .inl ⟨w, a1, a2, a3, by omega, a5, fun hn => by rw [← e3, ← e4]; exact a6 (by omega)⟩
  · exact .inr ⟨e, w, a1, a2, by omega, fun hn => by rw [← e3, ← e4]; exact a4 (by omega), by rw [← hc]; exact a5⟩

theorem resize_good {E : Env} (hsz : 0 < E.sz) {d : Deq α} {xs : List α} (h : Inv E d xs) (n : Nat) (x : α) :
    Good E d n False (xs.take n ++ List.replicate (n - xs.length) x) xs (resize E d n x) := by
  have hs := h.size
  have hl := h.layout
  unfold resize
  split_ifs with hn
  · obtain ⟨m, e1, e2, e3⟩ := destroyFrom_spec h (n := n) (by omega)
    rw [e1, bind_ok]
    rw [show n - xs.length = 0 by omega, List.replicate_zero, List.append_nil]
    refine good_of_ok rfl ?_ (by simp) rfl rfl (by rw [cap_eq]; omega)
    exact h.set m d.offset n e2 (by rw [List.length_take]; omega) (by omega) e3
  · have := appendFill_spec hsz h (List.replicate (n - d.size) (some x))
    rw [List.length_replicate, values_replicate, hs, show xs.length + (n - xs.length) = n by omega] at this
    rw [hs, List.take_of_length_le (by omega)]
    exact this.mono (by simp [List.mem_replicate])

theorem run_good {E : Env} (hsz : 0 < E.sz) {d : Deq α} {xs : List α} (h : Inv E d xs) (op : Op α)
    (hp : op.Pre xs) (hns : op ≠ .shrinkToFit) :
    Good E d (op.need xs) op.Throws (op.effect xs) (op.excEffect xs) (run E d op) := by
  have hs := h.size
  have hcap : xs.length ≤ capacity d := by rw [cap_eq]; rcases h.layout with h | h <;> omega
  have hres : ∀ {need : Nat} {o : Out (Deq α)}, ResOk E d xs need o → Good E d need False xs xs o := by
    intro need o ho
    rcases ho with ⟨d', e1, e2, e3, e4, e5⟩ | ⟨e, e1, e2, e3, e4⟩
    · exact .inl ⟨d', e1, e2, by simp, e3, e4, fun hn => by rw [e5 hn]; exact ⟨rfl, rfl⟩⟩
    · exact .inr ⟨e, d, e1, h, Nat.le_refl _, fun _ => ⟨rfl, rfl⟩, .inr ⟨e2, e3, e4⟩⟩
  cases op with
  | pushFront x => exact emplaceFront_spec hsz h x
  | pushBack x => exact emplaceBack_spec hsz h x
  | popFront =>
    obtain ⟨d', e1, e2, e3, e4⟩ := popFront_spec h hp
    exact good_of_ok e1 e2 (by simp [Op.Throws]) e3 e4 hcap
  | popBack =>
    obtain ⟨d', e1, e2, e3, e4⟩ := popBack_spec h hp
    exact good_of_ok e1 e2 (by simp [Op.Throws]) e3 e4 hcap
  | appendFill n x =>
    have := appendFill_spec hsz h (List.replicate n (some x))
    rw [List.length_replicate, values_replicate] at this
    exact this.mono (by simp [Op.Throws, List.mem_replicate])
  | appendRange ys => exact appendRange_spec hsz h ys
  | clear =>
    obtain ⟨d', e1, e2, e3, e4⟩ := clear_spec h
    exact good_of_ok e1 e2 (by simp [Op.Throws]) e3 e4 hcap
  | reserve n => exact hres (reserve_spec hsz h n (.inr trivial))
  | reserveExtra n => exact hres (reserveExtra_spec hsz h n)
  | shrinkToFit => exact absurd rfl hns
  | assignFill n x =>
    refine assign_good h fun d' h' => ?_
    have := appendFill_spec hsz h' (List.replicate n (some x))
    rw [List.length_replicate, values_replicate, List.nil_append, List.length_nil, Nat.zero_add] at this
    exact this.mono (by simp [Op.Throws, List.mem_replicate])
  | assignRange ys =>
    refine assign_good h fun d' h' => ?_
    have := appendRange_spec hsz h' ys
    rw [List.nil_append, List.length_nil, Nat.zero_add] at this
    exact this
  | resize n x => exact resize_good hsz h n x

theorem shrink_spec {E : Env} {d : Deq α} {xs : List α} (h : Inv E d xs) :
    (∃ d', shrinkToFit E d = .ok d' ∧ Inv E d' xs ∧ capacity d' = xs.length) ∨
    (∃ e, shrinkToFit E d = .exc e d ∧ e ≠ .ctor ∧ ¬ Env.CanAlloc E (xs.length + 1)) := by
  have hs := h.size
  have hl := h.layout
  have hM := h.alloc_max
  unfold shrinkToFit
  by_cases h1 : d.size > 0
  · rw [if_pos h1]
    by_cases h2 : d.size + 1 < d.alloc
    · rw [if_pos h2]
      rcases realloc_spec h (n := d.size + 1) (by omega) (by omega) (by omega) with ⟨d', e1, e2, e3⟩ | ⟨e, e1, e2, e3⟩
      · exact .inl ⟨d', e1, e2, by rw [cap_eq]; omega⟩
      · exact .inr ⟨e, e1, e2, by rwa [hs] at e3⟩
    · rw [if_neg h2]
      exact .inl ⟨d, rfl, h, by rw [cap_eq]; omega⟩
  · rw [if_neg h1]
    have : xs = [] := List.length_eq_zero_iff.1 (by omega)
    subst this
    rw [if_pos (clean_of fun j => h.isNone (by split_ifs <;> omega))]
    refine .inl ⟨_, rfl, ⟨rfl, Nat.zero_le _, hs, .inl ⟨rfl, rfl, by omega⟩, fun j => ?_⟩, ?_⟩
    · rw [if_neg (by simp)]; rfl
    · rw [cap_eq]; rfl

/-! ## C13: the sequence of elements -/

/-- C13: from a deque that holds a sequence of elements, an operation whose precondition is satisfied has no undefined
behavior and no failed assertion, and has the expected effect on the sequence. An exception is either one that was
thrown by a constructor, or a failure to get memory that was needed. -/
theorem C13_step {E : Env} (hsz : 0 < E.sz) {d : Deq α} {xs : List α} (h : Holds E d xs) (op : Op α)
    (hp : op.Pre xs) :
    (∃ d', run E d op = .ok d' ∧ Holds E d' (op.effect xs) ∧ ¬ op.Throws) ∨
    (∃ e d', run E d op = .exc e d' ∧ Holds E d' (op.excEffect xs) ∧
      ((e = .ctor ∧ op.Throws) ∨
       (e ≠ .ctor ∧ (capacity d < op.need xs ∨ op = .shrinkToFit) ∧
         ¬ ∀ k, 2 * k ≤ 3 * (op.need xs + 1) → Env.CanAlloc E k))) := by
  simp only [inv_iff] at *
  by_cases hns : op = .shrinkToFit
  · subst hns
    rcases shrink_spec h with ⟨d', e1, e2, e3⟩ | ⟨e, e1, e2, e3⟩
    · exact .inl ⟨d', e1, e2, by simp [Op.Throws]⟩
    · exact .inr ⟨e, d, e1, h, .inr ⟨e2, .inr rfl, fun hc => e3 (hc _ (by show _ ≤ 3 * (xs.length + 1); omega))⟩⟩
  · rcases run_good hsz h op hp hns with ⟨w, e1, e2, e3, e4, e5, e6⟩ | ⟨e, w, e1, e2, e3, e4, e5⟩
    · exact .inl ⟨w, e1, e2, e3⟩
    · refine .inr ⟨e, w, e1, e2, ?_⟩
      rcases e5 with e5 | ⟨e5, e6, e7⟩
      · exact .inl e5
      · exact .inr ⟨e5, .inl e6, e7⟩

theorem read_wrap {E : Env} {d : Deq α} {xs : List α} (h : Inv E d xs) {i : Nat} (hi : i < xs.length) :
    read d (wrap d i) = .value xs[i] := by
  have hs := h.size
  have hl := h.layout
  have hms := h.mem_size
  have hw : wrap d i < d.mem.size := by rw [wrap_eq]; split_ifs <;> omega
  have hg : d.mem.get (wrap d i) = some xs[i] := by
    rw [h.get, if_pos (by omega), wrap_eq]
    have : xs[i]? = some xs[i] := List.getElem?_eq_getElem hi
    rw [← this]
    split_ifs <;> first | omega | (congr 1; omega)
  unfold read
  rw [if_pos hw, hg]

theorem inc_wrap {E : Env} {d : Deq α} {xs : List α} (h : Inv E d xs) {i : Nat} (hi : i < xs.length) :
    iterInc d (wrap d i) = wrap d (i + 1) := by
  have hs := h.size
  have hl := h.layout
  unfold iterInc circularInc
  simp only [wrap_eq]
  split_ifs <;> omega

theorem wrap_inj {E : Env} {d : Deq α} {xs : List α} (h : Inv E d xs) {i j : Nat} (hi : i ≤ xs.length)
    (hj : j ≤ xs.length) : wrap d i = wrap d j ↔ i = j := by
  have hs := h.size
  have hl := h.layout
  simp only [wrap_eq]
  split_ifs <;> omega

theorem unwrap_wrap {E : Env} {d : Deq α} {xs : List α} (h : Inv E d xs) {i : Nat} (hi : i ≤ xs.length) :
    unwrap d (wrap d i) = i := by
  have hs := h.size
  have hl := h.layout
  unfold unwrap
  simp only [wrap_eq]
  split_ifs <;> omega

theorem iterate_eq {E : Env} {d : Deq α} {xs : List α} (h : Inv E d xs) (n i : Nat) (hi : i ≤ xs.length)
    (hn : xs.length - i < n) : iterate d n (wrap d i) = some (xs.drop i) := by
  induction n generalizing i with
  | zero => omega
  | succ n ih =>
    have heq : (iterEq d (wrap d i) (end_ d) = true) ↔ i = xs.length := by
      unfold iterEq end_
      rw [beq_iff_eq, h.size]
      exact wrap_inj h hi (Nat.le_refl _)
    rw [iterate]
    by_cases hlast : i = xs.length
    · rw [if_pos (heq.2 hlast), List.drop_eq_nil_of_le (by omega)]
    · rw [if_neg (fun hh => hlast (heq.1 hh))]
      unfold iterDeref
      rw [read_wrap h (by omega)]
      dsimp only
      rw [inc_wrap h (by omega), ih (i + 1) (by omega) (by omega), List.drop_eq_getElem_cons (show i < xs.length by omega)]
      rfl

theorem wrap_zero {E : Env} {d : Deq α} {xs : List α} (h : Inv E d xs) : wrap d 0 = d.offset := by
  have hl := h.layout
  rw [wrap_eq]; split_ifs <;> omega

theorem contents_eq {E : Env} {d : Deq α} {xs : List α} (h : Inv E d xs) : contents d = some xs := by
  have hl := h.layout
  have hs := h.size
  unfold contents begin_
  rw [← wrap_zero h, iterate_eq h _ 0 (Nat.zero_le _) (by omega), List.drop_zero]

/-- C13: in every execution, iteration from `begin()` until `end()` gives the elements of the list model in order, and
no further operation that is allowed has undefined behavior or fails an assertion. -/
theorem C13_history {E : Env} (hsz : 0 < E.sz) {d : Deq α} {xs : List α} (h : Reach E d xs) :
    Holds E d xs ∧ contents d = some xs ∧
      ∀ op : Op α, op.Pre xs → run E d op ≠ .ub ∧ run E d op ≠ .abort := by
  have hh : Holds E d xs := by
    induction h with
    | init => exact inv_iff.2 inv_empty
    | ok _ hp hr ih =>
      rcases C13_step hsz ih _ hp with ⟨w, e1, e2, _⟩ | ⟨e, w, e1, e2, _⟩
      · rw [hr] at e1; cases e1; exact e2
      · rw [hr] at e1; cases e1
    | exc _ hp hr ih =>
      rcases C13_step hsz ih _ hp with ⟨w, e1, e2, _⟩ | ⟨e, w, e1, e2, _⟩
      · rw [hr] at e1; cases e1
      · rw [hr] at e1; cases e1; exact e2
    | @erase d xs i j d' k _ hij hj hr ih =>
      rw [inv_iff] at ih ⊢
      unfold erase at hr
      rw [unwrap_wrap ih (by omega), unwrap_wrap ih hj, if_neg (by omega), if_neg (by rw [ih.size]; omega)] at hr
      have hr' : (if i ≠ j then doErase d i j else .ok d) = .ok d' := by
        revert hr
        generalize (if i ≠ j then doErase d i j else Out.ok d) = o
        intro hr
        cases o <;> simp only [Out.map] at hr <;> cases hr
        rfl
      by_cases hb : i = j ∨ ¬ EraseBad d i j
      · obtain ⟨w, e1, e2, _⟩ := doErase_spec ih hij hj hb
        split_ifs at hr' with h0
        · rw [hr'] at e1; cases e1; exact e2
        · rw [not_not] at h0
          subst h0
          cases hr'
          rw [List.take_append_drop]; exact ih
      · rw [not_or, not_not] at hb
        rw [if_pos hb.1, doErase_ub ih (by omega) hj hb.2] at hr'
        cases hr'
  refine ⟨hh, contents_eq (inv_iff.1 hh), fun op hp => ?_⟩
  rcases C13_step hsz hh op hp with ⟨w, e1, _⟩ | ⟨e, w, e1, _⟩ <;> rw [e1] <;> simp

/-- C13: the destructor destroys each element exactly once, and leaves no object behind. -/
theorem C13_destroy {E : Env} {d : Deq α} {xs : List α} (h : Holds E d xs) :
    ∃ d', destroyFrom d 0 = .ok d' ∧ ∀ j, d'.mem.get j = none := by
  rw [inv_iff] at h
  obtain ⟨m, e1, _, e3⟩ := destroyFrom_spec h (Nat.zero_le _)
  refine ⟨_, e1, fun j => ?_⟩
  show m.get j = none
  rw [e3]
  simp

/-- C13: move assignment between two different deques destroys the old elements, transfers the sequence and leaves the
other deque empty. -/
theorem C13_moveAssign {E : Env} {d o : Deq α} {ys xs : List α} (hd : Holds E d ys) (ho : Holds E o xs) :
    ∃ d' o', moveAssign d o = .ok (d', o') ∧ Holds E d' xs ∧ Holds E o' [] ∧ capacity d' = capacity o := by
  simp only [inv_iff] at *
  obtain ⟨m, e1, e2, e3⟩ := destroyFrom_spec hd (Nat.zero_le _)
  unfold moveAssign
  rw [e1]
  dsimp only
  rw [if_pos (clean_of fun j => by show m.get j = none; rw [e3]; simp)]
  refine ⟨_, _, rfl, ⟨ho.mem_size, ho.alloc_max, ho.size, ho.layout, ho.get⟩,
    ⟨rfl, Nat.zero_le _, rfl, .inl ⟨rfl, rfl, rfl⟩, fun j => ?_⟩, by rw [cap_eq, cap_eq]⟩
  rw [if_neg (by simp)]; rfl

/-! ## C14: erase -/

/-- What `erase()` should do. -/
def EraseOk (E : Env) (d : Deq α) (xs : List α) (i j : Nat) : Prop :=
  ∃ d' k, erase d (wrap d i) (wrap d j) = .ok (d', k) ∧ Holds E d' (xs.take i ++ xs.drop j) ∧ k = wrap d' i ∧
    d'.alloc = d.alloc ∧ d'.gen = d.gen

/-- The contents are divided into two parts, and: either the erased range is in the first half and begins after the
beginning of the second part, or it is in the last half, ends before the end of the first part, and is larger than the
second part. -/
def WrapHazard (d : Deq α) (i j : Nat) : Prop :=
  i < j ∧ d.alloc < d.offset + d.size ∧
    ((i + j < d.size ∧ d.alloc < d.offset + i) ∨
     (d.size ≤ i + j ∧ d.offset + j < d.alloc ∧ d.offset + d.size < d.alloc + (j - i)))

theorem hazard_iff {E : Env} {d : Deq α} {xs : List α} (h : Inv E d xs) {i j : Nat} (hij : i ≤ j)
    (hj : j ≤ xs.length) : WrapHazard d i j ↔ i < j ∧ EraseBad d i j := by
  have hs := h.size
  have hl := h.layout
  unfold WrapHazard EraseBad
  omega

theorem erase_eq {E : Env} {d : Deq α} {xs : List α} (h : Inv E d xs) {i j : Nat} (hij : i ≤ j)
    (hj : j ≤ xs.length) :
    erase d (wrap d i) (wrap d j) = (if i ≠ j then doErase d i j else .ok d).map fun d => (d, wrap d i) := by
  unfold erase
  rw [unwrap_wrap h (by omega), unwrap_wrap h hj, if_neg (by omega), if_neg (by rw [h.size]; omega)]

/-- C14, with the condition that is missing in the code: `erase()` removes the elements between the two iterators,
preserves the others, and returns an iterator to the element after the removed ones, if there is no hazard from the
way in which the contents wrap around. -/
theorem C14_erase_partial {E : Env} {d : Deq α} {xs : List α} (h : Holds E d xs) {i j : Nat} (hij : i ≤ j)
    (hj : j ≤ xs.length) (hw : ¬ WrapHazard d i j) : EraseOk E d xs i j := by
  rw [inv_iff] at h
  have hw' := hazard_iff h hij hj
  unfold EraseOk
  rw [erase_eq h hij hj]
  by_cases h0 : i = j
  · subst h0
    rw [if_neg (by simp), map_ok]
    exact ⟨d, _, rfl, by rw [List.take_append_drop]; exact inv_iff.2 h, rfl, rfl, rfl⟩
  · obtain ⟨d', e1, e2, e3, e4⟩ := doErase_spec h hij hj (.inr fun hb => hw (hw'.2 ⟨by omega, hb⟩))
    rw [if_pos h0, e1, map_ok]
    exact ⟨d', _, rfl, inv_iff.2 e2, rfl, e3, e4⟩

/-- C14: the condition in `C14_erase_partial` is exact: with the hazard, `erase()` has undefined behavior. -/
theorem C14_erase_exact {E : Env} {d : Deq α} {xs : List α} (h : Holds E d xs) {i j : Nat} (hij : i ≤ j)
    (hj : j ≤ xs.length) : WrapHazard d i j ↔ erase d (wrap d i) (wrap d j) = .ub := by
  constructor
  · intro hw
    rw [inv_iff] at h
    have hb := (hazard_iff h hij hj).1 hw
    rw [erase_eq h hij hj, if_pos (by omega), doErase_ub h hb.1 hj hb.2, map_ub]
  · intro hu
    by_contra hw
    obtain ⟨d', k, e1, _⟩ := C14_erase_partial h hij hj hw
    rw [hu] at e1; cases e1

/-- C14: `erase()` with one iterator is `erase()` of the range with that element. -/
theorem C14_eraseOne {E : Env} {d : Deq α} {xs : List α} (h : Holds E d xs) {i : Nat} (hi : i < xs.length) :
    eraseOne d (wrap d i) = erase d (wrap d i) (wrap d (i + 1)) := by
  rw [inv_iff] at h
  rw [erase_eq h (by omega) hi, if_pos (by omega)]
  unfold eraseOne
  dsimp only
  rw [unwrap_wrap h (by omega), if_neg (by rw [h.size]; omega)]

/-- C14: no hazard while the contents do not wrap around. -/
theorem C14_contiguous {E : Env} {d : Deq α} {xs : List α} (h : Holds E d xs) {i j : Nat} (hij : i ≤ j)
    (hj : j ≤ xs.length) (hc : d.offset + d.size ≤ d.alloc) : EraseOk E d xs i j :=
  C14_erase_partial h hij hj fun hw => by have := hw.2.1; omega

/-- A deque of nine elements in memory for ten that starts at slot `o`. -/
def ex9 (o : Nat) : Deq Nat :=
  ⟨⟨10, fun j => if j < 10 then [10, 11, 12, 13, 14, 15, 16, 17, 18][(j + 10 - o) % 10]? else none⟩, o, 9, 10, 0⟩

def exEnv : Env := ⟨1000000, 4, fun _ => true⟩

theorem ex9_holds {o : Nat} (ho : o < 10) : Holds exEnv (ex9 o) [10, 11, 12, 13, 14, 15, 16, 17, 18] :=
  ⟨rfl, by show 10 ≤ 1000000; omega, rfl, .inr ⟨ho, by show 9 < 10; omega⟩,
    fun j hj => if_pos hj, fun j hj => if_neg (by have : (ex9 o).alloc = 10 := rfl; omega)⟩

/-- C14 is false: erasure of the fourth of nine elements, when the contents start in slot eight of ten. -/
theorem C14_erase_defect_front : Holds exEnv (ex9 8) [10, 11, 12, 13, 14, 15, 16, 17, 18] ∧
    erase (ex9 8) (wrap (ex9 8) 3) (wrap (ex9 8) 4) = .ub ∧
    ¬ EraseOk exEnv (ex9 8) [10, 11, 12, 13, 14, 15, 16, 17, 18] 3 4 := by
  have h : erase (ex9 8) (wrap (ex9 8) 3) (wrap (ex9 8) 4) = .ub :=
    (C14_erase_exact (ex9_holds (by omega)) (by omega) (by decide)).1
      ⟨by decide, by decide, .inl ⟨by decide, by decide⟩⟩
  exact ⟨ex9_holds (by omega), h, fun ⟨d', k, h1, _⟩ => by rw [h] at h1; cases h1⟩

/-- C14 is false: erasure of the sixth and seventh of nine elements, when the contents start in slot two of ten. -/
theorem C14_erase_defect_back : Holds exEnv (ex9 2) [10, 11, 12, 13, 14, 15, 16, 17, 18] ∧
    erase (ex9 2) (wrap (ex9 2) 5) (wrap (ex9 2) 7) = .ub ∧
    ¬ EraseOk exEnv (ex9 2) [10, 11, 12, 13, 14, 15, 16, 17, 18] 5 7 := by
  have h : erase (ex9 2) (wrap (ex9 2) 5) (wrap (ex9 2) 7) = .ub :=
    (C14_erase_exact (ex9_holds (by omega)) (by omega) (by decide)).1
      ⟨by decide, by decide, .inr ⟨by decide, by decide, by decide⟩⟩
  exact ⟨ex9_holds (by omega), h, fun ⟨d', k, h1, _⟩ => by rw [h] at h1; cases h1⟩

/-! ## C15: checked access -/

/-- C15 for deques: `at()` gives the element for a valid index, and throws for any other. -/
theorem C15_deque {E : Env} {d : Deq α} {xs : List α} (h : Holds E d xs) (i : Nat) :
    at_ d i = if hi : i < xs.length then .value xs[i] else .outOfRange := by
  rw [inv_iff] at h
  unfold at_ index
  by_cases hi : i < xs.length
  · rw [dif_pos hi, if_pos (by rw [h.size]; exact hi), if_neg (by rw [h.size]; omega), read_wrap h hi]
  · rw [dif_neg hi, if_neg (by rw [h.size]; exact hi)]

/-! ## C59: strong exception guarantee -/

/-- C59 for deques: if an operation throws, other than `assign()`, the sequence is as before it. -/
theorem C59_deque {E : Env} (hsz : 0 < E.sz) {d d' : Deq α} {xs : List α} (h : Holds E d xs) (op : Op α)
    (hp : op.Pre xs) (ha : ∀ n x, op ≠ .assignFill n x) (ha' : ∀ ys, op ≠ .assignRange ys) {e : Exc}
    (hr : run E d op = .exc e d') : Holds E d' xs := by
  rcases C13_step hsz h op hp with ⟨w, e1, _⟩ | ⟨e', w, e1, e2, _⟩
  · rw [hr] at e1; cases e1
  · rw [hr] at e1; cases e1
    cases op with
    | assignFill n x => exact absurd rfl (ha n x)
    | assignRange ys => exact absurd rfl (ha' ys)
    | _ => exact e2

/-! ## C62: capacity -/

/-- C62 for deques: no operation but `shrink_to_fit()` reduces the capacity, and there is no reallocation if the
capacity is sufficient. -/
theorem C62_deque_capacity {E : Env} (hsz : 0 < E.sz) {d : Deq α} {xs : List α} (h : Holds E d xs) (op : Op α)
    (hp : op.Pre xs) (hns : op ≠ .shrinkToFit) (d' : Deq α)
    (hr : run E d op = .ok d' ∨ ∃ e, run E d op = .exc e d') :
    capacity d ≤ capacity d' ∧ (op.need xs ≤ capacity d → capacity d' = capacity d ∧ d'.gen = d.gen) := by
  rw [inv_iff] at h
  rcases run_good hsz h op hp hns with ⟨w, e1, e2, e3, e4, e5, e6⟩ | ⟨e, w, e1, e2, e3, e4, e5⟩
  · rw [e1] at hr
    obtain rfl : w = d' := by rcases hr with hr | ⟨_, hr⟩ <;> cases hr; rfl
    exact ⟨e4, fun hn => ⟨by rw [cap_eq, cap_eq, (e6 hn).1], (e6 hn).2⟩⟩
  · rw [e1] at hr
    obtain rfl : w = d' := by rcases hr with hr | ⟨_, hr⟩ <;> cases hr; rfl
    exact ⟨e3, fun hn => ⟨by rw [cap_eq, cap_eq, (e4 hn).1], (e4 hn).2⟩⟩

/-- C62 for deques: with sufficient capacity, an exception comes from a constructor. After an operation without
exception the capacity is what was needed. -/
theorem C62_deque_nothrow {E : Env} (hsz : 0 < E.sz) {d : Deq α} {xs : List α} (h : Holds E d xs) (op : Op α)
    (hp : op.Pre xs) (hns : op ≠ .shrinkToFit) :
    (op.need xs ≤ capacity d → ¬ op.Throws → ∃ d', run E d op = .ok d') ∧
    (∀ d', run E d op = .ok d' → op.need xs ≤ capacity d') := by
  rw [inv_iff] at h
  rcases run_good hsz h op hp hns with ⟨w, e1, e2, e3, e4, e5, e6⟩ | ⟨e, w, e1, e2, e3, e4, e5⟩
  · exact ⟨fun _ _ => ⟨w, e1⟩, fun d' hr => by rw [e1] at hr; cases hr; exact e5⟩
  · refine ⟨fun hn ht => ?_, fun d' hr => by rw [e1] at hr; cases hr⟩
    rcases e5 with ⟨_, e5⟩ | ⟨_, e5, _⟩
    · exact absurd e5 ht
    · omega

/-- C62 for deques: `shrink_to_fit()` makes the capacity equal to the size. -/
theorem C62_deque_shrink {E : Env} {d d' : Deq α} {xs : List α} (h : Holds E d xs) (hr : shrinkToFit E d = .ok d') :
    Holds E d' xs ∧ capacity d' = xs.length := by
  rw [inv_iff] at *
  rcases shrink_spec h with ⟨w, e1, e2, e3⟩ | ⟨e, e1, _⟩
  · rw [hr] at e1; cases e1; exact ⟨e2, e3⟩
  · rw [hr] at e1; cases e1

/-! ## C60: insertion of an element of the deque itself -/

/-- What pushing a copy of element `k` should do. -/
def PushOwnOk (E : Env) (d : Deq α) (xs : List α) (k : Nat) : Prop :=
  (∃ d' x, xs[k]? = some x ∧ pushBackOwn E d k = .ok d' ∧ Holds E d' (xs ++ [x])) ∨
  (∃ e, pushBackOwn E d k = .exc e d ∧ ¬ ∀ n, 2 * n ≤ 3 * (xs.length + 2) → Env.CanAlloc E n)

/-- C60 for deques, when there is spare capacity. -/
theorem C60_deque_partial {E : Env} (hsz : 0 < E.sz) {d : Deq α} {xs : List α} (h : Holds E d xs) {k : Nat}
    (hk : k < xs.length) (hc : xs.length < capacity d) : PushOwnOk E d xs k := by
  rw [inv_iff] at h
  have hs := h.size
  have hl := h.layout
  have hms := h.mem_size
  left
  have hx : xs[k]? = some xs[k] := List.getElem?_eq_getElem hk
  have hw : wrap d k < d.mem.size := by rw [wrap_eq]; split_ifs <;> omega
  have hg : d.mem.get (wrap d k) = some xs[k] := by
    rw [h.get, if_pos (by omega), wrap_eq, ← hx]
    split_ifs <;> first | omega | (congr 1; omega)
  unfold pushBackOwn
  rcases reserve_spec hsz h (d.size + 1) (.inr trivial) with ⟨d', e1, e2, e3, e4, e5⟩ | ⟨e, e1, e2, e3, e4⟩
  · have hd : d' = d := e5 (by omega)
    subst hd
    rw [e1, bind_ok, if_neg (by rw [cap_eq] at hc; omega), if_pos ⟨rfl, hw, by rw [hg]; rfl⟩, hg]
    obtain ⟨a1, a2⟩ := construct_back h (by omega) xs[k]
    dsimp only
    rw [a1, map_ok, bind_ok]
    exact ⟨_, xs[k], hx, rfl, inv_iff.2 a2⟩
  · omega

/-- C60 for deques: without spare capacity, if the memory can be had, the reference dangles when it is used. -/
theorem C60_deque_ub {E : Env} (hsz : 0 < E.sz) {d : Deq α} {xs : List α} (h : Holds E d xs) {k : Nat}
    (hk : k < xs.length) (hc : capacity d = xs.length) (ha : ∀ n, 2 * n ≤ 3 * (xs.length + 2) → Env.CanAlloc E n) :
    pushBackOwn E d k = .ub := by
  rw [inv_iff] at h
  have hs := h.size
  have hM := h.alloc_max
  rw [cap_eq] at hc
  have hroom := (ha (xs.length + 2) (by omega)).1
  have hle : xs.length + 2 ≤ (xs.length + 2) * E.sz := Nat.le_mul_of_pos_right _ hsz
  unfold pushBackOwn reserve
  rw [if_neg (by omega), if_pos (by omega), if_neg (by omega)]
  obtain ⟨n, hn, hn1, hn2, hn3, _⟩ := Buffer.suggest_spec h.alloc_max (show d.size + 1 + 1 ≤ E.M by omega)
  have hn4 := suggest_le hn (by omega)
  rw [hn]
  dsimp only
  rcases realloc_spec h (n := n) (by omega) (by omega) hn3 with ⟨d', e1, e2, e3⟩ | ⟨e, e1, e2, e3⟩
  · have hgen : d'.gen = d.gen + 1 := by
      revert e1
      unfold realloc
      dsimp only
      intro e1
      split_ifs at e1
      · split at e1
        · split_ifs at e1
          cases e1; rfl
        · cases e1
      · split at e1
        · split at e1
          · split at e1
            · split_ifs at e1
              cases e1; rfl
            · cases e1
          · cases e1
        · cases e1
    rw [e1, bind_ok, if_neg (by omega), if_neg (by omega)]
  · exact absurd (ha n (by omega)) e3

/-- C60 is false for deques. -/
theorem C60_deque_defect : ∃ (d : Deq Nat) (xs : List Nat), Holds exEnv d xs ∧ ¬ PushOwnOk exEnv d xs 0 := by
  refine ⟨ex9 0, _, ex9_holds (by omega), ?_⟩
  have h : pushBackOwn exEnv (ex9 0) 0 = .ub := by
    refine C60_deque_ub (by decide) (ex9_holds (by omega)) (by decide) (by decide) fun n hn => ⟨?_, rfl⟩
    simp only [List.length_cons, List.length_nil] at hn
    show n * 4 ≤ 1000000
    omega
  rintro (⟨d', x, _, h1, _⟩ | ⟨e, h1, _⟩) <;> rw [h] at h1 <;> cases h1

/-! ## C61: iterators -/

/-- C61: iterators are random access iterators. The iterator to position `i` is `wrap d i` (this is what `begin()`,
`end()` and `erase()` return). -/
theorem C61_iterators {E : Env} {d : Deq α} {xs : List α} (h : Holds E d xs) {i j : Nat} (hi : i ≤ xs.length)
    (hj : j ≤ xs.length) :
    begin_ d = wrap d 0 ∧ end_ d = wrap d xs.length ∧
    (∀ hl : i < xs.length, iterDeref d (wrap d i) = .value xs[i] ∧ iterInc d (wrap d i) = wrap d (i + 1) ∧
      iterDec d (wrap d (i + 1)) = wrap d i) ∧
    (∀ v : Int, (i : Int) + v = j → iterAdd E.M d (wrap d i) v = wrap d j ∧ iterSub E.M d (wrap d i) (-v) = wrap d j) ∧
    (2 * d.alloc ≤ E.M + 2 → iterDiff d E.M (wrap d i) (wrap d j) = (i : Int) - j) ∧
    (iterEq d (wrap d i) (wrap d j) = true ↔ i = j) ∧ (iterLt d (wrap d i) (wrap d j) = true ↔ i < j) := by
  rw [inv_iff] at h
  have hs := h.size
  have hl := h.layout
  have hM := h.alloc_max
  refine ⟨(wrap_zero h).symm, by unfold end_; rw [hs], fun hl' => ⟨read_wrap h hl', inc_wrap h hl', ?_⟩, ?_, ?_, ?_, ?_⟩
  · unfold iterDec circularDec
    simp only [wrap_eq]
    split_ifs <;> omega
  · intro v hv
    have key : ((j : Int) % ((E.M : Int) + 1)).toNat = j := by
      rw [Int.emod_eq_of_lt (by omega) (by omega)]; omega
    unfold iterAdd iterSub
    rw [unwrap_wrap h hi, show (i : Int) - -v = j by omega, hv, key]
    exact ⟨rfl, rfl⟩
  · intro hd
    unfold iterDiff
    rw [unwrap_wrap h hi, unwrap_wrap h hj]
    dsimp only
    rcases Nat.lt_or_ge i j with hij | hij
    · have : ((i : Int) - j) % ((E.M : Int) + 1) = (i : Int) - j + (E.M + 1) := by
        rw [← Int.add_emod_right, Int.emod_eq_of_lt (by omega) (by omega)]
      rw [this, if_neg (by omega)]; omega
    · rw [Int.emod_eq_of_lt (by omega) (by omega), if_pos (by omega)]
  · unfold iterEq
    rw [beq_iff_eq]
    exact wrap_inj h hi hj
  · unfold iterLt
    rw [unwrap_wrap h hi, unwrap_wrap h hj, decide_eq_true_iff]

/-- C61: after `pop_front()`, the iterators to the other elements, and the end iterator, are still iterators to the
same elements, and the end iterator. -/
theorem C61_popFront {E : Env} {d d' : Deq α} {xs : List α} (h : Holds E d xs) (hx : xs ≠ [])
    (hr : popFront d = .ok d') : ∀ i, 1 ≤ i → i ≤ xs.length → wrap d i = wrap d' (i - 1) := by
  rw [inv_iff] at h
  have hs := h.size
  have hl := h.layout
  have hp : 0 < xs.length := List.length_pos_iff.2 hx
  obtain ⟨w, e1, e2, e3, _⟩ := popFront_spec h hx
  have ho : w.offset = circularInc d d.offset := by
    revert e1
    unfold popFront
    rw [if_neg (by omega)]
    generalize destroy d.mem d.offset 1 = o
    intro e1
    cases o <;> simp only [Out.map, Out.bind] at e1 <;> cases e1
    rfl
  rw [hr] at e1; cases e1
  intro i h1 h2
  simp only [wrap_eq]
  rw [ho, e3]
  unfold circularInc
  split_ifs <;> omega

/-- C61: after `pop_back()`, the iterators to the other elements are still iterators to the same elements, and the
iterator to the removed element is the end iterator. -/
theorem C61_popBack {E : Env} {d d' : Deq α} {xs : List α} (h : Holds E d xs) (hx : xs ≠ [])
    (hr : popBack d = .ok d') : (∀ i, wrap d i = wrap d' i) ∧ end_ d' = wrap d (xs.length - 1) := by
  rw [inv_iff] at h
  have hs := h.size
  have hp : 0 < xs.length := List.length_pos_iff.2 hx
  obtain ⟨w, e1, e2, e3, _⟩ := popBack_spec h hx
  have ho : w.offset = d.offset := by
    revert e1
    unfold popBack
    rw [if_neg (by omega)]
    generalize destroy d.mem (wrap d (d.size - 1)) 1 = o
    intro e1
    cases o <;> simp only [Out.map, Out.bind] at e1 <;> cases e1
    rfl
  rw [hr] at e1; cases e1
  have hw : ∀ i, wrap d i = wrap d' i := fun i => by simp only [wrap_eq]; rw [ho, e3]
  refine ⟨hw, ?_⟩
  unfold end_
  rw [hw, e2.size, List.length_dropLast]

/-- C61: after `push_front()` with spare capacity, all iterators are still iterators to the same elements, and the end
iterator is still the end iterator. -/
theorem C61_pushFront {E : Env} (hsz : 0 < E.sz) {d d' : Deq α} {xs : List α} {x : α} (h : Holds E d xs)
    (hc : xs.length < capacity d) (hr : emplaceFront E d (some x) = .ok d') :
    (∀ i, i ≤ xs.length → wrap d i = wrap d' (i + 1)) ∧ end_ d' = end_ d := by
  rw [inv_iff] at h
  have hs := h.size
  have hl := h.layout
  rcases emplaceFront_spec hsz h (some x) with ⟨w, e1, e2, _, _, _, e6⟩ | ⟨e, w, e1, _⟩
  swap
  · rw [hr] at e1; cases e1
  rw [hr] at e1; cases e1
  have ha := (e6 (by omega)).1
  have hs' := e2.size
  have ho : d'.offset = circularDec d d.offset := by
    revert hr
    unfold emplaceFront
    rcases reserve_spec hsz h (d.size + 1) (.inr trivial) with ⟨v, a1, a2, a3, a4, a5⟩ | ⟨e, a1, a2, a3, a4⟩
    · have hd : v = d := a5 (by omega)
      subst hd
      rw [a1, bind_ok, if_neg (by rw [cap_eq] at hc; omega)]
      dsimp only
      generalize construct v.mem (circularDec v v.offset) (some x) = o
      intro hr
      cases o <;> simp only [Out.map, Out.bind] at hr <;> cases hr
      rfl
    · omega
  rw [cap_eq] at hc
  have key : ∀ i, i ≤ xs.length → wrap d i = wrap d' (i + 1) := by
    intro i hi
    simp only [wrap_eq]
    rw [ho, ha]
    unfold circularDec
    split_ifs <;> omega
  refine ⟨key, ?_⟩
  unfold end_
  rw [hs, key _ (Nat.le_refl _), hs', List.length_append]
  congr 1
  simp [values]; omega

/-- C61: after `push_back()` with spare capacity, all iterators are still iterators to the same elements, and the
former end iterator is the iterator to the new element. -/
theorem C61_pushBack {E : Env} (hsz : 0 < E.sz) {d d' : Deq α} {xs : List α} {x : α} (h : Holds E d xs)
    (hc : xs.length < capacity d) (hr : emplaceBack E d (some x) = .ok d') :
    (∀ i, wrap d i = wrap d' i) ∧ iterDeref d' (end_ d) = .value x := by
  rw [inv_iff] at h
  have hs := h.size
  rcases emplaceBack_spec hsz h (some x) with ⟨w, e1, e2, _, _, _, e6⟩ | ⟨e, w, e1, _⟩
  swap
  · rw [hr] at e1; cases e1
  rw [hr] at e1; cases e1
  have ha := (e6 (by omega)).1
  have ho : d'.offset = d.offset := by
    revert hr
    unfold emplaceBack
    rcases reserve_spec hsz h (d.size + 1) (.inr trivial) with ⟨v, a1, a2, a3, a4, a5⟩ | ⟨e, a1, a2, a3, a4⟩
    · have hd : v = d := a5 (by omega)
      subst hd
      rw [a1, bind_ok, if_neg (by rw [cap_eq] at hc; omega)]
      dsimp only
      generalize construct v.mem (wrap v v.size) (some x) = o
      intro hr
      cases o <;> simp only [Out.map, Out.bind] at hr <;> cases hr
      rfl
    · omega
  have hw : ∀ i, wrap d i = wrap d' i := fun i => by simp only [wrap_eq]; rw [ho, ha]
  refine ⟨hw, ?_⟩
  unfold end_ iterDeref
  rw [hw, hs, read_wrap e2 (by simp [values])]
  simp [values]

/-! ## C63: copy assignment -/

/-- What copy assignment from a deque with elements `ys` should do. -/
def CopyOk (E : Env) (ys : List α) (o : Out (Deq α)) : Prop :=
  (∃ d', o = .ok d' ∧ Holds E d' ys) ∨ (∃ e d', o = .exc e d' ∧ e ≠ .ctor)

/-- C63, for assignment from a different deque. -/
theorem C63_copyAssign_partial {E : Env} (hsz : 0 < E.sz) {d : Deq α} {xs ys : List α} (h : Holds E d xs) :
    CopyOk E ys (copyAssign E d (ys.map some)) := by
  have hm : (none : Option α) ∉ ys.map some := by simp
  rcases C13_step hsz h (.assignRange (ys.map some)) trivial with ⟨w, e1, e2, _⟩ | ⟨e, w, e1, e2, e3⟩
  · refine .inl ⟨w, e1, ?_⟩
    simpa only [Op.effect, values_map] using e2
  · refine .inr ⟨e, w, e1, ?_⟩
    rcases e3 with ⟨_, e3⟩ | ⟨e3, _⟩
    · exact absurd e3 hm
    · exact e3

/-- C63: assignment of a deque to itself always makes it empty. -/
theorem C63_copyAssignSelf {E : Env} (hsz : 0 < E.sz) {d : Deq α} {xs : List α} (h : Holds E d xs) :
    ∃ d', copyAssignSelf E d = .ok d' ∧ Holds E d' [] := by
  rw [inv_iff] at h
  obtain ⟨d', e1, e2, e3, e4⟩ := clear_spec h
  unfold copyAssignSelf
  rw [e1, bind_ok, contents_eq e2]
  dsimp only
  rw [List.map_nil]
  rcases appendRange_spec hsz e2 [] with ⟨w, a1, a2, _⟩ | ⟨e, w, a1, a2, a3, a4, a5⟩
  · exact ⟨w, a1, inv_iff.2 (by simpa [values] using a2)⟩
  · simp at a5

/-- C63 is false: a deque loses its elements when it is assigned to itself. -/
theorem C63_copyAssign_defect : Holds exEnv (ex9 0) [10, 11, 12, 13, 14, 15, 16, 17, 18] ∧
    ¬ CopyOk exEnv [10, 11, 12, 13, 14, 15, 16, 17, 18] (copyAssignSelf exEnv (ex9 0)) := by
  refine ⟨ex9_holds (by omega), ?_⟩
  obtain ⟨w, h1, h2⟩ := C63_copyAssignSelf (E := exEnv) (by decide) (ex9_holds (o := 0) (by omega))
  rintro (⟨d', e1, e2⟩ | ⟨e, d', e1, _⟩)
  · rw [h1] at e1; cases e1
    have a := contents_eq (inv_iff.1 h2)
    rw [contents_eq (inv_iff.1 e2)] at a
    cases a
  · rw [h1] at e1; cases e1

/-! ## Examples -/

/-- The elements after an operation. -/
def after (o : Out (Deq Nat)) : Option (List Nat) := match o with | .ok d => contents d | _ => none

example : after ((popFront (ex9 4)).bind fun d => (popFront d).bind fun d => (emplaceFront exEnv d (some 99)).bind fun d =>
    (appendRange exEnv d [some 1, some 2, some 3]).bind fun d => shrinkToFit exEnv d) =
    some [99, 12, 13, 14, 15, 16, 17, 18, 1, 2, 3] := by decide
example : (match erase (ex9 4) (wrap (ex9 4) 2) (wrap (ex9 4) 7) with
    | .ok (d, i) => (contents d, iterDeref d i) | _ => (none, .ub)) = (some [10, 11, 17, 18], .value 17) := by decide
example : ¬ WrapHazard (ex9 4) 2 7 := by unfold WrapHazard; decide
example : (match appendRange exEnv (ex9 4) [some 1, none, some 3] with | .exc .ctor d => contents d | _ => none) =
    some [10, 11, 12, 13, 14, 15, 16, 17, 18] := by decide
example : at_ (ex9 4) 8 = .value 18 ∧ at_ (ex9 4) 9 = .outOfRange := by decide
example : after (resize exEnv (ex9 4) 2 0) = some [10, 11] ∧ after (resize exEnv empty 3 5) = some [5, 5, 5] := by decide
example : Reach exEnv (empty : Deq Nat) [] ∧ (Op.pushFront (some 3) : Op Nat).Pre [] := ⟨.init, trivial⟩
example : iterAdd 255 (ex9 4) (wrap (ex9 4) 7) (-5) = wrap (ex9 4) 2 ∧
    iterDiff (ex9 4) 255 (wrap (ex9 4) 2) (wrap (ex9 4) 7) = -5 := by decide
example : after (copyAssignSelf exEnv (ex9 4)) = some [] := by decide

end Verif.Deque
