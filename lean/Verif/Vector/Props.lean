import Verif.Vector.Lemmas
/-
Properties C15, C17, C18, C19, C59, C60, C62 of `core::Vector`.
-/
set_option linter.unusedSimpArgs false
set_option linter.unusedVariables false
namespace Verif.Vector
open Uninit Spec
variable {α : Type u}

/-! ## Helper facts -/

theorem contents_eq {E : Env} {v : Vec α} {xs : List α} (h : Holds E v xs) : contents v = some xs := by
  have key : ∀ n, n ≤ xs.length → (List.range n).mapM (index v) = some (xs.take n) := by
    intro n hn
    induction n with
    | zero => simp
    | succ n ih =>
      have := h.cap_le
      have := h.le_cap
      have := h.size
      have hi : index v n = some xs[n] := by
        unfold index
        rw [if_pos (by omega), h.get, List.getElem?_eq_getElem (by omega)]
      rw [List.range_succ, List.mapM_append, ih (by omega)]
      simp only [List.mapM_cons, List.mapM_nil, hi]
      rw [List.take_add_one, List.getElem?_eq_getElem (show n < xs.length by omega)]
      rfl
  unfold contents
  rw [h.size, key _ (Nat.le_refl _), List.take_length]

theorem good_of_ok {E : Env} {v v' : Vec α} {need : Nat} {throws : Prop} {eff excEff : List α} {o : Out (Vec α)}
    (ho : o = .ok v') (h : Holds E v' eff) (ht : ¬ throws) (hc : v'.cap = v.cap) (hg : v'.gen = v.gen)
    (hn : need ≤ v.cap) : Good E v need throws eff excEff o :=
  .inl ⟨v', ho, h, ht, by omega, by omega, fun _ => ⟨hc, hg⟩⟩

theorem replicate_throws (n : Nat) (x : α) : ¬ none ∈ List.replicate n (some x) := by
  simp [List.mem_replicate]

theorem values_replicate (n : Nat) (x : α) : values (List.replicate n (some x)) = List.replicate n x := by
  induction n with
  | zero => rfl
  | succ n ih =>
    rw [List.replicate_succ, List.replicate_succ, ← ih]; rfl

/-- The elements are taken over unchanged by `Good` with a weaker description of a throwing constructor. -/
theorem Good.mono {E : Env} {v : Vec α} {need : Nat} {throws throws' : Prop} {eff excEff : List α} {o : Out (Vec α)}
    (h : Good E v need throws eff excEff o) (ht : throws ↔ throws') : Good E v need throws' eff excEff o := by
  rwa [show throws = throws' from propext ht] at h

theorem resize_good {E : Env} (hsz : 0 < E.sz) {v : Vec α} {xs : List α} (h : Holds E v xs) {n : Nat} {x : α}
    (hp : n ≤ xs.length ∨ xs = []) :
    Good E v n False (xs.take n ++ List.replicate (n - xs.length) x) xs (resize E v n x) := by
  have hs := h.size
  have := h.cap_le
  have := h.le_cap
  unfold resize
  split_ifs with h1
  · rw [destroy_ok, map_ok, bind_ok]
    · refine good_of_ok rfl (holds_set h _ _ rfl ?_ (by omega) ?_) (by simp) (by simp) (by simp) (by omega)
      · simp; omega
      · intro j
        rw [over_get, h.get, show n - xs.length = 0 by omega, List.replicate_zero, List.append_nil,
          List.getElem?_take]
        split_ifs <;> first | rfl | omega | (rw [List.getElem?_eq_none (by omega)])
    · right; omega
    · intro j h2 h3; exact isSome_get h (by omega)
  · have hx : xs = [] := by rcases hp with hp | hp; omega; exact hp
    subst hx
    have hr := reserve_spec hsz h n
    have hr' : ResOk E v [] n (reserve E v n) := by
      rcases hr with ⟨hr, he⟩ | ⟨_, hr⟩
      · rw [he]; exact .inl ⟨v, rfl, h, by omega, hr, fun _ => rfl⟩
      · simpa using hr
    have key : Good E v n False (List.replicate n x) []
        ((reserve E v n).bind fun v => ((safeFill v.mem v.size 0 (List.replicate n (some x))).map v.setMem).bind
          fun v => .ok { v with size := v.size + n }) := by
      refine resOk_bind hr' h fun v' h' hc => ?_
      have hs0 : v'.size = 0 := h'.size
      have := h'.cap_le
      rw [safeFill_eq]
      · have := fill_aux h' (List.replicate n (some x)) (by simpa using hc)
        simp only [List.length_replicate, List.length_nil, Nat.zero_add, values_replicate, List.nil_append] at this
        exact this.mono (by simp)
      · right; simp; omega
      · intro j hj _; exact get_none h' hj
    have hz : n - ([] : List α).length = n := rfl
    rw [hz, List.take_nil, List.nil_append]
    revert key
    rcases hr' with ⟨v', he, h', _, hc, _⟩ | ⟨e, he, _⟩
    · rw [he, bind_ok, bind_ok]
      have h0 : v'.size = 0 := h'.size
      have := h'.cap_le
      rw [safeFill_eq _ _ _ (by right; simp; omega) (fun j hj _ => get_none h' hj)]
      unfold fillOut
      split_ifs
      · rw [map_ok, bind_ok, bind_ok]
        simp only [size_setMem, h0, Nat.zero_add]
        exact id
      · rw [map_exc, bind_exc, bind_exc]; exact id
    · rw [he, bind_exc, bind_exc, bind_exc]; exact id

theorem assign_good {E : Env} {v : Vec α} {xs ys : List α} (h : Holds E v xs)
    {f : Vec α → Out (Vec α)} {need : Nat} {throws : Prop}
    (hf : ∀ v', Holds E v' [] → Good E v' need throws ys [] (f v')) :
    Good E v need throws ys [] ((clear v).bind f) := by
  obtain ⟨v', e1, e2, e3, e4⟩ := clear_spec h
  rw [e1, bind_ok]
  rcases hf v' e2 with ⟨w, a1, a2, a3, a4, a5, a6⟩ | ⟨e, w, a1, a2, a3, a4, a5⟩
  · exact .inl ⟨w, a1, a2, a3, by omega, a5, fun hc => by rw [← e3, ← e4]; exact a6 (by omega)⟩
  · refine .inr ⟨e, w, a1, a2, by omega, fun hc => by rw [← e3, ← e4]; exact a4 (by omega), ?_⟩
    rw [← e3]; exact a5

theorem run_good {E : Env} (hsz : 0 < E.sz) {v : Vec α} {xs : List α} (h : Holds E v xs) (op : Op α)
    (hp : op.Pre xs) (hns : op ≠ .shrinkToFit) (hnr : ∀ n, op ≠ .reserve n) :
    Good E v (op.need xs) op.Throws (op.effect xs) (op.excEffect xs) (run E v op) := by
  have hs := h.size
  have hle := h.le_cap
  cases op with
  | pushBack x => exact emplaceBack_spec hsz h x
  | popBack =>
    obtain ⟨v', e1, e2, e3, e4⟩ := popBack_spec h hp
    exact good_of_ok e1 e2 (fun hc => hc) e3 e4 (by simp only [Op.need]; omega)
  | appendFill n x =>
    have := appendFill_spec hsz h (List.replicate n (some x))
    rw [values_replicate, List.length_replicate] at this
    exact this.mono ⟨fun hc => replicate_throws n x hc, False.elim⟩
  | appendRange ys => exact appendRange_spec hsz h ys
  | insert i x => exact insert_spec hsz h hp x
  | erase i j =>
    obtain ⟨v', e1, e2, e3, e4⟩ := erase_spec h hp.1 hp.2
    exact good_of_ok e1 e2 (fun hc => hc) e3 e4 (by simp only [Op.need]; omega)
  | clear =>
    obtain ⟨v', e1, e2, e3, e4⟩ := clear_spec h
    exact good_of_ok e1 e2 (fun hc => hc) e3 e4 (by simp only [Op.need]; omega)
  | reserve n => exact absurd rfl (hnr n)
  | reserveExtra n =>
    rcases reserveExtra_spec hsz h n with ⟨v', e1, e2, e3, e4, e5⟩ | ⟨e, e1, e2, e3, e4⟩
    · exact .inl ⟨v', e1, e2, fun hc => hc, e3, e4, fun hc => by rw [e5 hc]; exact ⟨rfl, rfl⟩⟩
    · exact .inr ⟨e, v, e1, h, Nat.le_refl _, fun _ => ⟨rfl, rfl⟩, .inr ⟨e2, e3, e4⟩⟩
  | shrinkToFit => exact absurd rfl hns
  | assignFill n x =>
    refine assign_good h fun v' h' => ?_
    have := appendFill_spec hsz h' (List.replicate n (some x))
    rw [values_replicate, List.length_replicate, List.length_nil, Nat.zero_add, List.nil_append] at this
    exact this.mono ⟨fun hc => replicate_throws n x hc, False.elim⟩
  | assignRange ys =>
    refine assign_good h fun v' h' => ?_
    have := appendRange_spec hsz h' ys
    rwa [List.length_nil, Nat.zero_add, List.nil_append] at this
  | resize n x => exact resize_good hsz h hp

/-! ## C17 -/

/-- C17: every allowed operation, on a vector that holds a sequence of elements and nothing else, either completes and
makes the vector hold the sequence given by the specification, or throws and leaves the vector holding what it held
before (after `assign`: nothing). There is no access outside the memory of the vector, no use of objects that do
not exist, and no object is left behind. An exception is due to a constructor of the element type that throws, or to a
lack of memory when the capacity is exceeded (or `shrink_to_fit()` was called). -/
theorem C17_step {E : Env} (hsz : 0 < E.sz) {v : Vec α} {xs : List α} (h : Holds E v xs) (op : Op α)
    (hp : op.Pre xs) :
    (∃ v', run E v op = .ok v' ∧ Holds E v' (op.effect xs) ∧ ¬ op.Throws) ∨
    (∃ e v', run E v op = .exc e v' ∧ Holds E v' (op.excEffect xs) ∧
      ((e = .ctor ∧ op.Throws) ∨
       (e ≠ .ctor ∧ (v.cap < op.need xs ∨ op = .shrinkToFit) ∧
         ¬ ∀ k, 2 * k ≤ 3 * op.need xs → Env.CanAlloc E k))) := by
  by_cases hsh : op = .shrinkToFit
  · subst hsh
    show (∃ v', shrinkToFit E v = .ok v' ∧ _) ∨ (∃ e v', shrinkToFit E v = .exc e v' ∧ _)
    unfold shrinkToFit
    split_ifs with hc
    · have h1 := h.le_cap
      have h2 := h.cap_max
      rcases realloc_spec h (Nat.le_refl v.size) (by omega) with ⟨v', e1, e2, _⟩ | ⟨e, e1, e2, e3⟩
      · exact .inl ⟨v', e1, e2, fun hc => hc⟩
      · refine .inr ⟨e, v, e1, h, .inr ⟨e2, .inr rfl, fun hr => e3 (hr v.size ?_)⟩⟩
        rw [h.size]; simp only [Op.need]; omega
    · exact .inl ⟨v, rfl, h, fun hc => hc⟩
  · by_cases hrs : ∃ n, op = .reserve n
    · obtain ⟨n, rfl⟩ := hrs
      rcases reserve_spec hsz h n with ⟨_, e1⟩ | ⟨_, ⟨v', e1, e2, _⟩ | ⟨e, e1, e2, e3, e4⟩⟩
      · exact .inl ⟨v, e1, h, fun hc => hc⟩
      · exact .inl ⟨v', e1, e2, fun hc => hc⟩
      · exact .inr ⟨e, v, e1, h, .inr ⟨e2, .inl e3, e4⟩⟩
    · rcases run_good hsz h op hp hsh (fun n hn => hrs ⟨n, hn⟩) with ⟨v', e1, e2, e3, _⟩ | ⟨e, v', e1, e2, _, _, e5⟩
      · exact .inl ⟨v', e1, e2, e3⟩
      · refine .inr ⟨e, v', e1, e2, ?_⟩
        rcases e5 with e5 | ⟨e5, e6, e7⟩
        · exact .inl e5
        · exact .inr ⟨e5, .inl e6, e7⟩

/-- C17: in every execution of a program that performs any history of allowed operations on a vector with any inline
capacity, the contents of the vector are those of the sequence, and no operation has undefined behavior or fails an
assertion. -/
theorem C17_history {E : Env} (hsz : 0 < E.sz) {N : Nat} (hN : N ≤ E.M) {v : Vec α} {xs : List α}
    (h : Reach E N v xs) :
    Holds E v xs ∧ contents v = some xs ∧
      ∀ op : Op α, op.Pre xs → run E v op ≠ .ub ∧ run E v op ≠ .abort := by
  have hh : Holds E v xs := by
    induction h with
    | init => exact holds_empty hN
    | ok _ hp hr ih =>
      rcases C17_step hsz ih _ hp with ⟨w, e1, e2, _⟩ | ⟨e, w, e1, _⟩
      · rw [hr] at e1; cases e1; exact e2
      · rw [hr] at e1; cases e1
    | exc _ hp hr ih =>
      rcases C17_step hsz ih _ hp with ⟨w, e1, e2, _⟩ | ⟨e, w, e1, e2, _⟩
      · rw [hr] at e1; cases e1
      · rw [hr] at e1; cases e1; exact e2
  refine ⟨hh, contents_eq hh, fun op hp => ?_⟩
  rcases C17_step hsz hh op hp with ⟨w, e1, _⟩ | ⟨e, w, e1, _⟩ <;> rw [e1] <;> simp

/-- C17: the destructor destroys every object. -/
theorem C17_destroy {E : Env} {v : Vec α} {xs : List α} (h : Holds E v xs) :
    ∃ v', destroyAll v = .ok v' ∧ (∀ j, v'.mem.get j = none) ∧ (∀ j, v'.static.get j = none) := by
  have := h.cap_le
  have := h.le_cap
  have hs := h.size
  unfold destroyAll
  rw [destroy_ok, map_ok]
  · refine ⟨_, rfl, ?_, ?_⟩
    · intro j
      rw [mem_setMem, over_get]
      split_ifs
      · rfl
      · exact get_none h (by omega)
    · intro j
      have hst := h.static
      revert hst
      unfold Vec.setMem
      cases hd : v.data with
      | static =>
        intro _
        dsimp only
        rw [over_get]
        split_ifs
        · rfl
        · exact get_none h (by omega)
      | heap m => intro hst; exact hst (by simp) j
      | null m => intro hst; exact hst (by simp) j
  · right; omega
  · intro j h1 h2; exact isSome_get h (by omega)

theorem move_spec {E : Env} {N : Nat} {v o : Vec α} {xs : List α} (hv : Holds E v []) (hd : v.data = .static)
    (hN : v.static.size = N) (ho : Holds E o xs) (hoN : o.static.size = N) (hdn : ∀ m, o.data = .null m → m.size = 0) :
    ∃ v' o', move v o = .ok (v', o') ∧ Holds E v' xs ∧ Holds E o' [] ∧ v'.cap = o.cap ∧ o'.cap = 0 := by
  have h1 := ho.cap_le
  have h2 := ho.le_cap
  have h3 := ho.size
  have hv0 : v.size = 0 := hv.size
  have hvm : v.mem = v.static := by unfold Vec.mem; rw [hd]
  unfold move
  rw [if_neg (by unfold Vec.owned; rw [hd]; simp), if_neg (by omega)]
  cases hod : o.data with
  | heap m =>
    dsimp only
    have hom : o.mem = m := by unfold Vec.mem; rw [hod]
    refine ⟨_, _, rfl, ⟨h3, h2, ?_, ho.cap_max, ?_, ?_⟩, ⟨rfl, Nat.le_refl _, Nat.le_refl _, Nat.zero_le _, ?_, ?_⟩,
      rfl, rfl⟩
    · show o.cap ≤ m.size; rw [← hom]; exact h1
    · intro j; show m.get j = _; rw [← hom]; exact ho.get j
    · intro _ j
      show v.static.get j = none
      rw [← hvm]
      exact get_none hv (by omega)
    · intro j; rfl
    · intro _ j; exact ho.static (by rw [hod]; simp) j
  | static =>
    dsimp only
    have hom : o.mem = o.static := by unfold Vec.mem; rw [hod]
    rw [hom] at h1
    rw [safeMove_ok]
    · dsimp only
      refine ⟨_, _, rfl, ⟨?_, ?_, ?_, ?_, ?_, ?_⟩, ⟨rfl, Nat.le_refl _, Nat.zero_le _, Nat.zero_le _, ?_, ?_⟩, rfl, rfl⟩
      · exact h3
      · exact h2
      · show o.cap ≤ (v.setMem _).mem.size
        rw [mem_setMem, over_size, hvm]; omega
      · exact ho.cap_max
      · intro j
        show (v.setMem _).mem.get j = _
        rw [mem_setMem, over_get]
        split_ifs with hj
        · rw [ho.get, Nat.zero_add, Nat.sub_zero]
        · rw [get_none hv (by omega), List.getElem?_eq_none (by omega)]
      · exact static_setMem _ hv.static
      · intro j
        show (o.setMem _).mem.get j = _
        rw [mem_setMem, over_get]
        split_ifs
        · rfl
        · rw [get_none ho (by omega)]; rfl
      · exact static_setMem _ ho.static
    · right; rw [hom]; omega
    · right; rw [hvm]; omega
    · intro j _ hj; exact isSome_get ho (by omega)
    · intro j _ _; exact get_none hv (by omega)
  | null m =>
    dsimp only
    have hom : o.mem = m := by unfold Vec.mem; rw [hod]
    rw [hom, hdn m hod] at h1
    have hz : o.size = 0 := by omega
    have hx : xs = [] := List.length_eq_zero_iff.1 (by omega)
    subst hx
    rw [safeMove_ok]
    · dsimp only
      refine ⟨_, _, rfl, ⟨?_, ?_, ?_, ?_, ?_, ?_⟩, ⟨rfl, Nat.le_refl _, Nat.zero_le _, Nat.zero_le _, ?_, ?_⟩, rfl, rfl⟩
      · exact h3
      · exact h2
      · show o.cap ≤ _; omega
      · exact ho.cap_max
      · intro j
        show (v.setMem _).mem.get j = _
        rw [mem_setMem, over_get]
        split_ifs with hj
        · omega
        · rw [get_none hv (by omega), List.getElem?_eq_none (by simp)]
      · exact static_setMem _ hv.static
      · intro j
        show (o.setMem _).mem.get j = _
        rw [mem_setMem, over_get]
        split_ifs
        · rfl
        · rw [get_none ho (by omega)]; rfl
      · exact static_setMem _ ho.static
    · left; exact hz
    · left; exact hz
    · intro j _ hj; omega
    · intro j _ hj; omega

/-- A vector object of the type with inline capacity `N`. -/
def Shaped (N : Nat) (v : Vec α) : Prop := v.static.size = N ∧ ∀ m, v.data = .null m → m.size = 0

/-- C17: move construction transfers the sequence and leaves the other vector empty. -/
theorem C17_moveConstruct {E : Env} {N : Nat} (hN : N ≤ E.M) {o : Vec α} {xs : List α} (ho : Holds E o xs)
    (hs : Shaped N o) :
    ∃ v' o', moveConstruct N o = .ok (v', o') ∧ Holds E v' xs ∧ Holds E o' [] ∧ v'.cap = o.cap := by
  obtain ⟨v', o', h1, h2, h3, h4, _⟩ := move_spec (v := (empty N : Vec α)) (holds_empty hN) rfl rfl ho hs.1 hs.2
  exact ⟨v', o', h1, h2, h3, h4⟩

/-- C17: move assignment, for two different vectors, destroys the old elements, transfers the sequence and leaves the
other vector empty. -/
theorem C17_moveAssign {E : Env} {N : Nat} (hN : N ≤ E.M) {v o : Vec α} {ys xs : List α} (hv : Holds E v ys)
    (hvs : Shaped N v) (ho : Holds E o xs) (hs : Shaped N o) :
    ∃ v' o', moveAssign N v o = .ok (v', o') ∧ Holds E v' xs ∧ Holds E o' [] ∧ v'.cap = o.cap := by
  obtain ⟨w, hw, _, hw2⟩ := C17_destroy hv
  have hws : w.static.size = N := by
    revert hw
    unfold destroyAll
    have := hv.cap_le
    have := hv.le_cap
    rw [destroy_ok, map_ok]
    · intro hw
      cases hw
      rw [← hvs.1]
      unfold Vec.setMem
      cases hd : v.data with
      | static => show v.mem.size = _; unfold Vec.mem; rw [hd]
      | heap m => rfl
      | null m => rfl
    · right; omega
    · intro j h1 h2; exact isSome_get hv (by omega)
  unfold moveAssign reset
  rw [hw, bind_ok]
  dsimp only
  have hh : Holds E ({ w with data := .static, cap := N, size := 0, gen := w.gen + 1 } : Vec α) [] := by
    refine ⟨rfl, Nat.zero_le _, ?_, hN, fun j => hw2 j, fun hc => absurd rfl hc⟩
    show N ≤ w.static.size
    omega
  obtain ⟨v', o', h1, h2, h3, h4, _⟩ := move_spec hh rfl hws ho hs.1 hs.2
  exact ⟨v', o', h1, h2, h3, h4⟩

/-- Appending from an input iterator is repeated `push_back()`. -/
theorem C17_appendInput {E : Env} (hsz : 0 < E.sz) {v : Vec α} {xs : List α} (h : Holds E v xs) (ys : List α) :
    (∃ v', appendInput E v (ys.map some) = .ok v' ∧ Holds E v' (xs ++ ys)) ∨
    (∃ e v' k, appendInput E v (ys.map some) = .exc e v' ∧ Holds E v' (xs ++ ys.take k) ∧ k < ys.length ∧
      e ≠ .ctor) := by
  induction ys generalizing v xs with
  | nil => exact .inl ⟨v, rfl, by simpa using h⟩
  | cons y ys ih =>
    rw [List.map_cons, appendInput]
    rcases emplaceBack_spec hsz h (some y) with ⟨w, e1, e2, _⟩ | ⟨e, w, e1, e2, _, _, e5⟩
    · rw [e1, bind_ok]
      have e2' : Holds E w (xs ++ [y]) := e2
      rcases ih e2' with ⟨v', a1, a2⟩ | ⟨e, v', k, a1, a2, a3, a4⟩
      · exact .inl ⟨v', a1, by simpa using a2⟩
      · exact .inr ⟨e, v', k + 1, a1, by simpa using a2, by simpa using a3, a4⟩
    · rw [e1, bind_exc]
      refine .inr ⟨e, w, 0, rfl, by simpa using e2, by simp, ?_⟩
      rcases e5 with ⟨_, h0⟩ | ⟨h0, _⟩
      · cases h0
      · exact h0

/-! ## C59: exception safety -/

/-- C59: if an operation other than `assign` throws, the elements of the vector are as they were. -/
theorem C59_vector {E : Env} (hsz : 0 < E.sz) {v v' : Vec α} {xs : List α} (h : Holds E v xs) (op : Op α)
    (hp : op.Pre xs) (ha : ∀ n x, op ≠ .assignFill n x) (ha' : ∀ ys, op ≠ .assignRange ys) {e : Exc}
    (hr : run E v op = .exc e v') : Holds E v' xs := by
  rcases C17_step hsz h op hp with ⟨w, e1, _⟩ | ⟨e', w, e1, e2, _⟩
  · rw [hr] at e1; cases e1
  · rw [hr] at e1; cases e1
    cases op with
    | assignFill n x => exact absurd rfl (ha n x)
    | assignRange ys => exact absurd rfl (ha' ys)
    | _ => exact e2

/-! ## C62: capacity -/

/-- C62: an operation other than `shrink_to_fit()` that needs no more than the current capacity does not reallocate
and keeps the capacity, whether it succeeds or throws; and no operation other than `shrink_to_fit()` reduces the
capacity. -/
theorem C62_capacity {E : Env} (hsz : 0 < E.sz) {v : Vec α} {xs : List α} (h : Holds E v xs) (op : Op α)
    (hp : op.Pre xs) (hns : op ≠ .shrinkToFit) (v' : Vec α)
    (hr : run E v op = .ok v' ∨ ∃ e, run E v op = .exc e v') :
    v.cap ≤ v'.cap ∧ (op.need xs ≤ v.cap → v'.cap = v.cap ∧ v'.gen = v.gen) := by
  by_cases hrs : ∃ n, op = .reserve n
  · obtain ⟨n, rfl⟩ := hrs
    have hr' : reserve E v n = .ok v' ∨ ∃ e, reserve E v n = .exc e v' := hr
    rcases reserve_spec hsz h n with ⟨_, e1⟩ | ⟨_, ⟨w, e1, e2, e3, e4, e5⟩ | ⟨e, e1, e2, e3, e4⟩⟩
    · rw [e1] at hr'
      rcases hr' with hr' | ⟨_, hr'⟩ <;> cases hr'
      exact ⟨Nat.le_refl _, fun _ => ⟨rfl, rfl⟩⟩
    · rw [e1] at hr'
      rcases hr' with hr' | ⟨_, hr'⟩ <;> cases hr'
      exact ⟨e3, fun hc => by rw [e5 hc]; exact ⟨rfl, rfl⟩⟩
    · rw [e1] at hr'
      rcases hr' with hr' | ⟨_, hr'⟩ <;> cases hr'
      exact ⟨Nat.le_refl _, fun _ => ⟨rfl, rfl⟩⟩
  · rcases run_good hsz h op hp hns (fun n hn => hrs ⟨n, hn⟩) with
      ⟨w, e1, e2, e3, e4, e5, e6⟩ | ⟨e, w, e1, e2, e3, e4, e5⟩
    · rw [e1] at hr
      rcases hr with hr | ⟨_, hr⟩ <;> cases hr
      exact ⟨e4, e6⟩
    · rw [e1] at hr
      rcases hr with hr | ⟨_, hr⟩ <;> cases hr
      exact ⟨e3, e4⟩

/-- C62: `shrink_to_fit()` reduces the capacity to the size when the vector owns memory, and otherwise does nothing. -/
theorem C62_shrink {E : Env} {v v' : Vec α} {xs : List α} (h : Holds E v xs) (hr : shrinkToFit E v = .ok v') :
    Holds E v' xs ∧ (v.owned = true → v'.cap = xs.length) ∧ (v.owned = false → v' = v) := by
  have hs := h.size
  have hle := h.le_cap
  have hM := h.cap_max
  unfold shrinkToFit at hr
  split_ifs at hr with hc
  · rcases realloc_spec h (Nat.le_refl v.size) (by omega) with ⟨w, e1, e2, e3, _⟩ | ⟨e, e1, _⟩
    · rw [e1] at hr
      cases hr
      exact ⟨e2, fun _ => by omega, fun hf => by rw [hc.1] at hf; cases hf⟩
    · rw [e1] at hr; cases hr
  · cases hr
    refine ⟨h, fun ho => ?_, fun _ => rfl⟩
    rw [ho] at hc
    simp only [true_and] at hc
    omega

/-! ## C15: checked access -/

/-- C15 for vectors: `at(i)` is element `i` when there is one, and throws otherwise. -/
theorem C15_vector {E : Env} {v : Vec α} {xs : List α} (h : Holds E v xs) (i : Nat) :
    at_ v i = if hi : i < xs.length then .value xs[i] else .outOfRange := by
  have hs := h.size
  have := h.cap_le
  have := h.le_cap
  unfold at_ index
  by_cases h1 : i < xs.length
  · rw [if_pos (by omega), if_pos (by omega), h.get, dif_pos h1, List.getElem?_eq_getElem h1]
  · rw [if_neg (by omega), dif_neg h1]

/-! ## C18: resize -/

/-- What `resize(n, x)` is supposed to do. -/
def ResizeOk (E : Env) (v : Vec α) (xs : List α) (n : Nat) (x : α) : Prop :=
  (∃ v', resize E v n x = .ok v' ∧ Holds E v' (xs.take n ++ List.replicate (n - xs.length) x)) ∨
  (∃ e, resize E v n x = .exc e v ∧ e ≠ .ctor ∧ v.cap < n)

/-- C18, partial: `resize()` is right when it does not grow a non-empty vector. Missing: growing a non-empty vector,
for which the property is false, see `C18_resize_defect` and `C18_resize_leak`. -/
theorem C18_resize_partial {E : Env} (hsz : 0 < E.sz) {v : Vec α} {xs : List α} (h : Holds E v xs) (n : Nat) (x : α)
    (hp : n ≤ xs.length ∨ xs = []) : ResizeOk E v xs n x := by
  have hs := h.size
  rcases resize_good hsz h (x := x) hp with ⟨v', e1, e2, _⟩ | ⟨e, v', e1, e2, e3, e4, e5⟩
  · exact .inl ⟨v', e1, e2⟩
  · right
    have hne : e ≠ .ctor ∧ v.cap < n := by
      rcases e5 with ⟨_, h0⟩ | ⟨h0, h1, _⟩
      · exact absurd h0 (fun hc => hc)
      · exact ⟨h0, h1⟩
    refine ⟨e, ?_, hne⟩
    have hgt : ¬ n ≤ v.size := by have := h.le_cap; omega
    unfold resize at e1 ⊢
    rw [if_neg hgt] at e1 ⊢
    rcases reserve_spec hsz h n with ⟨hc, _⟩ | ⟨_, ⟨w, a1, a2, a3, a4, a5⟩ | ⟨e', a1, a2, a3, a4⟩⟩
    · omega
    · exfalso
      rw [a1, bind_ok] at e1
      have := a2.size
      have := a2.cap_le
      rw [safeFill_eq _ _ _ (by right; simp; omega) (fun j hj _ => get_none a2 hj)] at e1
      unfold fillOut at e1
      rw [if_pos (by simp)] at e1
      cases e1
    · rw [a1] at e1 ⊢
      simp only [bind_exc] at e1 ⊢
      cases e1
      rfl

/-- What is true of growing a non-empty vector: if the surplus objects that it constructs happen to fit in the
capacity, or if it reallocates, the vector ends up with the right elements; but as many surplus objects as there were
elements are left in its memory. -/
theorem C18_resize_leak {E : Env} (hsz : 0 < E.sz) {v : Vec α} {xs : List α} (h : Holds E v xs) {n : Nat} {x : α}
    (hn : xs.length < n) (hcap : xs.length + n ≤ v.cap ∨ v.cap < n) :
    (∃ v', resize E v n x = .ok v' ∧ contents v' = some (xs ++ List.replicate (n - xs.length) x) ∧
      ∀ j, n ≤ j → j < n + xs.length → v'.mem.get j = some x) ∨
    (∃ e, resize E v n x = .exc e v ∧ e ≠ .ctor) := by
  have hs := h.size
  have key : ∀ w : Vec α, Holds E w xs → xs.length + n ≤ w.cap →
      ∃ v', ((safeFill w.mem w.size 0 (List.replicate n (some x))).map w.setMem).bind
        (fun v => .ok { v with size := n }) = .ok v' ∧
        contents v' = some (xs ++ List.replicate (n - xs.length) x) ∧
        ∀ j, n ≤ j → j < n + xs.length → v'.mem.get j = some x := by
    intro w hw hc
    have h1 := hw.size
    have h2 := hw.cap_le
    rw [safeFill_eq _ _ _ (by right; simp; omega) (fun j hj _ => get_none hw hj)]
    unfold fillOut
    rw [if_pos (by simp), map_ok, bind_ok]
    have hg : ∀ j, (w.mem.over w.size (List.replicate n (some x)).length
        fun k => (List.replicate n (some x))[k]?.join).get j =
        (xs ++ List.replicate n x)[j]? := by
      intro j
      rw [over_get, hw.get, List.getElem?_append, h1, List.length_replicate]
      split_ifs with a b b
      · omega
      · rw [List.getElem?_replicate, List.getElem?_replicate]
        split_ifs <;> rfl
      · rfl
      · rw [List.getElem?_eq_none (by omega), List.getElem?_eq_none (by simp; omega)]
    refine ⟨_, rfl, ?_, ?_⟩
    · -- compare with a vector that has the surplus objects as elements
      have hfull := holds_set (ys := xs ++ List.replicate n x) hw
        (w.mem.over w.size (List.replicate n (some x)).length fun k => (List.replicate n (some x))[k]?.join)
        (xs.length + n) rfl (by simp) hc hg
      have hc := contents_eq hfull
      unfold contents at hc ⊢
      have hidx : ∀ k, index ({ w.setMem (w.mem.over w.size (List.replicate n (some x)).length
          fun k => (List.replicate n (some x))[k]?.join) with size := n } : Vec α) k =
          if k < w.mem.size then (xs ++ List.replicate n x)[k]? else none := by
        intro k
        unfold index
        have hm : ({ w.setMem (w.mem.over w.size (List.replicate n (some x)).length
          fun k => (List.replicate n (some x))[k]?.join) with size := n } : Vec α).mem =
          w.mem.over w.size (List.replicate n (some x)).length fun k => (List.replicate n (some x))[k]?.join :=
          mem_setMem _ _
        rw [hm, over_size, hg]
      have key2 : ∀ m, m ≤ n → (List.range m).mapM (index ({ w.setMem (w.mem.over w.size
          (List.replicate n (some x)).length fun k => (List.replicate n (some x))[k]?.join) with size := n } :
          Vec α)) = some ((xs ++ List.replicate n x).take m) := by
        intro m hm
        induction m with
        | zero => simp
        | succ m ih =>
          have hlt : m < (xs ++ List.replicate n x).length := by simp; omega
          rw [List.range_succ, List.mapM_append, ih (by omega)]
          simp only [List.mapM_cons, List.mapM_nil, hidx]
          rw [if_pos (by omega), List.getElem?_eq_getElem hlt, List.take_add_one, List.getElem?_eq_getElem hlt]
          rfl
      show (List.range n).mapM _ = _
      rw [key2 n (Nat.le_refl n), List.take_append, List.take_of_length_le (by omega), List.take_replicate]
      congr 3
      omega
    · intro j hj1 hj2
      show (w.setMem _).mem.get j = _
      rw [mem_setMem, hg, List.getElem?_append_right (by omega), List.getElem?_replicate, if_pos (by omega)]
  unfold resize
  rw [if_neg (by omega)]
  rcases reserve_spec hsz h n with ⟨hc, e1⟩ | ⟨_, ⟨w, a1, a2, a3, a4, a5⟩ | ⟨e', a1, a2, a3, a4⟩⟩
  · rw [e1, bind_ok]; exact .inl (key v h (by omega))
  · rw [a1, bind_ok]; exact .inl (key w a2 (by omega))
  · rw [a1]; exact .inr ⟨e', rfl, a2⟩

/-- An environment for examples: 64-bit sizes, four byte elements. -/
def exEnv : Env := ⟨2 ^ 64 - 1, 4, fun _ => true⟩

/-- A vector with five inline slots and three elements. -/
def ex3 : Vec Nat := ⟨⟨5, fun j => [10, 11, 12][j]?⟩, .static, 5, 3, 0⟩

theorem ex3_holds : Holds exEnv ex3 [10, 11, 12] :=
  ⟨rfl, by decide, by decide, by decide, fun _ => rfl, fun h => absurd rfl h⟩

/-- C18 is false: growing a vector from three to five elements, with room for five, constructs objects past the end of
the memory of the vector. -/
theorem C18_resize_defect : resize exEnv ex3 5 0 = .ub ∧ ¬ ResizeOk exEnv ex3 [10, 11, 12] 5 0 := by
  have h : resize exEnv ex3 5 0 = .ub := by rfl
  refine ⟨h, ?_⟩
  rintro (⟨v', h1, _⟩ | ⟨e, h1, _⟩) <;> rw [h] at h1 <;> cases h1

/-! ## C19: reserve -/

/-- What `reserve(n)` is supposed to do. -/
def ReserveOk (E : Env) (v : Vec α) (xs : List α) (n : Nat) : Prop :=
  (∃ v', reserve E v n = .ok v' ∧ Holds E v' xs ∧ n ≤ v'.cap ∧ (n ≤ v.cap → v' = v)) ∨
  (∃ e, reserve E v n = .exc e v ∧ e ≠ .ctor ∧ v.cap < n ∧ ¬ ∀ k, 2 * k ≤ 3 * n → Env.CanAlloc E k)

/-- C19, partial: `reserve()` does what it should, if the allocator can provide for `size() + n` elements, or if it
cannot provide for `n` elements. Missing: a request for `n` elements should not fail for lack of memory for
`size() + n` elements, see `C19_reserve_defect`. -/
theorem C19_reserve_partial {E : Env} (hsz : 0 < E.sz) {v : Vec α} {xs : List α} (h : Holds E v xs) (n : Nat)
    (hp : (∀ k, 2 * k ≤ 3 * (xs.length + n) → Env.CanAlloc E k) ∨ ¬ ∀ k, 2 * k ≤ 3 * n → Env.CanAlloc E k) :
    ReserveOk E v xs n := by
  rcases reserve_spec hsz h n with ⟨hc, e1⟩ | ⟨hc, ⟨w, a1, a2, a3, a4, a5⟩ | ⟨e', a1, a2, a3, a4⟩⟩
  · exact .inl ⟨v, e1, h, hc, fun _ => rfl⟩
  · exact .inl ⟨w, a1, a2, by omega, fun hcc => by omega⟩
  · rcases hp with hp | hp
    · exact absurd hp a4
    · exact .inr ⟨e', a1, a2, hc, hp⟩

/-- An allocator with 36 bytes. -/
def exEnv36 : Env := ⟨2 ^ 64 - 1, 4, fun n => n ≤ 36⟩

/-- A vector with five inline slots and four elements. -/
def ex4 : Vec Nat := ⟨⟨5, fun j => [10, 11, 12, 13][j]?⟩, .static, 5, 4, 0⟩

theorem ex4_holds : Holds exEnv36 ex4 [10, 11, 12, 13] :=
  ⟨rfl, by decide, by decide, by decide, fun _ => rfl, fun h => absurd rfl h⟩

/-- C19 is false: with memory for nine elements, and four elements in a vector with a capacity of five, reserving a
capacity of six throws, because it asks for a capacity of ten. -/
theorem C19_reserve_defect :
    reserve exEnv36 ex4 6 = .exc .badAlloc ex4 ∧ ¬ ReserveOk exEnv36 ex4 [10, 11, 12, 13] 6 := by
  have h : reserve exEnv36 ex4 6 = .exc .badAlloc ex4 := by rfl
  refine ⟨h, ?_⟩
  rintro (⟨v', h1, _⟩ | ⟨e, h1, _, _, h2⟩)
  · rw [h] at h1; cases h1
  · apply h2
    intro k hk
    refine ⟨?_, ?_⟩
    · show k * 4 ≤ 2 ^ 64 - 1; omega
    · show decide (k * 4 ≤ 36) = true
      exact decide_eq_true (by omega)

/-! ## C60: pushing a copy of an element of the vector itself -/

/-- What `v.push_back(v[i])` is supposed to do. -/
def PushOwnOk (E : Env) (v : Vec α) (xs : List α) (i : Nat) : Prop :=
  (∃ v' x, xs[i]? = some x ∧ pushBackOwn E v i = .ok v' ∧ Holds E v' (xs ++ [x])) ∨
  (∃ e, pushBackOwn E v i = .exc e v ∧ e ≠ .ctor ∧ v.cap < xs.length + 1)

/-- C60 for vectors, partial: pushing a copy of an element of the vector itself works if there is room for it.
Missing: the case where the memory is reallocated, see `C60_vector_defect`. -/
theorem C60_vector_partial {E : Env} {v : Vec α} {xs : List α} (h : Holds E v xs) {i : Nat}
    (hi : i < xs.length) (hc : xs.length < v.cap) : PushOwnOk E v xs i := by
  have hs := h.size
  have hm := h.cap_le
  left
  have hx : xs[i]? = some xs[i] := List.getElem?_eq_getElem hi
  obtain ⟨v', e1, e2, _⟩ := emplace_aux h (by omega) xs[i]
  refine ⟨v', xs[i], hx, ?_, e2⟩
  unfold pushBackOwn reserveExtra
  rw [if_pos (by omega), bind_ok, if_pos ⟨rfl, by omega, by rw [h.get, hx]; rfl⟩, h.get, hx]
  exact e1

/-- C60 for vectors: whenever the memory is reallocated, the copy is made from an object that no longer exists. -/
theorem C60_vector_ub {E : Env} (hsz : 0 < E.sz) {v : Vec α} {xs : List α} (h : Holds E v xs) {i : Nat}
    (hi : i < xs.length) (hc : v.cap = xs.length) (ha : ∀ k, 2 * k ≤ 3 * (xs.length + 1) → Env.CanAlloc E k) :
    pushBackOwn E v i = .ub := by
  have hs := h.size
  unfold pushBackOwn
  rcases reserveExtra_spec hsz h 1 with ⟨w, e1, e2, e3, e4, e5⟩ | ⟨e, e1, e2, e3, e4⟩
  · rw [e1, bind_ok, if_neg]
    intro hg
    have : w.gen = v.gen + 1 := by
      unfold reserveExtra at e1
      rw [if_neg (by omega)] at e1
      unfold doReserveExtra doReserve at e1
      split_ifs at e1
      split at e1
      · unfold realloc at e1
        split_ifs at e1
        split at e1
        · split_ifs at e1
          cases e1
          rfl
        all_goals cases e1
      · cases e1
    omega
  · exact absurd ha e4

/-- C60 is false. -/
theorem C60_vector_defect : Holds exEnv (⟨⟨2, fun j => [7, 8][j]?⟩, .static, 2, 2, 0⟩ : Vec Nat) [7, 8] ∧
    ¬ PushOwnOk exEnv (⟨⟨2, fun j => [7, 8][j]?⟩, .static, 2, 2, 0⟩ : Vec Nat) [7, 8] 0 := by
  refine ⟨⟨rfl, by decide, by decide, by decide, fun _ => rfl, fun h => absurd rfl h⟩, ?_⟩
  have h : pushBackOwn exEnv (⟨⟨2, fun j => [7, 8][j]?⟩, .static, 2, 2, 0⟩ : Vec Nat) 0 = .ub := by rfl
  rintro (⟨v', x, _, h1, _⟩ | ⟨e, h1, _⟩) <;> rw [h] at h1 <;> cases h1

/-! ## Examples -/

/-- Contents after an operation. -/
def after (o : Out (Vec α)) : Option (List α) := match o with | .ok v => contents v | .exc _ v => contents v | _ => none

example : after ((insert exEnv ex3 1 (some 99)).bind fun v => (erase v 0 1).bind fun v =>
    (appendRange exEnv v [some 1, some 2, some 3]).bind fun v => shrinkToFit exEnv v) =
    some [99, 11, 12, 1, 2, 3] := by decide
example : (match appendRange exEnv ex3 [some 1, none, some 3] with | .exc .ctor v => contents v | _ => none) =
    some [10, 11, 12] := by decide
example : (match insert exEnv ex3 1 none with | .exc .ctor v => contents v | _ => none) =
    some [10, 11, 12] := by decide
example : Holds exEnv ex3 [10, 11, 12] ∧ (Op.erase 1 2 : Op Nat).Pre [10, 11, 12] := ⟨ex3_holds, by decide, by decide⟩
example : at_ ex3 2 = .value 12 ∧ at_ ex3 3 = .outOfRange := by decide
example : after (resize exEnv ex3 2 0) = some [10, 11] ∧ after (resize exEnv (empty 1) 3 5) = some [5, 5, 5] := by decide
example : (match moveConstruct 5 ex3 with | .ok (v, o) => (contents v, contents o) | _ => (none, none)) =
    (some [10, 11, 12], some []) := by decide

end Verif.Vector
