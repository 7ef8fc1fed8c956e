import Verif.Vector.Spec
import Verif.Uninit.Lemmas
import Verif.Buffer.Lemmas
/-
Lemmas about the vector operations.
-/
set_option linter.unusedSimpArgs false
set_option linter.unusedVariables false
set_option linter.unusedTactic false
namespace Verif.Vector
open Uninit Spec
variable {α : Type u}

@[simp] theorem mem_setMem (v : Vec α) (m : Mem α) : (v.setMem m).mem = m := by
  unfold Vec.setMem Vec.mem
  cases v.data <;> rfl
@[simp] theorem size_setMem (v : Vec α) (m : Mem α) : (v.setMem m).size = v.size := by
  unfold Vec.setMem; cases v.data <;> rfl
@[simp] theorem cap_setMem (v : Vec α) (m : Mem α) : (v.setMem m).cap = v.cap := by
  unfold Vec.setMem; cases v.data <;> rfl
@[simp] theorem gen_setMem (v : Vec α) (m : Mem α) : (v.setMem m).gen = v.gen := by
  unfold Vec.setMem; cases v.data <;> rfl
@[simp] theorem setMem_setMem (v : Vec α) (m m' : Mem α) : (v.setMem m).setMem m' = v.setMem m' := by
  unfold Vec.setMem; cases h : v.data <;> simp
theorem static_setMem {v : Vec α} (m : Mem α) (h : v.data ≠ .static → ∀ j, v.static.get j = none) :
    (v.setMem m).data ≠ .static → ∀ j, (v.setMem m).static.get j = none := by
  revert h
  unfold Vec.setMem; cases hd : v.data <;> simp [hd]

/-- The vector with other memory contents and another size. -/
theorem holds_set {E : Env} {v : Vec α} {xs ys : List α} (h : Holds E v xs) (m : Mem α) (n : Nat)
    (hs : m.size = v.mem.size) (hn : n = ys.length) (hc : n ≤ v.cap) (hg : ∀ j, m.get j = ys[j]?) :
    Holds E { v.setMem m with size := n } ys := by
  have hm : ({ v.setMem m with size := n } : Vec α).mem = m := mem_setMem v m
  refine ⟨hn, ?_, ?_, ?_, ?_, ?_⟩
  · show n ≤ (v.setMem m).cap; rw [cap_setMem]; exact hc
  · rw [hm, hs]; show (v.setMem m).cap ≤ _; rw [cap_setMem]; exact h.cap_le
  · show (v.setMem m).cap ≤ _; rw [cap_setMem]; exact h.cap_max
  · intro j; rw [hm]; exact hg j
  · exact static_setMem m h.static

theorem size_setMem' (v : Vec α) (m : Mem α) (h : v.size = n) :
    ({ v.setMem m with size := n } : Vec α) = v.setMem m := by
  subst h
  unfold Vec.setMem; cases v.data <;> rfl

theorem holds_empty {E : Env} {N : Nat} (h : N ≤ E.M) : Holds E (empty N : Vec α) [] :=
  ⟨rfl, Nat.zero_le _, Nat.le_refl _, h, fun _ => rfl, fun h => absurd rfl h⟩

theorem isSome_get {E : Env} {v : Vec α} {xs : List α} (h : Holds E v xs) {j : Nat} (hj : j < v.size) :
    (v.mem.get j).isSome := by
  rw [h.get, List.getElem?_eq_getElem (by rw [← h.size]; exact hj)]; rfl

theorem get_none {E : Env} {v : Vec α} {xs : List α} (h : Holds E v xs) {j : Nat} (hj : v.size ≤ j) :
    v.mem.get j = none := by
  rw [h.get, List.getElem?_eq_none (by rw [← h.size]; exact hj)]

theorem suggest_le {cur min max : Nat} {n : Nat} (h : Buffer.suggestNewBufferSize cur min max = .ok n)
    (hc : cur < min) : 2 * n ≤ 3 * min := by
  unfold Buffer.suggestNewBufferSize at h
  dsimp only at h
  split_ifs at h <;> first | cases h; done | (have := Except.ok.inj h; omega)

/-- The allocator can provide what is needed for a capacity of `n` with the growth policy. -/
def Roomy (E : Env) (n : Nat) : Prop := ∀ k, 2 * k ≤ 3 * n → Env.CanAlloc E k

theorem realloc_spec {E : Env} {v : Vec α} {xs : List α} (h : Holds E v xs) {n : Nat} (hn : v.size ≤ n)
    (hM : n ≤ E.M) :
    (∃ v', realloc E v n = .ok v' ∧ Holds E v' xs ∧ v'.cap = n ∧ v'.owned = true) ∨
    (∃ e, realloc E v n = .exc e v ∧ e ≠ .ctor ∧ ¬ Env.CanAlloc E n) := by
  unfold realloc
  rw [if_neg (by omega)]
  split_ifs with h1 h2
  · exact .inr ⟨_, rfl, by simp, fun hc => by have := hc.1; omega⟩
  · left
    rw [safeMove_ok]
    · dsimp only
      rw [if_pos (clean_of fun j => ?_)]
      swap
      · rw [over_get]
        split_ifs with hj
        · rfl
        · exact get_none h (by omega)
      refine ⟨_, rfl, ⟨?_, ?_, ?_, ?_, ?_, ?_⟩, rfl, rfl⟩
      · show (v.setMem _).size = _; rw [size_setMem]; exact h.size
      · show (v.setMem _).size ≤ n; rw [size_setMem]; exact hn
      · show n ≤ n; exact Nat.le_refl _
      · exact hM
      · intro j
        show (Mem.over (Mem.fresh n) 0 v.size (fun k => v.mem.get (0 + k))).get j = _
        rw [over_get]
        split_ifs with hj
        · rw [h.get, Nat.sub_zero, Nat.zero_add]
        · show none = _
          rw [List.getElem?_eq_none]; rw [← h.size]; omega
      · intro _ j
        show (v.setMem _).static.get j = none
        have hs := h.static
        revert hs
        unfold Vec.setMem
        cases hd : v.data with
        | static =>
          intro _
          dsimp only
          rw [over_get]
          split_ifs with hj
          · rfl
          · have : v.mem = v.static := by unfold Vec.mem; rw [hd]
            exact get_none h (by omega)
        | heap m => intro hs; exact hs (by simp) j
        | null m => intro hs; exact hs (by simp) j
    · rw [Nat.zero_add]; right; have := h.le_cap; have := h.cap_le; omega
    · rw [Nat.zero_add]; right; exact hn
    · intro j _ hj; exact isSome_get h (by omega)
    · intro j _ _; rfl
  · exact .inr ⟨_, rfl, by simp, fun hc => h2 hc.2⟩

/-- Outcome of `reserve_extra()`, `reserve()`: the vector is unchanged apart from its capacity. -/
def ResOk (E : Env) (v : Vec α) (xs : List α) (need : Nat) (o : Out (Vec α)) : Prop :=
  (∃ v', o = .ok v' ∧ Holds E v' xs ∧ v.cap ≤ v'.cap ∧ need ≤ v'.cap ∧ (need ≤ v.cap → v' = v)) ∨
  (∃ e, o = .exc e v ∧ e ≠ .ctor ∧ v.cap < need ∧ ¬ Roomy E need)

theorem doReserveExtra_spec {E : Env} (hsz : 0 < E.sz) {v : Vec α} {xs : List α} (h : Holds E v xs) {n : Nat}
    (hn : v.cap < v.size + n) : ResOk E v xs (xs.length + n) (doReserveExtra E v n) := by
  have hs := h.size
  unfold doReserveExtra
  split_ifs with h1
  · unfold doReserve
    obtain ⟨k, hk, hk1, hk2, hk3, _⟩ := Buffer.suggest_spec h.cap_max h1
    have hk4 := suggest_le hk hn
    rw [hk]
    dsimp only
    have hle := h.le_cap
    rcases realloc_spec h (n := k) (by omega) (by omega) with ⟨v', e1, e2, e3, _⟩ | ⟨e, e1, e2, e3⟩
    · exact .inl ⟨v', e1, e2, by omega, by omega, fun hc => by omega⟩
    · exact .inr ⟨e, e1, e2, by omega, fun hr => e3 (hr k (by omega))⟩
  · refine .inr ⟨_, rfl, by simp, by omega, fun hr => ?_⟩
    have := (hr (xs.length + n) (by omega)).1
    have : xs.length + n ≤ (xs.length + n) * E.sz := Nat.le_mul_of_pos_right _ hsz
    omega

theorem reserveExtra_spec {E : Env} (hsz : 0 < E.sz) {v : Vec α} {xs : List α} (h : Holds E v xs) (n : Nat) :
    ResOk E v xs (xs.length + n) (reserveExtra E v n) := by
  have hs := h.size
  have hle := h.le_cap
  unfold reserveExtra
  split_ifs with h1
  · exact .inl ⟨v, rfl, h, Nat.le_refl _, by omega, fun _ => rfl⟩
  · exact doReserveExtra_spec hsz h (by omega)

theorem reserve_spec {E : Env} (hsz : 0 < E.sz) {v : Vec α} {xs : List α} (h : Holds E v xs) (n : Nat) :
    (n ≤ v.cap ∧ reserve E v n = .ok v) ∨
    (v.cap < n ∧ ResOk E v xs (xs.length + n) (reserve E v n)) := by
  have hs := h.size
  unfold reserve
  split_ifs with h1
  · exact .inl ⟨h1, rfl⟩
  · exact .inr ⟨by omega, doReserveExtra_spec hsz h (by omega)⟩

theorem emplace_aux {E : Env} {v : Vec α} {xs : List α} (h : Holds E v xs) (hc : xs.length + 1 ≤ v.cap) (x : α) :
    ∃ v', ((construct v.mem v.size (some x)).map v.setMem).bind
        (fun v => .ok { v with size := v.size + 1 }) = .ok v' ∧
      Holds E v' (xs ++ [x]) ∧ v'.cap = v.cap ∧ v'.gen = v.gen := by
  have hs := h.size
  have := h.cap_le
  rw [construct_ok _ _ _ (by omega) (get_none h (Nat.le_refl _)), map_ok, bind_ok, size_setMem]
  refine ⟨_, rfl, holds_set h _ _ rfl (by simp [hs]) (by omega) ?_, by simp, by simp⟩
  intro j
  rw [put_get, h.get, hs]
  split_ifs with hj
  · simp [hj]
  · rw [List.getElem?_append]
    split_ifs with hj2
    · rfl
    · rw [List.getElem?_eq_none (by omega), List.getElem?_eq_none (by simp; omega)]

/-- Outcome of an operation: see `Spec.Op`. -/
def Good (E : Env) (v : Vec α) (need : Nat) (throws : Prop) (eff excEff : List α) (o : Out (Vec α)) : Prop :=
  (∃ v', o = .ok v' ∧ Holds E v' eff ∧ ¬ throws ∧ v.cap ≤ v'.cap ∧ need ≤ v'.cap ∧
    (need ≤ v.cap → v'.cap = v.cap ∧ v'.gen = v.gen)) ∨
  (∃ e v', o = .exc e v' ∧ Holds E v' excEff ∧ v.cap ≤ v'.cap ∧ (need ≤ v.cap → v'.cap = v.cap ∧ v'.gen = v.gen) ∧
    ((e = .ctor ∧ throws) ∨ (e ≠ .ctor ∧ v.cap < need ∧ ¬ Roomy E need)))

theorem resOk_bind {E : Env} {v : Vec α} {xs eff : List α} {need : Nat} {throws : Prop} {o : Out (Vec α)}
    {f : Vec α → Out (Vec α)} (h : ResOk E v xs need o) (hv : Holds E v xs)
    (hf : ∀ v', Holds E v' xs → need ≤ v'.cap → Good E v' need throws eff xs (f v')) :
    Good E v need throws eff xs (o.bind f) := by
  rcases h with ⟨v', rfl, h1, h2, h3, h4⟩ | ⟨e, rfl, h1, h2, h3⟩
  · rw [bind_ok]
    rcases hf v' h1 h3 with ⟨w, e1, e2, e3, e4, e5, e6⟩ | ⟨e, w, e1, e2, e3, e4, e5⟩
    · refine .inl ⟨w, e1, e2, e3, by omega, e5, fun hc => ?_⟩
      rw [h4 hc] at e6; exact e6 hc
    · refine .inr ⟨e, w, e1, e2, by omega, fun hc => ?_, ?_⟩
      · rw [h4 hc] at e4; exact e4 hc
      · rcases e5 with e5 | ⟨e5, e6, e7⟩
        · exact .inl e5
        · omega
  · rw [bind_exc]
    exact .inr ⟨e, v, rfl, hv, Nat.le_refl _, fun _ => ⟨rfl, rfl⟩, .inr ⟨h1, h2, h3⟩⟩

theorem emplaceBack_spec {E : Env} (hsz : 0 < E.sz) {v : Vec α} {xs : List α} (h : Holds E v xs) (x : Option α) :
    Good E v (xs.length + 1) (x = none) (xs ++ values [x]) xs (emplaceBack E v x) := by
  unfold emplaceBack
  refine resOk_bind (reserveExtra_spec hsz h 1) h fun v' h' hc => ?_
  cases x with
  | none =>
    have := h'.cap_le
    have := h'.size
    rw [construct_exc _ _ (by omega) (get_none h' (Nat.le_refl _)), map_exc, bind_exc]
    refine .inr ⟨_, _, rfl, ?_, by simp, fun _ => by simp, .inl ⟨rfl, rfl⟩⟩
    have := holds_set h' v'.mem v'.size rfl h'.size h'.le_cap h'.get
    rwa [size_setMem' _ _ rfl] at this
  | some x =>
    obtain ⟨w, e1, e2, e3, e4⟩ := emplace_aux h' hc x
    exact .inl ⟨w, e1, by simpa [values] using e2, by simp, by omega, by omega, fun _ => ⟨e3, e4⟩⟩

theorem values_get {ys : List (Option α)} (h : ys.all Option.isSome) (k : Nat) :
    (values ys)[k]? = ys[k]?.join ∧ (values ys).length = ys.length := by
  induction ys generalizing k with
  | nil => simp [values]
  | cons y ys ih =>
    simp only [List.all_cons, Bool.and_eq_true] at h
    obtain ⟨x, rfl⟩ := Option.isSome_iff_exists.1 h.1
    have hv : values (some x :: ys) = x :: values ys := rfl
    rw [hv]
    refine ⟨?_, by rw [List.length_cons, List.length_cons, (ih h.2 0).2]⟩
    cases k with
    | zero => rfl
    | succ k => rw [List.getElem?_cons_succ, List.getElem?_cons_succ]; exact (ih h.2 k).1

theorem fill_aux {E : Env} {v : Vec α} {xs : List α} (h : Holds E v xs) (ys : List (Option α))
    (hc : xs.length + ys.length ≤ v.cap) :
    Good E v (xs.length + ys.length) (none ∈ ys) (xs ++ values ys) xs
      (((fillOut v.mem v.size ys).map v.setMem).bind fun v => .ok { v with size := v.size + ys.length }) := by
  have hs := h.size
  unfold fillOut
  split_ifs with ha
  · rw [map_ok, bind_ok, size_setMem]
    refine .inl ⟨_, rfl, holds_set h _ _ rfl ?_ (by omega) ?_, ?_, by simp, by simpa using hc, by simp⟩
    · rw [List.length_append, (values_get ha 0).2, hs]
    · intro j
      rw [over_get, h.get, List.getElem?_append]
      split_ifs with h1 h2 h2
      · omega
      · rw [(values_get ha _).1, hs]
      · rfl
      · rw [List.getElem?_eq_none (by omega), List.getElem?_eq_none (by rw [(values_get ha 0).2]; omega)]
    · intro hn
      have := (List.all_eq_true.1 ha) none hn
      cases this
  · rw [map_exc, bind_exc]
    refine .inr ⟨_, _, rfl, ?_, by simp, by simp, .inl ⟨rfl, ?_⟩⟩
    · have := holds_set h v.mem v.size rfl h.size h.le_cap h.get
      rwa [size_setMem' _ _ rfl] at this
    · by_contra hn
      apply ha
      rw [List.all_eq_true]
      intro y hy
      cases y with
      | none => exact absurd hy hn
      | some _ => rfl

theorem appendFill_spec {E : Env} (hsz : 0 < E.sz) {v : Vec α} {xs : List α} (h : Holds E v xs)
    (ys : List (Option α)) :
    Good E v (xs.length + ys.length) (none ∈ ys) (xs ++ values ys) xs (appendFill E v ys) := by
  unfold appendFill
  refine resOk_bind (reserveExtra_spec hsz h _) h fun v' h' hc => ?_
  have := h'.size
  have := h'.cap_le
  rw [safeFill_eq]
  · exact fill_aux h' ys hc
  · right; omega
  · intro j hj _; exact get_none h' hj

theorem appendRange_spec {E : Env} (hsz : 0 < E.sz) {v : Vec α} {xs : List α} (h : Holds E v xs)
    (ys : List (Option α)) :
    Good E v (xs.length + ys.length) (none ∈ ys) (xs ++ values ys) xs (appendRange E v ys) := by
  unfold appendRange
  refine resOk_bind (reserveExtra_spec hsz h _) h fun v' h' hc => ?_
  have := h'.size
  have := h'.cap_le
  rw [safeCopy_eq]
  · exact fill_aux h' ys hc
  · right; omega
  · intro j hj _; exact get_none h' hj

theorem popBack_spec {E : Env} {v : Vec α} {xs : List α} (h : Holds E v xs) (hx : xs ≠ []) :
    ∃ v', popBack v = .ok v' ∧ Holds E v' xs.dropLast ∧ v'.cap = v.cap ∧ v'.gen = v.gen := by
  have hs := h.size
  have hp : 0 < xs.length := List.length_pos_iff.2 hx
  have := h.cap_le
  have := h.le_cap
  unfold popBack
  rw [if_neg (by omega), destroy_ok, map_ok, bind_ok]
  · simp only [size_setMem]
    refine ⟨_, rfl, holds_set h _ _ rfl (by simp [hs]) (by omega) ?_, by simp, by simp⟩
    intro j
    rw [over_get, h.get, List.dropLast_eq_take, List.getElem?_take]
    split_ifs <;> first | rfl | omega | (rw [List.getElem?_eq_none (by omega)])
  · right; omega
  · intro j h1 h2; exact isSome_get h (by omega)

theorem clear_spec {E : Env} {v : Vec α} {xs : List α} (h : Holds E v xs) :
    ∃ v', clear v = .ok v' ∧ Holds E v' [] ∧ v'.cap = v.cap ∧ v'.gen = v.gen := by
  have hs := h.size
  have := h.cap_le
  have := h.le_cap
  unfold clear
  rw [destroy_ok, map_ok, bind_ok]
  · refine ⟨_, rfl, holds_set h _ _ rfl (by simp) (by omega) ?_, by simp, by simp⟩
    intro j
    rw [over_get]
    split_ifs
    · simp
    · rw [get_none h (by omega)]; simp
  · right; omega
  · intro j h1 h2; exact isSome_get h (by omega)

theorem getElem?_erase (xs : List α) {i j : Nat} (hij : i ≤ j) (hj : j ≤ xs.length) (k : Nat) :
    (xs.take i ++ xs.drop j)[k]? = if k < i then xs[k]? else xs[k + (j - i)]? := by
  rw [List.getElem?_append, List.length_take, Nat.min_eq_left (by omega), List.getElem?_take, List.getElem?_drop]
  split_ifs
  · rfl
  · congr 1; omega

theorem eraseImpl_spec {E : Env} {v : Vec α} {xs : List α} (h : Holds E v xs) {i j : Nat} (hij : i < j)
    (hj : j ≤ xs.length) :
    ∃ v', eraseImpl v i (j - i) = .ok v' ∧ Holds E v' (xs.take i ++ xs.drop j) ∧ v'.cap = v.cap ∧ v'.gen = v.gen := by
  have hs := h.size
  have := h.cap_le
  have := h.le_cap
  unfold eraseImpl
  rw [if_neg (by omega), if_neg (by omega), destroy_ok, map_ok, bind_ok]
  · simp only [mem_setMem, size_setMem]
    rw [moveDownwards_ok]
    · rw [map_ok, bind_ok, setMem_setMem, size_setMem]
      refine ⟨_, rfl, holds_set h _ _ rfl ?_ (by omega) ?_, by simp, by simp⟩
      · rw [List.length_append, List.length_take, List.length_drop]; omega
      · intro k
        rw [getElem?_erase xs (by omega) hj]
        simp only [over_get, over_size, h.get]
        split_ifs <;> first | rfl | omega | (congr 1; omega) |
          (rw [List.getElem?_eq_none (by omega), List.getElem?_eq_none (by omega)]) |
          (rw [List.getElem?_eq_none (by omega)])
    · omega
    · right; omega
    · right; rw [over_size]; omega
    · intro k h1 h2
      rw [over_get, if_neg (by omega)]
      exact isSome_get h (by omega)
    · intro k h1 h2 h3
      rw [over_get, if_pos (by omega)]
  · right; omega
  · intro k h1 h2; exact isSome_get h (by omega)

theorem erase_spec {E : Env} {v : Vec α} {xs : List α} (h : Holds E v xs) {i j : Nat} (hij : i ≤ j)
    (hj : j ≤ xs.length) :
    ∃ v', erase v i j = .ok v' ∧ Holds E v' (xs.take i ++ xs.drop j) ∧ v'.cap = v.cap ∧ v'.gen = v.gen := by
  unfold erase
  rw [if_neg (by omega)]
  split_ifs with h1
  · exact eraseImpl_spec h (by omega) hj
  · have : i = j := by omega
    subst this
    exact ⟨v, rfl, by rwa [List.take_append_drop], rfl, rfl⟩

theorem insert_spec {E : Env} (hsz : 0 < E.sz) {v : Vec α} {xs : List α} (h : Holds E v xs) {i : Nat}
    (hi : i ≤ xs.length) (x : Option α) :
    Good E v (xs.length + 1) (x = none) (xs.take i ++ values [x] ++ xs.drop i) xs (insert E v i x) := by
  unfold insert
  refine resOk_bind (reserveExtra_spec hsz h 1) h fun v' h' hc => ?_
  have hs := h'.size
  have := h'.cap_le
  dsimp only
  rw [if_neg (by omega), moveUpwards_ok]
  · rw [map_ok, bind_ok, mem_setMem]
    have hni : ((v'.mem.over i (v'.size - i) fun _ => none).over (i + 1) (v'.size - i)
        fun k => v'.mem.get (i + k)).get i = none := by
      rw [over_get, if_neg (by omega), over_get]
      split_ifs with hh
      · rfl
      · exact get_none h' (by omega)
    cases x with
    | some x =>
      rw [construct_ok]
      · rw [onExc_ok, map_ok, bind_ok, setMem_setMem, size_setMem]
        refine .inl ⟨_, rfl, holds_set h' _ _ rfl ?_ (by omega) ?_, by simp, by simp, by simpa using hc, by simp⟩
        · simp [values]; omega
        · intro k
          simp only [put_get, over_get, over_size, h'.get, values, List.filterMap_cons, id, List.filterMap_nil]
          rw [List.append_assoc, List.getElem?_append, List.length_take, Nat.min_eq_left hi, List.getElem?_take]
          rcases Nat.lt_trichotomy k i with hk | hk | hk
          · simp only [hk, if_true]
            split_ifs <;> first | rfl | omega
          · subst hk
            rw [if_pos rfl, if_neg (by omega)]; simp
          · have he : k - i = (k - i - 1) + 1 := by omega
            rw [if_neg (by omega : ¬ k = i), if_neg (by omega : ¬ k < i), he, List.singleton_append, List.getElem?_cons_succ,
              List.getElem?_drop]
            split_ifs <;> first | rfl | omega | (congr 1; omega) |
              (rw [List.getElem?_eq_none (by omega), List.getElem?_eq_none (by omega)]) |
              (rw [List.getElem?_eq_none (by omega)])
      · simp only [over_size]; omega
      · exact hni
    | none =>
      rw [construct_exc]
      · dsimp only [Out.onExc]
        rw [moveDownwards_ok]
        · dsimp only
          rw [map_exc, bind_exc, setMem_setMem]
          refine .inr ⟨_, _, rfl, ?_, by simp, by simp, .inl ⟨rfl, rfl⟩⟩
          rw [← size_setMem' v' _ rfl]
          refine holds_set h' _ _ rfl h'.size h'.le_cap ?_
          intro k
          rw [← h'.get]
          simp only [over_get, over_size]
          by_cases hk : k < v'.size
          · split_ifs <;> first | rfl | omega | (congr 1; omega)
          · rw [get_none h' (by omega : v'.size ≤ k)]
            split_ifs <;> first | rfl | omega | (rw [get_none h' (by omega)])
        · omega
        · right; omega
        · right; simp only [over_size]; omega
        · intro k h1 h2
          rw [over_get, if_pos (by omega)]
          exact isSome_get h' (by omega)
        · intro k h1 h2 h3
          have : k = i := by omega
          subst this
          exact hni
      · simp only [over_size]; omega
      · exact hni
  · omega
  · right; omega
  · intro k h1 h2; exact isSome_get h' (by omega)
  · intro k h1 h2 h3; exact get_none h' (by omega)

end Verif.Vector
