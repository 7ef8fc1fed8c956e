import Verif.Deque.Spec
import Verif.Uninit.Lemmas
import Verif.Buffer.Lemmas
/-
Lemmas about the deque operations.
-/
set_option linter.unusedSimpArgs false
set_option linter.unusedVariables false
set_option linter.unusedTactic false
namespace Verif.Deque
open Uninit Spec
variable {α : Type u}

/-- The logical position of a slot. -/
theorem rot_eq {a o j : Nat} (ho : o < a) (hj : j < a) :
    (j + a - o) % a = if o ≤ j then j - o else j + a - o := by
  split_ifs with h
  · have : j + a - o = (j - o) + a := by omega
    rw [this, Nat.add_mod_right, Nat.mod_eq_of_lt (by omega)]
  · exact Nat.mod_eq_of_lt (by omega)

/-- A deque that holds some elements, in terms of case distinctions only. -/
structure Inv (E : Env) (d : Deq α) (xs : List α) : Prop where
  mem_size : d.mem.size = d.alloc
  alloc_max : d.alloc ≤ E.M
  size : d.size = xs.length
  layout : (d.alloc = 0 ∧ d.offset = 0 ∧ d.size = 0) ∨ (d.offset < d.alloc ∧ d.size < d.alloc)
  get : ∀ j, d.mem.get j = if j < d.alloc then
    (if d.offset ≤ j then xs[j - d.offset]? else xs[j + d.alloc - d.offset]?) else none

theorem inv_iff {E : Env} {d : Deq α} {xs : List α} : Holds E d xs ↔ Inv E d xs := by
  constructor
  · intro h
    refine ⟨h.mem_size, h.alloc_max, h.size, h.layout, fun j => ?_⟩
    split_ifs with h1 h2
    · rw [h.live j h1, rot_eq (by rcases h.layout with h | h <;> omega) h1, if_pos h2]
    · rw [h.live j h1, rot_eq (by rcases h.layout with h | h <;> omega) h1, if_neg h2]
    · exact h.none j (by omega)
  · intro h
    refine ⟨h.mem_size, h.alloc_max, h.size, h.layout, fun j hj => ?_, fun j hj => ?_⟩
    · rw [h.get, if_pos hj, rot_eq (by rcases h.layout with h | h <;> omega) hj]
      split_ifs <;> rfl
    · rw [h.get, if_neg (by omega)]

theorem Inv.set {E : Env} {d : Deq α} {xs ys : List α} (h : Inv E d xs) (m : Mem α) (o n : Nat)
    (hs : m.size = d.mem.size) (hn : n = ys.length)
    (hl : (d.alloc = 0 ∧ o = 0 ∧ n = 0) ∨ (o < d.alloc ∧ n < d.alloc))
    (hg : ∀ j, m.get j = if j < d.alloc then (if o ≤ j then ys[j - o]? else ys[j + d.alloc - o]?) else none) :
    Inv E ⟨m, o, n, d.alloc, d.gen⟩ ys :=
  ⟨by rw [← h.mem_size, ← hs], h.alloc_max, hn, hl, hg⟩

theorem inv_empty {E : Env} : Inv E (empty : Deq α) [] :=
  ⟨rfl, Nat.zero_le _, rfl, .inl ⟨rfl, rfl, rfl⟩, fun j => by rw [if_neg]; rfl; exact Nat.not_lt_zero j⟩

/-- Slots that hold objects. -/
theorem Inv.isSome {E : Env} {d : Deq α} {xs : List α} (h : Inv E d xs) {j : Nat} (hj : j < d.alloc)
    (hk : if d.offset ≤ j then j - d.offset < d.size else j + d.alloc - d.offset < d.size) :
    (d.mem.get j).isSome := by
  have := h.size
  rw [h.get, if_pos hj]
  split_ifs at hk ⊢
  · rw [List.getElem?_eq_getElem (by omega)]; rfl
  · rw [List.getElem?_eq_getElem (by omega)]; rfl

/-- Uninitialized slots. -/
theorem Inv.isNone {E : Env} {d : Deq α} {xs : List α} (h : Inv E d xs) {j : Nat}
    (hk : if d.offset ≤ j then d.size ≤ j - d.offset else d.size ≤ j + d.alloc - d.offset) :
    d.mem.get j = none := by
  have := h.size
  rw [h.get]
  split_ifs at hk ⊢
  · rw [List.getElem?_eq_none (by omega)]
  · rw [List.getElem?_eq_none (by omega)]
  · rfl
  · rfl

theorem wrap_eq (d : Deq α) (i : Nat) :
    wrap d i = if i < d.alloc - d.offset then d.offset + i else i - (d.alloc - d.offset) := rfl

theorem suggest_le {cur min max : Nat} {n : Nat} (h : Buffer.suggestNewBufferSize cur min max = .ok n)
    (hc : cur < min) : 2 * n ≤ 3 * min := by
  unfold Buffer.suggestNewBufferSize at h
  dsimp only at h
  split_ifs at h <;> first | cases h; done | (have := Except.ok.inj h; omega)

/-- The allocator can provide what is needed for a capacity of `n` with the growth policy. -/
def Roomy (E : Env) (n : Nat) : Prop := ∀ k, 2 * k ≤ 3 * (n + 1) → Env.CanAlloc E k

theorem realloc_spec {E : Env} {d : Deq α} {xs : List α} (h : Inv E d xs) {n : Nat} (hn : d.size < n) (h1n : 1 < n)
    (hM : n ≤ E.M) :
    (∃ d', realloc E d n = .ok d' ∧ Inv E d' xs ∧ d'.alloc = n) ∨
    (∃ e, realloc E d n = .exc e d ∧ e ≠ .ctor ∧ ¬ Env.CanAlloc E n) := by
  have hs := h.size
  have hms := h.mem_size
  have hl := h.layout
  unfold realloc
  rw [if_neg (by omega), if_neg (by omega)]
  dsimp only
  by_cases hb : n * E.sz > E.M
  · rw [if_pos hb]
    exact .inr ⟨_, rfl, by simp, fun hc => by have := hc.1; omega⟩
  rw [if_neg hb]
  by_cases ha : E.alloc (n * E.sz)
  swap
  · rw [if_pos ha]
    exact .inr ⟨_, rfl, by simp, fun hc => ha hc.2⟩
  rw [if_neg (by simpa using ha)]
  left
  by_cases hd : d.size ≤ d.alloc - d.offset
  · rw [if_pos hd, safeMove_ok]
    · dsimp only
      rw [if_pos (clean_of fun j => ?_)]
      swap
      · rw [over_get]
        split_ifs with hj
        · rfl
        · apply h.isNone
          split_ifs <;> omega
      refine ⟨_, rfl, ⟨rfl, hM, hs, .inr ⟨by dsimp only; omega, hn⟩, fun j => ?_⟩, rfl⟩
      dsimp only
      rw [over_get]
      by_cases hj : j < d.size
      · rw [if_pos (by omega), h.get, if_pos (by omega), if_pos (by omega), if_pos (by omega), if_pos (by omega)]
        congr 1; omega
      · rw [if_neg (by omega), List.getElem?_eq_none (by omega), List.getElem?_eq_none (by omega)]
        split_ifs <;> rfl
    · right; omega
    · right; show 0 + d.size ≤ n; omega
    · intro j h1 h2
      exact h.isSome (by omega) (by rw [if_pos h1]; omega)
    · intro j _ _; rfl
  · rw [if_neg hd, safeMoveA_ok]
    · dsimp only
      rw [safeMove_ok]
      · dsimp only
        rw [destroy_ok]
        · dsimp only
          rw [if_pos (clean_of fun j => ?_)]
          swap
          · simp only [over_get]
            split_ifs with hj hj2
            · rfl
            · rfl
            · by_cases hja : j < d.alloc
              · apply h.isNone
                split_ifs <;> omega
              · rw [h.get, if_neg hja]
          refine ⟨_, rfl, ⟨rfl, hM, hs, .inr ⟨by dsimp only; omega, hn⟩, fun j => ?_⟩, rfl⟩
          dsimp only
          simp only [over_get]
          by_cases hj : j < d.size
          · by_cases hj2 : j < d.alloc - d.offset
            · rw [if_neg (by omega), if_pos (by omega), if_pos (by omega), if_pos (by omega), h.get,
                if_pos (by omega), if_pos (by omega)]
              congr 1; omega
            · rw [if_pos (by omega), if_pos (by omega), if_pos (by omega), h.get, if_pos (by omega),
                if_neg (by omega)]
              congr 1; omega
          · rw [if_neg (by omega), if_neg (by omega), List.getElem?_eq_none (by omega),
              List.getElem?_eq_none (by omega)]
            split_ifs <;> rfl
        · right; rw [over_size]; omega
        · intro j h1 h2
          rw [over_get, if_neg (by omega)]
          exact h.isSome (by omega) (by rw [if_pos h1]; omega)
      · right; omega
      · right; rw [over_size]; show _ ≤ n; omega
      · intro j h1 h2
        exact h.isSome (by omega) (by rw [if_neg (by omega)]; omega)
      · intro j h1 h2
        rw [over_get, if_neg (by omega)]; rfl
    · right; omega
    · right; show _ ≤ n; omega
    · intro j h1 h2
      exact h.isSome (by omega) (by rw [if_pos h1]; omega)
    · intro j _ _; rfl

/-- Outcome of `reserve_extra()`, `reserve()`: the deque is unchanged apart from its capacity. -/
def ResOk (E : Env) (d : Deq α) (xs : List α) (need : Nat) (o : Out (Deq α)) : Prop :=
  (∃ d', o = .ok d' ∧ Inv E d' xs ∧ capacity d ≤ capacity d' ∧ need ≤ capacity d' ∧
    (need ≤ capacity d → d' = d)) ∨
  (∃ e, o = .exc e d ∧ e ≠ .ctor ∧ capacity d < need ∧ ¬ Roomy E need)

theorem cap_eq (d : Deq α) : capacity d = d.alloc - 1 := by unfold capacity; split_ifs <;> omega

theorem reserve_spec {E : Env} (hsz : 0 < E.sz) {d : Deq α} {xs : List α} (h : Inv E d xs) (n : Nat) (hn : xs.length ≤ n ∨ True) :
    ResOk E d xs n (reserve E d n) := by
  have hs := h.size
  have hl := h.layout
  unfold ResOk
  simp only [cap_eq]
  unfold reserve
  split_ifs with h0 h1 h2
  · exact .inl ⟨d, rfl, h, by omega, by omega, fun _ => rfl⟩
  · exact .inl ⟨d, rfl, h, by omega, by omega, fun _ => rfl⟩
  · obtain ⟨k, hk, hk1, hk2, hk3, _⟩ := Buffer.suggest_spec h.alloc_max h1
    have hk4 := suggest_le hk (by omega)
    rw [hk]
    dsimp only
    rcases realloc_spec h (n := k) (by omega) (by omega) hk3 with ⟨d', e1, e2, e3⟩ | ⟨e, e1, e2, e3⟩
    · exact .inl ⟨d', e1, e2, by omega, by omega, fun hc => by omega⟩
    · exact .inr ⟨e, e1, e2, by omega, fun hr => e3 (hr k (by omega))⟩
  · have := h.alloc_max
    refine .inr ⟨_, rfl, by simp, by omega, fun hr => ?_⟩
    have h3 := (hr (n + 1) (by omega)).1
    have : n + 1 ≤ (n + 1) * E.sz := Nat.le_mul_of_pos_right _ hsz
    omega

theorem reserveExtra_spec {E : Env} (hsz : 0 < E.sz) {d : Deq α} {xs : List α} (h : Inv E d xs) (n : Nat) :
    ResOk E d xs (xs.length + n) (reserveExtra E d n) := by
  have hs := h.size
  unfold reserveExtra
  split_ifs with h1
  · rw [hs]; exact reserve_spec hsz h _ (.inr trivial)
  · have := h.alloc_max
    have hl := h.layout
    refine .inr ⟨_, rfl, by simp, by rw [cap_eq]; omega, fun hr => ?_⟩
    have h3 := (hr (xs.length + n + 1) (by omega)).1
    have : xs.length + n + 1 ≤ (xs.length + n + 1) * E.sz := Nat.le_mul_of_pos_right _ hsz
    omega

/-- Outcome of an operation: see `Spec.Op`. -/
def Good (E : Env) (d : Deq α) (need : Nat) (throws : Prop) (eff excEff : List α) (o : Out (Deq α)) : Prop :=
  (∃ d', o = .ok d' ∧ Inv E d' eff ∧ ¬ throws ∧ capacity d ≤ capacity d' ∧ need ≤ capacity d' ∧
    (need ≤ capacity d → d'.alloc = d.alloc ∧ d'.gen = d.gen)) ∨
  (∃ e d', o = .exc e d' ∧ Inv E d' excEff ∧ capacity d ≤ capacity d' ∧
    (need ≤ capacity d → d'.alloc = d.alloc ∧ d'.gen = d.gen) ∧
    ((e = .ctor ∧ throws) ∨ (e ≠ .ctor ∧ capacity d < need ∧ ¬ Roomy E need)))

theorem resOk_bind {E : Env} {d : Deq α} {xs eff : List α} {need : Nat} {throws : Prop} {o : Out (Deq α)}
    {f : Deq α → Out (Deq α)} (h : ResOk E d xs need o) (hd : Inv E d xs)
    (hf : ∀ d', Inv E d' xs → need ≤ capacity d' → Good E d' need throws eff xs (f d')) :
    Good E d need throws eff xs (o.bind f) := by
  rcases h with ⟨d', rfl, h1, h2, h3, h4⟩ | ⟨e, rfl, h1, h2, h3⟩
  · rw [bind_ok]
    rcases hf d' h1 h3 with ⟨w, e1, e2, e3, e4, e5, e6⟩ | ⟨e, w, e1, e2, e3, e4, e5⟩
    · refine .inl ⟨w, e1, e2, e3, by omega, e5, fun hc => ?_⟩
      rw [h4 hc] at e6; exact e6 hc
    · refine .inr ⟨e, w, e1, e2, by omega, fun hc => ?_, ?_⟩
      · rw [h4 hc] at e4; exact e4 hc
      · rcases e5 with e5 | ⟨e5, e6, e7⟩
        · exact .inl e5
        · omega
  · rw [bind_exc]
    exact .inr ⟨e, d, rfl, hd, Nat.le_refl _, fun _ => ⟨rfl, rfl⟩, .inr ⟨h1, h2, h3⟩⟩

theorem setMem_self (d : Deq α) : d.setMem d.mem = d := rfl

theorem construct_back {E : Env} {d : Deq α} {xs : List α} (h : Inv E d xs) (hc : xs.length + 1 ≤ capacity d) (x : α) :
    construct d.mem (wrap d d.size) (some x) = .ok (d.mem.put (wrap d d.size) (some x)) ∧
    Inv E ⟨d.mem.put (wrap d d.size) (some x), d.offset, d.size + 1, d.alloc, d.gen⟩ (xs ++ [x]) := by
  have hs := h.size
  have hms := h.mem_size
  have hl := h.layout
  rw [cap_eq] at hc
  constructor
  · apply construct_ok
    · rw [wrap_eq]; split_ifs <;> omega
    · apply h.isNone; rw [wrap_eq]; split_ifs <;> omega
  · refine h.set _ _ _ rfl (by simp [hs]) (by omega) fun j => ?_
    rw [put_get, h.get, wrap_eq]
    simp only [List.getElem?_append]
    by_cases hj : j = (if d.size < d.alloc - d.offset then d.offset + d.size else d.size - (d.alloc - d.offset))
    · rw [if_pos hj]
      split_ifs at hj ⊢ <;> first | omega | skip
      · rw [show j - d.offset - xs.length = 0 by omega]; rfl
      · rw [show j + d.alloc - d.offset - xs.length = 0 by omega]; rfl
    · rw [if_neg hj]
      split_ifs at hj ⊢ <;> first | omega | rfl | skip
      all_goals first | (rw [List.getElem?_eq_none (by omega), List.getElem?_eq_none (by simp; omega)])

theorem construct_exc_back {E : Env} {d : Deq α} {xs : List α} (h : Inv E d xs) (hc : xs.length + 1 ≤ capacity d) :
    construct d.mem (wrap d d.size) none = .exc .ctor d.mem := by
  have hs := h.size
  have hms := h.mem_size
  have hl := h.layout
  rw [cap_eq] at hc
  apply construct_exc
  · rw [wrap_eq]; split_ifs <;> omega
  · apply h.isNone; rw [wrap_eq]; split_ifs <;> omega

theorem emplaceBack_spec {E : Env} (hsz : 0 < E.sz) {d : Deq α} {xs : List α} (h : Inv E d xs) (x : Option α) :
    Good E d (xs.length + 1) (x = none) (xs ++ values [x]) xs (emplaceBack E d x) := by
  unfold emplaceBack
  rw [h.size]
  refine resOk_bind (reserve_spec hsz h _ (.inr trivial)) h fun d' h' hc => ?_
  have hc' := hc
  rw [cap_eq] at hc'
  rw [if_neg (by omega)]
  dsimp only
  cases x with
  | none =>
    rw [construct_exc_back h' hc, map_exc, bind_exc]
    exact .inr ⟨_, _, rfl, h', Nat.le_refl _, fun _ => ⟨rfl, rfl⟩, .inl ⟨rfl, rfl⟩⟩
  | some x =>
    obtain ⟨e1, e2⟩ := construct_back h' hc x
    rw [e1, map_ok, bind_ok]
    exact .inl ⟨_, rfl, e2, by simp, Nat.le_refl _, hc, fun _ => ⟨rfl, rfl⟩⟩

theorem emplaceFront_spec {E : Env} (hsz : 0 < E.sz) {d : Deq α} {xs : List α} (h : Inv E d xs) (x : Option α) :
    Good E d (xs.length + 1) (x = none) (values [x] ++ xs) xs (emplaceFront E d x) := by
  unfold emplaceFront
  rw [h.size]
  refine resOk_bind (reserve_spec hsz h _ (.inr trivial)) h fun d' h' hc => ?_
  have hc' := hc
  rw [cap_eq] at hc'
  have hs := h'.size
  have hms := h'.mem_size
  have hl := h'.layout
  rw [if_neg (by omega)]
  dsimp only
  have hb : circularDec d' d'.offset < d'.mem.size := by unfold circularDec; split_ifs <;> omega
  have hnone : d'.mem.get (circularDec d' d'.offset) = none := by
    apply h'.isNone; unfold circularDec; split_ifs <;> omega
  cases x with
  | none =>
    rw [construct_exc _ _ hb hnone, map_exc, bind_exc]
    exact .inr ⟨_, _, rfl, h', Nat.le_refl _, fun _ => ⟨rfl, rfl⟩, .inl ⟨rfl, rfl⟩⟩
  | some x =>
    rw [construct_ok _ _ _ hb hnone, map_ok, bind_ok]
    refine .inl ⟨_, rfl, ?_, by simp, Nat.le_refl _, hc, fun _ => ⟨rfl, rfl⟩⟩
    dsimp only [Deq.setMem]
    refine h'.set _ _ _ rfl (by simp [values, hs]) (by unfold circularDec at hb ⊢; split_ifs at hb ⊢ <;> omega) fun j => ?_
    have hv : values [some x] ++ xs = x :: xs := rfl
    rw [hv, put_get, h'.get]
    by_cases ho : d'.offset > 0
    · have hcd : circularDec d' d'.offset = d'.offset - 1 := by unfold circularDec; rw [if_pos ho]
      rw [hcd]
      rcases Nat.lt_trichotomy j (d'.offset - 1) with hj | hj | hj
      · have he : j + d'.alloc - (d'.offset - 1) = (j + d'.alloc - d'.offset) + 1 := by omega
        rw [if_neg (by omega), if_pos (by omega), if_neg (by omega), if_pos (by omega), if_neg (by omega), he,
          List.getElem?_cons_succ]
      · rw [if_pos hj, if_pos (by omega), if_pos (by omega), hj, Nat.sub_self]; rfl
      · have he : j - (d'.offset - 1) = (j - d'.offset) + 1 := by omega
        rw [if_neg (by omega), he, List.getElem?_cons_succ]
        split_ifs <;> first | rfl | omega
    · have hcd : circularDec d' d'.offset = d'.alloc - 1 := by unfold circularDec; rw [if_neg ho]
      rw [hcd]
      by_cases hj : j = d'.alloc - 1
      · rw [if_pos hj, if_pos (by omega), if_pos (by omega), hj, Nat.sub_self]; rfl
      · rw [if_neg hj]
        by_cases hj2 : j < d'.alloc
        · have he : j + d'.alloc - (d'.alloc - 1) = j + 1 := by omega
          rw [if_pos hj2, if_pos hj2, if_pos (by omega), if_neg (by omega), he, List.getElem?_cons_succ]
          congr 1; omega
        · rw [if_neg hj2, if_neg hj2]

theorem popFront_spec {E : Env} {d : Deq α} {xs : List α} (h : Inv E d xs) (hx : xs ≠ []) :
    ∃ d', popFront d = .ok d' ∧ Inv E d' xs.tail ∧ d'.alloc = d.alloc ∧ d'.gen = d.gen := by
  have hs := h.size
  have hms := h.mem_size
  have hl := h.layout
  have hp : 0 < xs.length := List.length_pos_iff.2 hx
  unfold popFront
  rw [if_neg (by omega), destroy_ok, map_ok, bind_ok]
  · refine ⟨_, rfl, ?_, rfl, rfl⟩
    show Inv E ⟨d.mem.over d.offset 1 fun _ => none, circularInc d d.offset, d.size - 1, d.alloc, d.gen⟩ _
    refine h.set _ _ _ rfl (by simp [hs]) ?_ fun j => ?_
    · unfold circularInc; split_ifs <;> omega
    · rw [over_get, h.get]
      simp only [← List.drop_one, List.getElem?_drop]
      unfold circularInc
      split_ifs <;> first | rfl | omega | (congr 1; omega) | (rw [List.getElem?_eq_none (by omega)]) |
        (rw [List.getElem?_eq_none (by omega), List.getElem?_eq_none (by omega)])
  · right; omega
  · intro j h1 h2
    exact h.isSome (by omega) (by rw [if_pos h1]; omega)

theorem popBack_spec {E : Env} {d : Deq α} {xs : List α} (h : Inv E d xs) (hx : xs ≠ []) :
    ∃ d', popBack d = .ok d' ∧ Inv E d' xs.dropLast ∧ d'.alloc = d.alloc ∧ d'.gen = d.gen := by
  have hs := h.size
  have hms := h.mem_size
  have hl := h.layout
  have hp : 0 < xs.length := List.length_pos_iff.2 hx
  unfold popBack
  have hw : wrap d (d.size - 1) < d.alloc := by rw [wrap_eq]; split_ifs <;> omega
  rw [if_neg (by omega), destroy_ok, map_ok, bind_ok]
  · refine ⟨_, rfl, ?_, rfl, rfl⟩
    dsimp only [Deq.setMem]
    refine h.set _ _ _ rfl (by simp [hs]) (by omega) fun j => ?_
    rw [over_get, h.get, wrap_eq]
    simp only [List.dropLast_eq_take, List.getElem?_take]
    split_ifs <;> first | rfl | omega | (rw [List.getElem?_eq_none (by omega)])
  · right; omega
  · intro j h1 h2
    have hj : j = wrap d (d.size - 1) := by omega
    subst hj
    refine h.isSome hw ?_
    rw [wrap_eq]
    split_ifs <;> omega

theorem destroyFrom_spec {E : Env} {d : Deq α} {xs : List α} (h : Inv E d xs) {n : Nat} (hn : n ≤ xs.length) :
    ∃ m, destroyFrom d n = .ok (d.setMem m) ∧ m.size = d.mem.size ∧
      ∀ j, m.get j = if j < d.alloc then
        (if d.offset ≤ j then (xs.take n)[j - d.offset]? else (xs.take n)[j + d.alloc - d.offset]?) else none := by
  have hs := h.size
  have hms := h.mem_size
  have hl := h.layout
  unfold destroyFrom
  rw [if_neg (by omega)]
  dsimp only
  split_ifs with h1
  · have hw : wrap d n = d.offset + n ∧ n < d.alloc - d.offset := by
      rw [wrap_eq] at h1 ⊢
      split_ifs at h1 ⊢ <;> omega
    obtain ⟨hw, hw2⟩ := hw
    rw [hw] at h1 ⊢
    rw [destroy_ok, bind_ok, destroy_ok, map_ok]
    · refine ⟨_, rfl, rfl, fun j => ?_⟩
      simp only [over_get, over_size, h.get, List.getElem?_take]
      split_ifs <;> first | rfl | omega | (rw [List.getElem?_eq_none (by omega)])
    · right; rw [over_size]; omega
    · intro j h2 h3
      rw [over_get, if_neg (by omega)]
      exact h.isSome (by omega) (by rw [if_pos (by omega)]; omega)
    · right; omega
    · intro j h2 h3
      exact h.isSome (by omega) (by rw [if_neg (by omega)]; omega)
  · rw [destroy_ok, map_ok]
    · refine ⟨_, rfl, rfl, fun j => ?_⟩
      simp only [over_get, over_size, h.get, List.getElem?_take]
      revert h1
      rw [wrap_eq]
      intro h1
      split_ifs at h1 ⊢ <;> first | rfl | omega | (rw [List.getElem?_eq_none (by omega)])
    · revert h1
      rw [wrap_eq]
      intro h1
      split_ifs at h1 ⊢ <;> omega
    · intro j h2 h3
      revert h1 h2 h3
      rw [wrap_eq]
      intro h1 h2 h3
      split_ifs at h1 h2 h3
      · exact h.isSome (by omega) (by split_ifs <;> omega)
      · exact h.isSome (by omega) (by split_ifs <;> omega)

theorem clear_spec {E : Env} {d : Deq α} {xs : List α} (h : Inv E d xs) :
    ∃ d', clear d = .ok d' ∧ Inv E d' [] ∧ d'.alloc = d.alloc ∧ d'.gen = d.gen := by
  obtain ⟨m, e1, e2, e3⟩ := destroyFrom_spec h (Nat.zero_le _)
  have hl := h.layout
  unfold clear
  rw [e1, bind_ok]
  refine ⟨_, rfl, ?_, rfl, rfl⟩
  refine h.set _ _ _ e2 (by simp) (by omega) fun j => ?_
  show m.get j = _
  rw [e3]
  simp

theorem values_get {ys : List (Option α)} (h : ys.all Option.isSome) (k : Nat) :
    (values ys)[k]? = ys[k]?.join ∧ (values ys).length = ys.length := by
  induction ys generalizing k with
  | nil => simp [values]
  | cons y ys ih =>
    simp only [List.all_cons, Bool.and_eq_true] at h
    obtain ⟨x, rfl⟩ := Option.isSome_iff_exists.1 h.1
    have hv : values (some x :: ys) = x :: values ys := rfl
    rw [hv]
    refine ⟨?_, by rw [List.length_cons, List.length_cons, (ih h.2 0).2]⟩
    cases k with
    | zero => rfl
    | succ k => rw [List.getElem?_cons_succ, List.getElem?_cons_succ]; exact (ih h.2 k).1

theorem append_aux {E : Env} {d : Deq α} {xs : List α} (h : Inv E d xs) (ys : List (Option α))
    (hc : xs.length + ys.length ≤ capacity d) (f : Mem α → Nat → Nat → List (Option α) → Out (Mem α))
    (hf : ∀ (m : Mem α) (base : Nat) (src : List (Option α)), (src = [] ∨ base + src.length ≤ m.size) →
      (∀ j, base ≤ j → j < base + src.length → m.get j = none) → f m base 0 src = fillOut m base src) :
    Good E d (xs.length + ys.length) (none ∈ ys) (xs ++ values ys) xs
      ((if ys.length ≤ d.alloc - wrap d d.size then (f d.mem (wrap d d.size) 0 ys).map d.setMem
        else ((f d.mem (wrap d d.size) 0 (ys.take (d.alloc - wrap d d.size))).map d.setMem).bind fun d' =>
          ((f d'.mem 0 0 (ys.drop (d.alloc - wrap d d.size))).onExc fun m =>
            destroy m (wrap d d.size) (d.alloc - wrap d d.size)).map d'.setMem).bind fun d =>
        .ok { d with size := d.size + ys.length }) := by
  have hs := h.size
  have hms := h.mem_size
  have hl := h.layout
  have hc' := hc
  rw [cap_eq] at hc'
  have hnotall : ¬ ys.all Option.isSome → none ∈ ys := by
    intro ha
    by_contra hn
    apply ha
    rw [List.all_eq_true]
    intro y hy
    cases y with
    | none => exact absurd hy hn
    | some _ => rfl
  have hall : ys.all Option.isSome → none ∉ ys := by
    intro ha hn
    have := (List.all_eq_true.1 ha) none hn
    cases this
  have hw : wrap d d.size = if d.size < d.alloc - d.offset then d.offset + d.size else d.size - (d.alloc - d.offset) :=
    wrap_eq _ _
  split_ifs with h1
  · rw [hf]
    · unfold fillOut
      split_ifs with ha
      · rw [map_ok, bind_ok]
        refine .inl ⟨_, rfl, ?_, hall ha, Nat.le_refl _, hc, fun _ => ⟨rfl, rfl⟩⟩
        dsimp only [Deq.setMem]
        have hvl := (values_get ha 0).2
        refine h.set _ _ _ rfl (by rw [List.length_append, hvl, hs]) (by omega) fun j => ?_
        simp only [over_get, h.get, List.getElem?_append, (values_get ha _).1]
        split_ifs at hw ⊢ <;> first | rfl | omega | (congr 2; omega) |
          (rw [List.getElem?_eq_none (by omega), List.getElem?_eq_none (by omega)]; rfl)
      · rw [map_exc, bind_exc]
        exact .inr ⟨_, _, rfl, h, Nat.le_refl _, fun _ => ⟨rfl, rfl⟩, .inl ⟨rfl, hnotall ha⟩⟩
    · by_cases hy : ys = []
      · exact .inl hy
      · right
        have : 0 < ys.length := List.length_pos_iff.2 hy
        split_ifs at hw <;> omega
    · intro j h2 h3
      apply h.isNone
      split_ifs at hw ⊢ <;> omega
  · -- two parts
    have hw' : wrap d d.size = d.offset + d.size ∧ d.size < d.alloc - d.offset := by
      split_ifs at hw <;> omega
    rw [hw'.1] at h1 ⊢
    have hlt : (ys.take (d.alloc - (d.offset + d.size))).length = d.alloc - (d.offset + d.size) := by
      rw [List.length_take]; omega
    have hld : (ys.drop (d.alloc - (d.offset + d.size))).length = ys.length - (d.alloc - (d.offset + d.size)) := by
      rw [List.length_drop]
    have hallsplit : ys.all Option.isSome = ((ys.take (d.alloc - (d.offset + d.size))).all Option.isSome &&
        (ys.drop (d.alloc - (d.offset + d.size))).all Option.isSome) := by
      rw [← List.all_append, List.take_append_drop]
    rw [hf]
    · by_cases ha : (ys.take (d.alloc - (d.offset + d.size))).all Option.isSome
      · unfold fillOut
        rw [if_pos ha, map_ok, bind_ok]
        dsimp only [Deq.setMem]
        rw [hf]
        · unfold fillOut
          by_cases hb : (ys.drop (d.alloc - (d.offset + d.size))).all Option.isSome
          · have hab : ys.all Option.isSome := by rw [hallsplit, ha, hb]; rfl
            rw [if_pos hb, onExc_ok, map_ok, bind_ok]
            refine .inl ⟨_, rfl, ?_, hall hab, Nat.le_refl _, hc, fun _ => ⟨rfl, rfl⟩⟩
            dsimp only [Deq.setMem]
            have hvl := (values_get hab 0).2
            refine h.set _ _ _ rfl (by rw [List.length_append, hvl, hs]) (by omega) fun j => ?_
            simp only [over_get, h.get, List.getElem?_append, (values_get hab _).1, List.getElem?_take,
              List.getElem?_drop, hlt, hld]
            split_ifs <;> first | rfl | omega | (congr 2; omega) |
              (rw [List.getElem?_eq_none (by omega), List.getElem?_eq_none (by omega)]; rfl)
          · have hab : ¬ ys.all Option.isSome := by rw [hallsplit, ha]; simpa using hb
            rw [if_neg hb]
            dsimp only [Out.onExc]
            rw [destroy_ok]
            · dsimp only
              rw [map_exc, bind_exc]
              refine .inr ⟨_, _, rfl, ?_, Nat.le_refl _, fun _ => ⟨rfl, rfl⟩, .inl ⟨rfl, hnotall hab⟩⟩
              refine h.set _ _ _ rfl hs hl fun j => ?_
              rw [← h.get]
              simp only [over_get, hlt]
              split_ifs with h2
              · rw [h.isNone]; rw [if_pos (by omega)]; omega
              · rfl
            · right; rw [over_size]; omega
            · intro j h2 h3
              have hj : j - (d.offset + d.size) < (ys.take (d.alloc - (d.offset + d.size))).length := by omega
              rw [over_get, if_pos (by omega), List.getElem?_eq_getElem hj]
              exact (List.all_eq_true.1 ha) _ (List.getElem_mem hj)
        · right; rw [hld, over_size]; omega
        · intro j h2 h3
          rw [over_get, if_neg (by omega)]
          apply h.isNone
          split_ifs <;> omega
      · have hab : ¬ ys.all Option.isSome := by
          rw [hallsplit]
          intro hc2
          rw [Bool.and_eq_true] at hc2
          exact ha hc2.1
        unfold fillOut
        rw [if_neg ha, map_exc, bind_exc, bind_exc]
        exact .inr ⟨_, _, rfl, h, Nat.le_refl _, fun _ => ⟨rfl, rfl⟩, .inl ⟨rfl, hnotall hab⟩⟩
    · right; rw [hlt]; omega
    · intro j h2 h3
      apply h.isNone
      split_ifs <;> omega

theorem appendFill_spec {E : Env} (hsz : 0 < E.sz) {d : Deq α} {xs : List α} (h : Inv E d xs)
    (ys : List (Option α)) :
    Good E d (xs.length + ys.length) (none ∈ ys) (xs ++ values ys) xs (appendFill E d ys) := by
  unfold appendFill
  exact resOk_bind (reserveExtra_spec hsz h _) h fun d' h' hc => append_aux h' ys hc safeFill safeFill_eq

theorem appendRange_spec {E : Env} (hsz : 0 < E.sz) {d : Deq α} {xs : List α} (h : Inv E d xs)
    (ys : List (Option α)) :
    Good E d (xs.length + ys.length) (none ∈ ys) (xs ++ values ys) xs (appendRange E d ys) := by
  unfold appendRange
  exact resOk_bind (reserveExtra_spec hsz h _) h fun d' h' hc => append_aux h' ys hc safeCopy safeCopy_eq

end Verif.Deque
