import Verif.Deque.Lemmas
/-
Lemmas about erasure from a deque.
-/
set_option linter.unusedSimpArgs false
set_option linter.unusedVariables false
set_option linter.unusedTactic false
namespace Verif.Deque
open Uninit Spec
variable {α : Type u}

theorem moveAt_cases (m : Mem α) (a b : Nat) :
    moveAt m a b = .ub ∨ (a < m.size ∧ (m.get a).isSome ∧
      moveAt m a b = .ok ((m.put b (m.get a)).put a none)) := by
  by_cases h1 : a < m.size
  · cases hx : m.get a with
    | none => left; simp [moveAt, h1, hx]
    | some x =>
      by_cases h2 : b < m.size ∧ (m.get b).isNone
      · right
        have h3 : m.get b = none := by simpa using h2.2
        refine ⟨h1, by simp, ?_⟩
        rw [← hx]
        exact moveAt_ok m a b h1 (by rw [hx]; rfl) h2.1 h3
      · left
        simp only [moveAt, h1, if_true, hx, construct]
        rw [if_neg h2]
        rfl
  · left; simp [moveAt, h1]

theorem moveLoop_ub (m : Mem α) (a b n k : Nat) (hk : k < n)
    (h : m.size ≤ a + k ∨ (m.get (a + k) = none ∧ ∀ k', k' < k → b + k' ≠ a + k)) :
    moveUpwardLoop m a b n = .ub := by
  induction n generalizing m a b k with
  | zero => omega
  | succ n ih =>
    rw [moveUpwardLoop]
    rcases moveAt_cases m a b with h1 | ⟨h1, h2, h3⟩
    · rw [h1]; rfl
    · rw [h3, bind_ok]
      cases k with
      | zero =>
        rcases h with h | ⟨h, _⟩
        · omega
        · rw [Nat.add_zero] at h; rw [h] at h2; cases h2
      | succ k =>
        apply ih _ _ _ k (by omega)
        rcases h with h | ⟨h, h'⟩
        · left; show m.size ≤ _; omega
        · right
          constructor
          · rw [put_get, put_get]
            have := h' 0 (by omega)
            rw [show a + 1 + k = a + (k + 1) by omega, if_neg (by omega), if_neg (by omega), h]
          · intro k' hk'
            have := h' (k' + 1) (by omega)
            omega

theorem getElem?_erase (xs : List α) {i j : Nat} (hij : i ≤ j) (hj : j ≤ xs.length) (k : Nat) :
    (xs.take i ++ xs.drop j)[k]? = if k < i then xs[k]? else xs[k + (j - i)]? := by
  rw [List.getElem?_append, List.length_take, Nat.min_eq_left (by omega), List.getElem?_take, List.getElem?_drop]
  split_ifs
  · rfl
  · congr 1; omega

/-- The state after erasure near the front: the elements in front of the erased ones are moved upwards. -/
theorem front_final {E : Env} {d : Deq α} {xs : List α} (h : Inv E d xs) {b e : Nat} (hbe : b < e)
    (he : e ≤ xs.length) (m : Mem α) (hm : m.size = d.mem.size)
    (hg : ∀ j, m.get j = if j < d.alloc then
      (if d.offset ≤ j then (if j - d.offset < e - b then none else if j - d.offset < e then xs[j - d.offset - (e - b)]?
          else xs[j - d.offset]?)
       else (if j + d.alloc - d.offset < e - b then none
          else if j + d.alloc - d.offset < e then xs[j + d.alloc - d.offset - (e - b)]?
          else xs[j + d.alloc - d.offset]?)) else none) :
    Inv E ⟨m, wrap d (e - b), d.size - (e - b), d.alloc, d.gen⟩ (xs.take b ++ xs.drop e) := by
  have hs := h.size
  have hl := h.layout
  have hw := wrap_eq d (e - b)
  refine h.set _ _ _ hm ?_ ?_ fun j => ?_
  · rw [List.length_append, List.length_take, List.length_drop]; omega
  · split_ifs at hw <;> omega
  · rw [hg, getElem?_erase xs (by omega) he, getElem?_erase xs (by omega) he]
    split_ifs at hw ⊢ <;> first | rfl | omega | (congr 1; omega) | (rw [List.getElem?_eq_none (by omega)]) |
      (rw [List.getElem?_eq_none (by omega), List.getElem?_eq_none (by omega)])

/-- The state after erasure near the back: the elements behind the erased ones are moved downwards. -/
theorem back_final {E : Env} {d : Deq α} {xs : List α} (h : Inv E d xs) {b e : Nat} (hbe : b < e)
    (he : e ≤ xs.length) (m : Mem α) (hm : m.size = d.mem.size)
    (hg : ∀ j, m.get j = if j < d.alloc then
      (if d.offset ≤ j then (if j - d.offset < b then xs[j - d.offset]? else xs[j - d.offset + (e - b)]?)
       else (if j + d.alloc - d.offset < b then xs[j + d.alloc - d.offset]?
          else xs[j + d.alloc - d.offset + (e - b)]?)) else none) :
    Inv E ⟨m, d.offset, d.size - (e - b), d.alloc, d.gen⟩ (xs.take b ++ xs.drop e) := by
  have hs := h.size
  have hl := h.layout
  refine h.set _ _ _ hm ?_ ?_ fun j => ?_
  · rw [List.length_append, List.length_take, List.length_drop]; omega
  · omega
  · rw [hg, getElem?_erase xs (by omega) he, getElem?_erase xs (by omega) he]

/-- Closes goals about the contents of a slot. -/
macro "slot" : tactic => `(tactic|
  (repeat' (split <;> try (exfalso; omega; done))
   all_goals first | with_reducible rfl | (congr 1; omega) |
      (rw [List.getElem?_eq_none (by omega)]; done) |
      (rw [List.getElem?_eq_none (by omega), List.getElem?_eq_none (by omega)])))

set_option maxHeartbeats 4000000 in
theorem eraseNearFront_spec {E : Env} {d : Deq α} {xs : List α} (h : Inv E d xs) {b e : Nat} (hbe : b < e)
    (he : e ≤ xs.length) (hok : ¬ (d.alloc - d.offset < d.size ∧ d.alloc - d.offset < b)) :
    ∃ d', eraseNearFront d b e = .ok d' ∧ Inv E d' (xs.take b ++ xs.drop e) ∧ d'.alloc = d.alloc ∧ d'.gen = d.gen := by
  have hs := h.size
  have hms := h.mem_size
  have hl : d.offset < d.alloc ∧ d.size < d.alloc := by rcases h.layout with h | h <;> omega
  -- the last move
  have fin : ∀ (m : Mem α) (b2 : Nat), m.size = d.mem.size → b2 ≤ b →
      b2 + (e - b) ≤ d.alloc - d.offset ∨ b2 = 0 →
      (∀ j, m.get j = if j < d.alloc then
        (if d.offset ≤ j then
          (if j - d.offset < b2 then xs[j - d.offset]?
           else if j - d.offset < b2 + (e - b) then none
           else if j - d.offset < e then xs[j - d.offset - (e - b)]?
           else xs[j - d.offset]?)
         else
          (if j + d.alloc - d.offset < b2 then xs[j + d.alloc - d.offset]?
           else if j + d.alloc - d.offset < b2 + (e - b) then none
           else if j + d.alloc - d.offset < e then xs[j + d.alloc - d.offset - (e - b)]?
           else xs[j + d.alloc - d.offset]?)) else none) →
      ∃ d', (((moveUpwards m d.offset b2 (e - b)).map d.setMem).bind fun d =>
        .ok { d with offset := wrap d (e - b), size := d.size - (e - b) }) = .ok d' ∧
        Inv E d' (xs.take b ++ xs.drop e) ∧ d'.alloc = d.alloc ∧ d'.gen = d.gen := by
    intro m b2 hm hb2 hroom hg
    rw [moveUpwards_ok, map_ok, bind_ok]
    · refine ⟨_, rfl, ?_, rfl, rfl⟩
      refine front_final h hbe he _ hm fun j => ?_
      dsimp only [Deq.setMem]
      simp only [over_get, hg]
      slot
    · omega
    · omega
    · intro j h1 h2
      rw [hg, if_pos (by omega), if_pos (by omega), if_pos (by omega), List.getElem?_eq_getElem (by omega)]; rfl
    · intro j h1 h2 h3
      rw [hg]
      split_ifs <;> first | rfl | omega
  unfold eraseNearFront
  rw [if_neg (by omega)]
  unfold eraseNearFront1
  dsimp only
  by_cases h1 : d.size > d.alloc - d.offset
  swap
  · rw [if_neg h1, destroy_ok, map_ok]
    · dsimp only
      refine fin _ b rfl (Nat.le_refl _) (by omega) fun j => ?_
      simp only [over_get, h.get]
      slot
    · omega
    · intro j h2 h3
      exact h.isSome (by omega) (by rw [if_pos (by omega)]; omega)
  rw [if_pos h1]
  by_cases h2 : e ≤ d.alloc - d.offset
  · rw [if_pos h2, destroy_ok, map_ok]
    · dsimp only
      refine fin _ b rfl (Nat.le_refl _) (by omega) fun j => ?_
      simp only [over_get, h.get]
      slot
    · omega
    · intro j h2 h3
      exact h.isSome (by omega) (by rw [if_pos (by omega)]; omega)
  rw [if_neg h2]
  have hmin : ∀ x y : Nat, Nat.min x y = if x ≤ y then x else y := by
    intro x y
    show min x y = _
    split_ifs <;> omega
  by_cases h3 : b ≥ d.alloc - d.offset
  · have hb : b = d.alloc - d.offset := by omega
    rw [if_pos h3, destroy_ok, bind_ok, show b - (d.alloc - d.offset) = 0 by omega]
    · have : moveUpwards (d.mem.over 0 (e - b) fun _ => none) 0 0 (e - b) =
          .ok (d.mem.over 0 (e - b) fun _ => none) := by
        unfold moveUpwards; rw [if_neg (by omega)]; rfl
      rw [this]
      dsimp only
      rw [hmin]
      by_cases h4 : e - b ≤ b
      · rw [if_pos h4, moveLoop_ok, map_ok]
        · dsimp only
          refine fin _ _ rfl (by omega) (by omega) fun j => ?_
          simp only [over_get, h.get]
          slot
        · right; rw [over_size]; omega
        · right; rw [over_size]; omega
        · omega
        · intro j h5 h6
          rw [over_get, if_neg (by omega)]
          exact h.isSome (by omega) (by rw [if_pos (by omega)]; omega)
        · intro j h5 h6 h7
          rw [over_get, if_pos (by omega)]
      · rw [if_neg h4, moveLoop_ok, map_ok]
        · dsimp only
          refine fin _ _ rfl (by omega) (by omega) fun j => ?_
          simp only [over_get, h.get]
          slot
        · right; rw [over_size]; omega
        · right; rw [over_size]; omega
        · omega
        · intro j h5 h6
          rw [over_get, if_neg (by omega)]
          exact h.isSome (by omega) (by rw [if_pos (by omega)]; omega)
        · intro j h5 h6 h7
          rw [over_get, if_pos (by omega)]
    · omega
    · intro j h5 h6
      exact h.isSome (by omega) (by rw [if_neg (by omega)]; omega)
  · rw [if_neg h3, destroy_ok, bind_ok, destroy_ok]
    · dsimp only
      rw [hmin]
      by_cases h4 : e - (d.alloc - d.offset) ≤ b
      · rw [if_pos h4, moveLoop_ok, map_ok]
        · dsimp only
          refine fin _ _ rfl (by omega) (by omega) fun j => ?_
          simp only [over_get, h.get]
          slot
        · right; simp only [over_size]; omega
        · right; simp only [over_size]; omega
        · omega
        · intro j h5 h6
          rw [over_get, if_neg (by omega), over_get, if_neg (by omega)]
          exact h.isSome (by omega) (by rw [if_pos (by omega)]; omega)
        · intro j h5 h6 h7
          rw [over_get, if_pos (by omega)]
      · rw [if_neg h4, moveLoop_ok, map_ok]
        · dsimp only
          refine fin _ _ rfl (by omega) (by omega) fun j => ?_
          simp only [over_get, h.get]
          slot
        · right; simp only [over_size]; omega
        · right; simp only [over_size]; omega
        · omega
        · intro j h5 h6
          rw [over_get, if_neg (by omega), over_get, if_neg (by omega)]
          exact h.isSome (by omega) (by rw [if_pos (by omega)]; omega)
        · intro j h5 h6 h7
          rw [over_get, if_pos (by omega)]
    · right; rw [over_size]; omega
    · intro j h5 h6
      rw [over_get, if_neg (by omega)]
      exact h.isSome (by omega) (by rw [if_neg (by omega)]; omega)
    · omega
    · intro j h5 h6
      exact h.isSome (by omega) (by rw [if_pos (by omega)]; omega)

theorem eraseNearFront_ub {E : Env} {d : Deq α} {xs : List α} (h : Inv E d xs) {b e : Nat} (hbe : b < e)
    (he : e ≤ xs.length) (hbad : d.alloc - d.offset < d.size ∧ d.alloc - d.offset < b) :
    eraseNearFront d b e = .ub := by
  have hs := h.size
  have hms := h.mem_size
  have hl : d.offset < d.alloc ∧ d.size < d.alloc := by rcases h.layout with h | h <;> omega
  have hmin : ∀ x y : Nat, Nat.min x y = if x ≤ y then x else y := by
    intro x y
    show min x y = _
    split_ifs <;> omega
  unfold eraseNearFront
  rw [if_neg (by omega)]
  unfold eraseNearFront1
  dsimp only
  rw [if_pos (by omega), if_neg (by omega), if_pos (by omega), destroy_ok, bind_ok, moveUpwards_ok]
  · dsimp only
    have hn := hmin (e - b) b
    rw [moveLoop_ub _ _ _ _ (if d.alloc - d.offset ≤ b - Nat.min (e - b) b then 0 else
      d.alloc - d.offset - (b - Nat.min (e - b) b))]
    · rfl
    · split_ifs at hn ⊢ <;> omega
    · left
      simp only [over_size]
      split_ifs at hn ⊢ <;> omega
  · omega
  · right; rw [over_size]; omega
  · intro j h1 h2
    rw [over_get, if_neg (by omega)]
    exact h.isSome (by omega) (by rw [if_neg (by omega)]; omega)
  · intro j h1 h2 h3
    rw [over_get, if_pos (by omega)]
  · omega
  · intro j h1 h2
    exact h.isSome (by omega) (by rw [if_neg (by omega)]; omega)

set_option maxHeartbeats 4000000 in
theorem eraseNearBack_spec {E : Env} {d : Deq α} {xs : List α} (h : Inv E d xs) {b e : Nat} (hbe : b < e)
    (he : e ≤ xs.length) (hok : ¬ (d.alloc - d.offset < d.size ∧ e < d.alloc - d.offset ∧
      d.size - (d.alloc - d.offset) < e - b)) :
    ∃ d', eraseNearBack d b e = .ok d' ∧ Inv E d' (xs.take b ++ xs.drop e) ∧ d'.alloc = d.alloc ∧ d'.gen = d.gen := by
  have hs := h.size
  have hms := h.mem_size
  have hl : d.offset < d.alloc ∧ d.size < d.alloc := by rcases h.layout with h | h <;> omega
  -- the last move
  have fin : ∀ (m : Mem α) (e2 e3 : Nat), m.size = d.mem.size → e ≤ e2 → e2 ≤ d.size →
      ((e3 = d.offset + e2 ∧ d.size ≤ d.alloc - d.offset) ∨
       (e3 = e2 - (d.alloc - d.offset) ∧ d.alloc - d.offset < d.size ∧ (e2 = d.size ∨ d.alloc - d.offset + (e - b) ≤ e2))) →
      (∀ j, m.get j = if j < d.alloc then
        (if d.offset ≤ j then
          (if j - d.offset < b then xs[j - d.offset]?
           else if j - d.offset < e2 - (e - b) then xs[j - d.offset + (e - b)]?
           else if j - d.offset < e2 then none
           else xs[j - d.offset]?)
         else
          (if j + d.alloc - d.offset < b then xs[j + d.alloc - d.offset]?
           else if j + d.alloc - d.offset < e2 - (e - b) then xs[j + d.alloc - d.offset + (e - b)]?
           else if j + d.alloc - d.offset < e2 then none
           else xs[j + d.alloc - d.offset]?)) else none) →
      ∃ d', (if e2 > d.size then (.ub : Out (Deq α)) else
          ((moveDownwards m e3 (d.size - e2) (e - b)).map d.setMem).bind fun d =>
            .ok { d with size := d.size - (e - b) }) = .ok d' ∧
        Inv E d' (xs.take b ++ xs.drop e) ∧ d'.alloc = d.alloc ∧ d'.gen = d.gen := by
    intro m e2 e3 hm he2 hes hroom hg
    rw [if_neg (by omega), moveDownwards_ok, map_ok, bind_ok]
    · refine ⟨_, rfl, ?_, rfl, rfl⟩
      refine back_final h hbe he _ hm fun j => ?_
      dsimp only [Deq.setMem]
      simp only [over_get, hg]
      rcases hroom with ⟨r1, r2⟩ | ⟨r1, r2, r3⟩
      · slot
      · slot
    · omega
    · omega
    · omega
    · intro j h1 h2
      rw [hg, if_pos (by omega)]
      split_ifs <;> first | omega | (rw [List.getElem?_eq_getElem (by omega)]; rfl)
    · intro j h1 h2 h3
      rw [hg]
      split_ifs <;> first | rfl | omega
  unfold eraseNearBack
  rw [if_neg (by omega)]
  unfold eraseNearBack1
  dsimp only
  by_cases h1 : d.size > d.alloc - d.offset
  swap
  · rw [if_neg h1, destroy_ok, map_ok]
    · dsimp only
      refine fin _ e _ rfl (Nat.le_refl _) (by omega) (.inl ⟨by omega, by omega⟩) fun j => ?_
      simp only [over_get, h.get]
      slot
    · omega
    · intro j h2 h3
      exact h.isSome (by omega) (by rw [if_pos (by omega)]; omega)
  rw [if_pos h1]
  have hmin : ∀ x y : Nat, Nat.min x y = if x ≤ y then x else y := by
    intro x y
    show min x y = _
    split_ifs <;> omega
  by_cases h2 : b ≥ d.alloc - d.offset
  · rw [if_pos h2, destroy_ok, map_ok]
    · dsimp only
      refine fin _ e _ rfl (Nat.le_refl _) (by omega) (.inr ⟨rfl, h1, by omega⟩) fun j => ?_
      simp only [over_get, h.get]
      slot
    · omega
    · intro j h2 h3
      exact h.isSome (by omega) (by rw [if_neg (by omega)]; omega)
  rw [if_neg h2]
  by_cases h3 : e ≤ d.alloc - d.offset
  · rw [if_pos h3, destroy_ok, bind_ok, moveDownwards_ok]
    · dsimp only
      rw [hmin]
      by_cases h4 : e - b ≤ d.size - e
      · rw [if_pos h4, moveLoop_ok, map_ok]
        · dsimp only
          refine fin _ _ _ rfl (by omega) (by omega) (.inr ⟨rfl, h1, by omega⟩) fun j => ?_
          simp only [over_get, h.get]
          slot
        · right; simp only [over_size]; omega
        · right; simp only [over_size]; omega
        · omega
        · intro j h5 h6
          rw [over_get, if_neg (by omega), over_get, if_neg (by omega), over_get, if_neg (by omega)]
          exact h.isSome (by omega) (by rw [if_neg (by omega)]; omega)
        · intro j h5 h6 h7
          simp only [over_get]
          split_ifs <;> first | rfl | omega
      · rw [if_neg h4, moveLoop_ok, map_ok]
        · dsimp only
          refine fin _ _ _ rfl (by omega) (by omega) (.inr ⟨rfl, h1, by omega⟩) fun j => ?_
          simp only [over_get, h.get]
          slot
        · right; simp only [over_size]; omega
        · right; simp only [over_size]; omega
        · omega
        · intro j h5 h6
          rw [over_get, if_neg (by omega), over_get, if_neg (by omega), over_get, if_neg (by omega)]
          exact h.isSome (by omega) (by rw [if_neg (by omega)]; omega)
        · intro j h5 h6 h7
          simp only [over_get]
          split_ifs <;> first | rfl | omega
    · omega
    · omega
    · right; rw [over_size]; omega
    · intro j h5 h6
      rw [over_get, if_neg (by omega)]
      exact h.isSome (by omega) (by rw [if_pos (by omega)]; omega)
    · intro j h5 h6 h7
      rw [over_get, if_pos (by omega)]
    · omega
    · intro j h5 h6
      exact h.isSome (by omega) (by rw [if_pos (by omega)]; omega)
  · rw [if_neg h3, destroy_ok, bind_ok, destroy_ok]
    · dsimp only
      rw [hmin]
      by_cases h4 : e - b - (e - (d.alloc - d.offset)) ≤ d.size - e
      · rw [if_pos h4, moveLoop_ok, map_ok]
        · dsimp only
          refine fin _ _ _ rfl (by omega) (by omega) (.inr ⟨rfl, h1, by omega⟩) fun j => ?_
          simp only [over_get, h.get]
          slot
        · right; simp only [over_size]; omega
        · right; simp only [over_size]; omega
        · omega
        · intro j h5 h6
          rw [over_get, if_neg (by omega), over_get, if_neg (by omega)]
          exact h.isSome (by omega) (by rw [if_neg (by omega)]; omega)
        · intro j h5 h6 h7
          simp only [over_get]
          split_ifs <;> first | rfl | omega
      · rw [if_neg h4, moveLoop_ok, map_ok]
        · dsimp only
          refine fin _ _ _ rfl (by omega) (by omega) (.inr ⟨rfl, h1, by omega⟩) fun j => ?_
          simp only [over_get, h.get]
          slot
        · right; simp only [over_size]; omega
        · right; simp only [over_size]; omega
        · omega
        · intro j h5 h6
          rw [over_get, if_neg (by omega), over_get, if_neg (by omega)]
          exact h.isSome (by omega) (by rw [if_neg (by omega)]; omega)
        · intro j h5 h6 h7
          simp only [over_get]
          split_ifs <;> first | rfl | omega
    · right; rw [over_size]; omega
    · intro j h5 h6
      rw [over_get, if_neg (by omega)]
      exact h.isSome (by omega) (by rw [if_neg (by omega)]; omega)
    · omega
    · intro j h5 h6
      exact h.isSome (by omega) (by rw [if_pos (by omega)]; omega)

theorem eraseNearBack_ub {E : Env} {d : Deq α} {xs : List α} (h : Inv E d xs) {b e : Nat} (hbe : b < e)
    (he : e ≤ xs.length) (hbad : d.alloc - d.offset < d.size ∧ e < d.alloc - d.offset ∧
      d.size - (d.alloc - d.offset) < e - b) :
    eraseNearBack d b e = .ub := by
  have hs := h.size
  have hms := h.mem_size
  have hl : d.offset < d.alloc ∧ d.size < d.alloc := by rcases h.layout with h | h <;> omega
  have hmin : ∀ x y : Nat, Nat.min x y = if x ≤ y then x else y := by
    intro x y
    show min x y = _
    split_ifs <;> omega
  unfold eraseNearBack
  rw [if_neg (by omega)]
  unfold eraseNearBack1
  dsimp only
  rw [if_pos (by omega), if_neg (by omega), if_pos (by omega), destroy_ok, bind_ok, moveDownwards_ok]
  · dsimp only
    have hn := hmin (e - b) (d.size - e)
    rw [moveLoop_ub _ _ _ _ (d.size - (d.alloc - d.offset))]
    · rfl
    · split_ifs at hn <;> omega
    · right
      constructor
      · rw [over_get, if_neg (by omega), over_get, if_neg (by omega), over_get, if_neg (by omega)]
        apply h.isNone
        rw [if_neg (by omega)]; omega
      · intro k' hk'
        omega
  · omega
  · omega
  · right; rw [over_size]; omega
  · intro j h5 h6
    rw [over_get, if_neg (by omega)]
    exact h.isSome (by omega) (by rw [if_pos (by omega)]; omega)
  · intro j h5 h6 h7
    rw [over_get, if_pos (by omega)]
  · omega
  · intro j h5 h6
    exact h.isSome (by omega) (by rw [if_pos (by omega)]; omega)

/-- When `do_erase()` goes wrong. -/
def EraseBad (d : Deq α) (b e : Nat) : Prop :=
  d.alloc - d.offset < d.size ∧
    ((b < d.size - e ∧ d.alloc - d.offset < b) ∨
     (d.size - e ≤ b ∧ e < d.alloc - d.offset ∧ d.size - (d.alloc - d.offset) < e - b))

theorem doErase_spec {E : Env} {d : Deq α} {xs : List α} (h : Inv E d xs) {b e : Nat} (hbe : b ≤ e)
    (he : e ≤ xs.length) (hok : b = e ∨ ¬ EraseBad d b e) :
    ∃ d', doErase d b e = .ok d' ∧ Inv E d' (xs.take b ++ xs.drop e) ∧ d'.alloc = d.alloc ∧ d'.gen = d.gen := by
  unfold doErase
  by_cases h0 : b = e
  · subst h0
    rw [if_neg (by simp)]
    exact ⟨d, rfl, by rw [List.take_append_drop]; exact h, rfl, rfl⟩
  · rw [if_pos h0]
    unfold EraseBad at hok
    dsimp only
    split_ifs with h1
    · exact eraseNearBack_spec h (by omega) he (by omega)
    · exact eraseNearFront_spec h (by omega) he (by omega)

theorem doErase_ub {E : Env} {d : Deq α} {xs : List α} (h : Inv E d xs) {b e : Nat} (hbe : b < e)
    (he : e ≤ xs.length) (hbad : EraseBad d b e) : doErase d b e = .ub := by
  unfold doErase
  rw [if_pos (by omega)]
  unfold EraseBad at hbad
  dsimp only
  split_ifs with h1
  · exact eraseNearBack_ub h (by omega) he (by omega)
  · exact eraseNearFront_ub h (by omega) he (by omega)

end Verif.Deque
