import Verif.Uninit.Model
import Mathlib.Tactic.SplitIfs
import Mathlib.Logic.Basic
/-
Closed forms of the functions for working with uninitialized memory.
-/
set_option linter.unusedSimpArgs false
set_option linter.unusedVariables false
set_option linter.unusedTactic false
namespace Verif.Uninit
variable {α : Type u} {σ τ : Type v}

@[simp] theorem bind_ok (s : σ) (f : σ → Out σ) : (Out.ok s).bind f = f s := rfl
@[simp] theorem bind_exc (e : Exc) (s : σ) (f : σ → Out σ) : (Out.exc e s).bind f = .exc e s := rfl
@[simp] theorem bind_ub (f : σ → Out σ) : Out.bind .ub f = .ub := rfl
@[simp] theorem bind_abort (f : σ → Out σ) : Out.bind .abort f = .abort := rfl
@[simp] theorem map_ok (s : σ) (f : σ → τ) : (Out.ok s).map f = .ok (f s) := rfl
@[simp] theorem map_exc (e : Exc) (s : σ) (f : σ → τ) : (Out.exc e s).map f = .exc e (f s) := rfl
@[simp] theorem map_ub (f : σ → τ) : Out.map .ub f = .ub := rfl
@[simp] theorem map_abort (f : σ → τ) : Out.map .abort f = .abort := rfl
@[simp] theorem onExc_ok (s : σ) (f : σ → Out σ) : (Out.ok s).onExc f = .ok s := rfl
@[simp] theorem onExc_ub (f : σ → Out σ) : Out.onExc .ub f = .ub := rfl

theorem Mem.ext {m1 m2 : Mem α} (h1 : m1.size = m2.size) (h2 : ∀ j, m1.get j = m2.get j) : m1 = m2 := by
  cases m1; cases m2; simp only [Mem.mk.injEq]; exact ⟨h1, funext h2⟩

theorem clean_of {m : Mem α} (h : ∀ j, m.get j = none) : m.clean = true := by
  simp [Mem.clean, h]

/-- Memory with a range changed. -/
def Mem.over (m : Mem α) (i n : Nat) (f : Nat → Option α) : Mem α :=
  ⟨m.size, fun j => if i ≤ j ∧ j < i + n then f (j - i) else m.get j⟩

@[simp] theorem over_size (m : Mem α) (i n f) : (m.over i n f).size = m.size := rfl
theorem over_get (m : Mem α) (i n f) (j : Nat) :
    (m.over i n f).get j = if i ≤ j ∧ j < i + n then f (j - i) else m.get j := rfl
@[simp] theorem put_size (m : Mem α) (i v) : (m.put i v).size = m.size := rfl
theorem put_get (m : Mem α) (i v) (j : Nat) : (m.put i v).get j = if j = i then v else m.get j := rfl

theorem over_zero (m : Mem α) (i f) : m.over i 0 f = m := by
  refine Mem.ext (by rfl) ?_; intro j; rw [over_get, if_neg (by omega)]

theorem construct_ok (m : Mem α) (i : Nat) (x : α) (h1 : i < m.size) (h2 : m.get i = none) :
    construct m i (some x) = .ok (m.put i (some x)) := by
  simp [construct, h1, h2]

theorem construct_exc (m : Mem α) (i : Nat) (h1 : i < m.size) (h2 : m.get i = none) :
    construct m i none = .exc .ctor m := by
  simp [construct, h1, h2]

theorem destroyAt_ok (m : Mem α) (i : Nat) (h1 : i < m.size) (h2 : (m.get i).isSome) :
    destroyAt m i = .ok (m.put i none) := by
  simp [destroyAt, h1, h2]

theorem destroy_ok (m : Mem α) (i n : Nat) (h1 : n = 0 ∨ i + n ≤ m.size)
    (h2 : ∀ j, i ≤ j → j < i + n → (m.get j).isSome) :
    destroy m i n = .ok (m.over i n fun _ => none) := by
  induction n generalizing m i with
  | zero => rw [destroy, over_zero]
  | succ n ih =>
    rw [destroy, destroyAt_ok m i (by omega) (h2 i (by omega) (by omega)), bind_ok, ih]
    · congr 1
      refine Mem.ext (by rfl) ?_
      intro j
      rw [over_get, over_get, put_get]
      split_ifs <;> first | rfl | omega
    · rw [put_size]; omega
    · intro j hj1 hj2
      rw [put_get, if_neg (by omega)]
      exact h2 j (by omega) (by omega)

theorem destroyDown_ok (m : Mem α) (i n : Nat) (h1 : n = 0 ∨ i + n ≤ m.size)
    (h2 : ∀ j, i ≤ j → j < i + n → (m.get j).isSome) :
    destroyDown m i n = .ok (m.over i n fun _ => none) := by
  induction n generalizing m with
  | zero => rw [destroyDown, over_zero]
  | succ n ih =>
    rw [destroyDown, destroyAt_ok m (i + n) (by omega) (h2 _ (by omega) (by omega)), bind_ok, ih]
    · congr 1
      refine Mem.ext (by rfl) ?_
      intro j
      rw [over_get, over_get, put_get]
      split_ifs <;> first | rfl | omega
    · rw [put_size]; omega
    · intro j hj1 hj2
      rw [put_get, if_neg (by omega)]
      exact h2 j (by omega) (by omega)

theorem moveAt_ok (m : Mem α) (a b : Nat) (h1 : a < m.size) (h2 : (m.get a).isSome) (h3 : b < m.size)
    (h4 : m.get b = none) : moveAt m a b = .ok ((m.put b (m.get a)).put a none) := by
  obtain ⟨x, hx⟩ := Option.isSome_iff_exists.1 h2
  have hab : a ≠ b := by intro h; rw [h, h4] at hx; cases hx
  simp only [moveAt, h1, if_true, hx]
  rw [construct_ok m b x h3 h4, bind_ok, destroyAt_ok]
  · exact h1
  · rw [put_get, if_neg hab, hx]; rfl

theorem moveLoop_ok (m : Mem α) (a b n : Nat) (h1 : n = 0 ∨ a + n ≤ m.size) (h3 : n = 0 ∨ b + n ≤ m.size)
    (hd : n = 0 ∨ b < a ∨ a + n ≤ b) (h2 : ∀ j, a ≤ j → j < a + n → (m.get j).isSome)
    (h4 : ∀ j, b ≤ j → j < b + n → ¬ (a ≤ j ∧ j < a + n) → m.get j = none) :
    moveUpwardLoop m a b n =
      .ok ((m.over a n fun _ => none).over b n fun k => m.get (a + k)) := by
  induction n generalizing m a b with
  | zero => rw [moveUpwardLoop, over_zero, over_zero]
  | succ n ih =>
    rw [moveUpwardLoop, moveAt_ok m a b (by omega) (h2 a (by omega) (by omega)) (by omega)
      (h4 b (by omega) (by omega) (by omega)), bind_ok, ih]
    · congr 1
      refine Mem.ext (by rfl) ?_
      intro j
      simp only [over_get, put_get, over_size]
      rcases Nat.lt_trichotomy j b with hj | hj | hj
      · split_ifs <;> first | rfl | omega
      · subst hj
        split_ifs <;> first | rfl | omega | (congr 1; omega)
      · split_ifs <;> first | rfl | omega | (congr 1; omega)
    · simp only [put_size]; omega
    · simp only [put_size]; omega
    · omega
    · intro j hj1 hj2
      simp only [put_get]
      rw [if_neg (by omega)]
      split_ifs with hjb
      · exact h2 a (by omega) (by omega)
      · exact h2 j (by omega) (by omega)
    · intro j hj1 hj2 hj3
      simp only [put_get]
      split_ifs
      · rfl
      · omega
      · exact h4 j (by omega) (by omega) (by omega)

theorem moveDownLoop_ok (m : Mem α) (a b n : Nat) (h1 : n = 0 ∨ a + n ≤ m.size) (h3 : n = 0 ∨ b + n ≤ m.size)
    (hd : n = 0 ∨ a < b ∨ b + n ≤ a) (h2 : ∀ j, a ≤ j → j < a + n → (m.get j).isSome)
    (h4 : ∀ j, b ≤ j → j < b + n → ¬ (a ≤ j ∧ j < a + n) → m.get j = none) :
    moveDownLoop m a b n =
      .ok ((m.over a n fun _ => none).over b n fun k => m.get (a + k)) := by
  induction n generalizing m with
  | zero => rw [moveDownLoop, over_zero, over_zero]
  | succ n ih =>
    rw [moveDownLoop, moveAt_ok m (a + n) (b + n) (by omega) (h2 _ (by omega) (by omega)) (by omega)
      (h4 _ (by omega) (by omega) (by omega)), bind_ok, ih]
    · congr 1
      refine Mem.ext (by rfl) ?_
      intro j
      simp only [over_get, put_get, over_size]
      rcases Nat.lt_trichotomy j (b + n) with hj | hj | hj
      · split_ifs <;> first | rfl | omega | (congr 1; omega)
      · subst hj
        split_ifs <;> first | rfl | omega | (congr 1; omega)
      · split_ifs <;> first | rfl | omega | (congr 1; omega)
    · simp only [put_size]; omega
    · simp only [put_size]; omega
    · omega
    · intro j hj1 hj2
      simp only [put_get]
      rw [if_neg (by omega)]
      split_ifs with hjb
      · exact h2 _ (by omega) (by omega)
      · exact h2 j (by omega) (by omega)
    · intro j hj1 hj2 hj3
      simp only [put_get]
      split_ifs
      · rfl
      · omega
      · exact h4 j (by omega) (by omega) (by omega)

theorem moveDownwards_ok (m : Mem α) (data n dist : Nat) (hd : 0 < dist) (h0 : n = 0 ∨ dist ≤ data)
    (h1 : n = 0 ∨ data + n ≤ m.size) (h2 : ∀ j, data ≤ j → j < data + n → (m.get j).isSome)
    (h4 : ∀ j, data ≤ j + dist → j < data → j + dist < data + n → m.get j = none) :
    moveDownwards m data n dist =
      .ok ((m.over data n fun _ => none).over (data - dist) n fun k => m.get (data + k)) := by
  rw [moveDownwards, if_neg (by omega)]
  split_ifs with h
  · apply moveLoop_ok
    · exact h1
    · omega
    · omega
    · exact h2
    · intro j hj1 hj2 hj3
      apply h4 j <;> omega
  · have h : n = 0 := by omega
    subst h
    rw [over_zero, over_zero]
  · omega

theorem moveUpwards_ok (m : Mem α) (data n dist : Nat) (hd : 0 < dist)
    (h1 : n = 0 ∨ data + dist + n ≤ m.size) (h2 : ∀ j, data ≤ j → j < data + n → (m.get j).isSome)
    (h4 : ∀ j, data + dist ≤ j → data + n ≤ j → j < data + dist + n → m.get j = none) :
    moveUpwards m data n dist =
      .ok ((m.over data n fun _ => none).over (data + dist) n fun k => m.get (data + k)) := by
  rw [moveUpwards, if_neg (by omega)]
  apply moveDownLoop_ok
  · omega
  · exact h1
  · omega
  · exact h2
  · intro j hj1 hj2 hj3
    apply h4 j <;> omega

theorem safeMove_ok (src dst : Mem α) (a b n : Nat) (h1 : n = 0 ∨ a + n ≤ src.size) (h3 : n = 0 ∨ b + n ≤ dst.size)
    (h2 : ∀ j, a ≤ j → j < a + n → (src.get j).isSome) (h4 : ∀ j, b ≤ j → j < b + n → dst.get j = none) :
    safeMove src a dst b n = .ok (src.over a n fun _ => none, dst.over b n fun k => src.get (a + k)) := by
  induction n generalizing src dst a b with
  | zero => rw [safeMove, over_zero, over_zero]
  | succ n ih =>
    have ha := h2 a (by omega) (by omega)
    obtain ⟨x, hx⟩ := Option.isSome_iff_exists.1 ha
    rw [safeMove, if_pos (by omega), hx]
    dsimp only
    rw [construct_ok dst b x (by omega) (h4 b (by omega) (by omega)), destroyAt_ok src a (by omega) ha]
    dsimp only
    rw [ih]
    · congr 2
      · refine Mem.ext (by rfl) ?_
        intro j
        simp only [over_get, put_get]
        split_ifs <;> first | rfl | omega
      · refine Mem.ext (by rfl) ?_
        intro j
        simp only [over_get, put_get]
        rcases Nat.lt_trichotomy j b with hj | hj | hj
        · split_ifs <;> first | rfl | omega
        · subst hj
          rw [if_neg (by omega), if_pos (by omega), if_pos (by omega), Nat.sub_self, Nat.add_zero, hx]
        · split_ifs <;> first | rfl | omega | (congr 1; omega)
    · simp only [put_size]; omega
    · simp only [put_size]; omega
    · intro j hj1 hj2
      rw [put_get, if_neg (by omega)]
      exact h2 j (by omega) (by omega)
    · intro j hj1 hj2
      rw [put_get, if_neg (by omega)]
      exact h4 j (by omega) (by omega)

theorem safeMoveA_ok (src dst : Mem α) (a b n : Nat) (h1 : n = 0 ∨ a + n ≤ src.size) (h3 : n = 0 ∨ b + n ≤ dst.size)
    (h2 : ∀ j, a ≤ j → j < a + n → (src.get j).isSome) (h4 : ∀ j, b ≤ j → j < b + n → dst.get j = none) :
    safeMoveA src a dst b n = .ok (dst.over b n fun k => src.get (a + k)) := by
  induction n generalizing dst a b with
  | zero => rw [safeMoveA, over_zero]
  | succ n ih =>
    have ha := h2 a (by omega) (by omega)
    obtain ⟨x, hx⟩ := Option.isSome_iff_exists.1 ha
    rw [safeMoveA, if_pos (by omega), hx]
    dsimp only
    rw [construct_ok dst b x (by omega) (h4 b (by omega) (by omega)), bind_ok, ih]
    · congr 1
      refine Mem.ext (by rfl) ?_
      intro j
      simp only [over_get, put_get]
      rcases Nat.lt_trichotomy j b with hj | hj | hj
      · split_ifs <;> first | rfl | omega
      · subst hj
        rw [if_neg (by omega), if_pos (by omega), if_pos (by omega), Nat.sub_self, Nat.add_zero, hx]
      · split_ifs <;> first | rfl | omega | (congr 1; omega)
    · omega
    · simp only [put_size]; omega
    · intro j hj1 hj2
      exact h2 j (by omega) (by omega)
    · intro j hj1 hj2
      rw [put_get, if_neg (by omega)]
      exact h4 j (by omega) (by omega)

/-- Outcome of constructing objects from a list of constructor results: all of them, or none if one throws. -/
def fillOut (m : Mem α) (base : Nat) (src : List (Option α)) : Out (Mem α) :=
  if src.all Option.isSome then .ok (m.over base src.length fun k => src[k]?.join) else .exc .ctor m

theorem loop_aux (f : Mem α → Nat → Nat → List (Option α) → Out (Mem α))
    (g : Mem α → Nat → Nat → Out (Mem α))
    (hnil : ∀ m b i, f m b i [] = .ok m)
    (hcons : ∀ m b i s rest, f m b i (s :: rest) =
      match construct m (b + i) s with
      | .ok m => f m b (i + 1) rest
      | r => r.onExc fun m => g m b i)
    (hg : ∀ (m : Mem α) (i n : Nat), (n = 0 ∨ i + n ≤ m.size) → (∀ j, i ≤ j → j < i + n → (m.get j).isSome) →
      g m i n = .ok (m.over i n fun _ => none))
    (m : Mem α) (base i : Nat) (src : List (Option α)) (h1 : i + src.length = 0 ∨ base + i + src.length ≤ m.size)
    (h2 : ∀ j, base ≤ j → j < base + i → (m.get j).isSome)
    (h4 : ∀ j, base + i ≤ j → j < base + i + src.length → m.get j = none) :
    f m base i src = if src.all Option.isSome then .ok (m.over (base + i) src.length fun k => src[k]?.join)
      else .exc .ctor (m.over base i fun _ => none) := by
  induction src generalizing m i with
  | nil => rw [hnil, if_pos (by simp)]; simp [over_zero]
  | cons s rest ih =>
    simp only [List.length_cons] at h1 h4
    have hb := h4 (base + i) (by omega) (by omega)
    rw [hcons]
    cases s with
    | none =>
      rw [construct_exc m _ (by omega) hb, if_neg (by simp)]
      dsimp only [Out.onExc]
      rw [hg m base i (by omega) h2]
    | some x =>
      rw [construct_ok m _ x (by omega) hb]
      dsimp only
      rw [ih]
      · have hall : (some x :: rest).all Option.isSome = rest.all Option.isSome := by simp
        rw [hall]
        by_cases hn : ¬ rest.all Option.isSome
        · rw [if_neg hn, if_neg hn]
          congr 1
          refine Mem.ext (by rfl) ?_
          intro j
          simp only [over_get, put_get]
          rcases Nat.lt_trichotomy j (base + i) with hj | hj | hj
          · split_ifs <;> first | rfl | omega
          · subst hj; rw [if_pos (by omega), if_neg (by omega), hb]
          · split_ifs <;> first | rfl | omega
        · rw [not_not] at hn
          rw [if_pos hn, if_pos hn]
          congr 1
          refine Mem.ext (by rfl) ?_
          intro j
          simp only [over_get, put_get, List.length_cons]
          rcases Nat.lt_trichotomy j (base + i) with hj | hj | hj
          · split_ifs <;> first | rfl | omega
          · subst hj; rw [if_neg (by omega), if_pos rfl, if_pos (by omega), Nat.sub_self]; rfl
          · have he : j - (base + i) = (j - (base + (i + 1))) + 1 := by omega
            rw [he, List.getElem?_cons_succ]
            split_ifs <;> first | rfl | omega
      · rw [put_size]; omega
      · intro j hj1 hj2
        rw [put_get]
        split_ifs
        · rfl
        · exact h2 j (by omega) (by omega)
      · intro j hj1 hj2
        rw [put_get, if_neg (by omega)]
        exact h4 j (by omega) (by omega)

theorem safeFill_eq (m : Mem α) (base : Nat) (src : List (Option α)) (h1 : src = [] ∨ base + src.length ≤ m.size)
    (h4 : ∀ j, base ≤ j → j < base + src.length → m.get j = none) : safeFill m base 0 src = fillOut m base src := by
  rw [loop_aux safeFill destroyDown (fun _ _ _ => rfl) (fun _ _ _ _ _ => rfl) destroyDown_ok m base 0 src]
  · rw [over_zero]; rfl
  · rcases h1 with rfl | h1
    · left; rfl
    · right; omega
  · omega
  · exact h4

theorem safeCopy_eq (m : Mem α) (base : Nat) (src : List (Option α)) (h1 : src = [] ∨ base + src.length ≤ m.size)
    (h4 : ∀ j, base ≤ j → j < base + src.length → m.get j = none) : safeCopy m base 0 src = fillOut m base src := by
  rw [loop_aux safeCopy destroy (fun _ _ _ => rfl) (fun _ _ _ _ _ => rfl) destroy_ok m base 0 src]
  · rw [over_zero]; rfl
  · rcases h1 with rfl | h1
    · left; rfl
    · right; omega
  · omega
  · exact h4

end Verif.Uninit
