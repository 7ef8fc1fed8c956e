import Mathlib.Data.List.Sort
import Verif.KeyBindings.Spec

/-!
# Lemmas about key bindings
-/

namespace Verif.KeyBindings

open Spec

variable {κ W : Type} [LinearOrder κ]

/-! ### Slots -/

theorem findSlot_nil (k : κ) : findSlot k [] = none := rfl

theorem findSlot_cons (k : κ) (e : κ × Slot) (l : List (κ × Slot)) :
    findSlot k (e :: l) = if e.1 = k then some e.2 else findSlot k l := by
  unfold findSlot
  by_cases h : e.1 = k <;> simp [h]

theorem findSlot_setSlot (k k' : κ) (v : Slot) (l : List (κ × Slot)) :
    findSlot k' (setSlot k v l) = if k' = k then (findSlot k l).map (fun _ => v) else findSlot k' l := by
  induction l with
  | nil => unfold setSlot findSlot; simp
  | cons e l ih =>
    have e1 : setSlot k v (e :: l) = (if e.1 = k then (e.1, v) else e) :: setSlot k v l := rfl
    rw [e1, findSlot_cons, ih, findSlot_cons, findSlot_cons]
    by_cases h : e.1 = k
    · by_cases h2 : k' = k
      · subst h2; simp [h]
      · have : ¬e.1 = k' := fun h3 => h2 (h3.symm.trans h)
        have h4 : ¬k = k' := fun h => h2 h.symm
        simp [h, h2, h4]
    · by_cases h2 : k' = k
      · subst h2; simp [h]
      · by_cases h3 : e.1 = k' <;> simp [h, h2, h3]

theorem keys_setSlot (k : κ) (v : Slot) (l : List (κ × Slot)) : (setSlot k v l).map Prod.fst = l.map Prod.fst := by
  unfold setSlot
  rw [List.map_map]
  apply List.map_congr_left
  intro e _
  simp only [Function.comp]
  split <;> rfl

theorem findSlot_eq_none {k : κ} {l : List (κ × Slot)} : findSlot k l = none ↔ ∀ e ∈ l, e.1 ≠ k := by
  induction l with
  | nil => simp [findSlot_nil]
  | cons e l ih =>
    rw [findSlot_cons]
    by_cases h : e.1 = k <;> simp [h, ih]

theorem mem_of_findSlot {k : κ} {l : List (κ × Slot)} {v : Slot} (h : findSlot k l = some v) : (k, v) ∈ l := by
  induction l with
  | nil => cases h
  | cons e l ih =>
    rw [findSlot_cons] at h
    by_cases h2 : e.1 = k
    · rw [if_pos h2] at h
      cases h
      subst h2
      exact List.mem_cons_self
    · rw [if_neg h2] at h
      exact List.mem_cons_of_mem _ (ih h)

/-- Slots are in order of strictly increasing keys. -/
def Sorted (l : List (κ × Slot)) : Prop := (l.map Prod.fst).Pairwise (· < ·)

theorem findSlot_of_mem {k : κ} {l : List (κ × Slot)} {v : Slot} (hs : Sorted l) (h : (k, v) ∈ l) : findSlot k l = some v := by
  induction l with
  | nil => cases h
  | cons e l ih =>
    rw [findSlot_cons]
    unfold Sorted at hs
    rw [List.map_cons, List.pairwise_cons] at hs
    rcases List.mem_cons.mp h with h2 | h2
    · subst h2; simp
    · have := hs.1 k (List.mem_map.mpr ⟨_, h2, rfl⟩)
      rw [if_neg (ne_of_lt this)]
      exact ih hs.2 h2

theorem mem_insertKey {k : κ} {l : List (κ × Slot)} {e : κ × Slot} (h : e ∈ insertKey k l) : e = (k, {}) ∨ e ∈ l := by
  induction l with
  | nil =>
    simp only [insertKey, List.mem_singleton] at h
    exact Or.inl h
  | cons a l ih =>
    simp only [insertKey] at h
    split at h
    · rcases List.mem_cons.mp h with h | h
      · exact Or.inr (h ▸ List.mem_cons_self)
      · exact (ih h).imp id (List.mem_cons_of_mem _)
    · split at h
      · exact Or.inr h
      · exact (List.mem_cons.mp h)

theorem sorted_insertKey (k : κ) {l : List (κ × Slot)} (h : Sorted l) : Sorted (insertKey k l) := by
  induction l with
  | nil => simp [insertKey, Sorted]
  | cons a l ih =>
    unfold Sorted at h ⊢
    rw [List.map_cons, List.pairwise_cons] at h
    simp only [insertKey]
    split
    · next h1 =>
      rw [List.map_cons, List.pairwise_cons]
      refine ⟨?_, ih h.2⟩
      intro b hb
      obtain ⟨e, he, rfl⟩ := List.mem_map.mp hb
      rcases mem_insertKey he with rfl | he
      · exact h1
      · exact h.1 _ (List.mem_map.mpr ⟨e, he, rfl⟩)
    · next h1 =>
      split
      · rw [List.map_cons, List.pairwise_cons]; exact h
      · next h2 =>
        have h3 : k < a.1 := lt_of_le_of_ne (not_lt.mp h1) (Ne.symm h2)
        rw [List.map_cons, List.map_cons, List.pairwise_cons, List.pairwise_cons]
        refine ⟨?_, h⟩
        intro b hb
        rcases List.mem_cons.mp hb with rfl | hb
        · exact h3
        · exact lt_trans h3 (h.1 b hb)

theorem findSlot_insertKey (k k' : κ) {l : List (κ × Slot)} (h : Sorted l) :
    findSlot k' (insertKey k l) = if k' = k then some ((findSlot k l).getD {}) else findSlot k' l := by
  induction l with
  | nil =>
    simp only [insertKey, findSlot_cons, findSlot_nil]
    by_cases h2 : k' = k
    · simp [h2]
    · have : ¬k = k' := fun h => h2 h.symm
      simp [h2, this]
  | cons a l ih =>
    unfold Sorted at h
    rw [List.map_cons, List.pairwise_cons] at h
    simp only [insertKey]
    split
    · next h1 =>
      rw [findSlot_cons, ih h.2, findSlot_cons, findSlot_cons, if_neg (ne_of_lt h1)]
      by_cases h2 : k' = k
      · subst h2; simp [ne_of_lt h1]
      · simp [h2]
    · next h1 =>
      split
      · next h2 =>
        rw [findSlot_cons, findSlot_cons]
        by_cases h3 : k' = k
        · subst h3; simp [h2]
        · have : ¬a.1 = k' := fun h => h3 (h.symm.trans h2)
          simp [this, h3]
      · next h2 =>
        have h3 : k < a.1 := lt_of_le_of_ne (not_lt.mp h1) (Ne.symm h2)
        have h4 : findSlot k (a :: l) = none := by
          rw [findSlot_eq_none]
          intro e he
          rcases List.mem_cons.mp he with rfl | he
          · exact h2
          · exact ne_of_gt (lt_trans h3 (h.1 _ (List.mem_map.mpr ⟨e, he, rfl⟩)))
        rw [h4, findSlot_cons]
        by_cases h5 : k' = k
        · subst h5; simp
        · have : ¬k = k' := fun h => h5 h.symm
          simp [this, h5]

/-! ### Well-formed states -/

/-- The slots are in order, and handler indexes are valid. -/
structure WF (s : State κ W) : Prop where
  sorted : Sorted s.slots
  index : ∀ k v, findSlot k s.slots = some v → v.handlerIndex < s.handlerCount
  handlers : ∀ k v, findSlot k s.slots = some v → ∀ e ∈ v.handlers, 0 ≤ e.2 ∧ e.2 < s.handlerCount

/-- The slot after a key is bound. -/
def rebound (b : Bind κ) (v : Slot) : Slot :=
  Slot.onReconfigured { v with handlers := assign (b.mode, b.mult) b.handler v.handlers }

instance (b : Bind κ) (n : ℕ) : Decidable (ValidBind b n) := inferInstanceAs (Decidable (_ ∧ _))

theorem bindKey_invalid {b : Bind κ} {s : State κ W} (h : ¬ValidBind b s.handlerCount) : bindKey b s = (s, false) := by
  unfold bindKey ValidBind at *
  rw [if_pos (by omega)]

theorem bindKey_valid {b : Bind κ} {s : State κ W} (h : ValidBind b s.handlerCount) :
    bindKey b s =
      ({ s with
          slots := setSlot b.key (rebound b ((findSlot b.key (insertKey b.key s.slots)).getD {})) (insertKey b.key s.slots) }, true) := by
  unfold bindKey ValidBind at *
  rw [if_neg (by omega)]
  rfl

theorem bindKey_find {b : Bind κ} {s : State κ W} (hs : Sorted s.slots) (h : ValidBind b s.handlerCount) (k : κ) :
    findSlot k (bindKey b s).1.slots =
      if k = b.key then some (rebound b ((findSlot b.key s.slots).getD {})) else findSlot k s.slots := by
  rw [bindKey_valid h]
  simp only
  rw [findSlot_setSlot, findSlot_insertKey _ _ hs, findSlot_insertKey _ _ hs]
  by_cases h2 : k = b.key <;> simp [h2]

theorem mem_assign {key : ℕ × ℤ} {i : ℤ} {l : List ((ℕ × ℤ) × ℤ)} {e : (ℕ × ℤ) × ℤ} (h : e ∈ assign key i l) :
    e = (key, i) ∨ e ∈ l := by
  induction l with
  | nil => simp only [assign, List.mem_singleton] at h; exact Or.inl h
  | cons a l ih =>
    simp only [assign] at h
    split at h
    · rcases List.mem_cons.mp h with h | h
      · exact Or.inl h
      · exact Or.inr (List.mem_cons_of_mem _ h)
    · rcases List.mem_cons.mp h with h | h
      · exact Or.inr (h ▸ List.mem_cons_self)
      · exact (ih h).imp id (List.mem_cons_of_mem _)

theorem lookup_mem {key : ℕ × ℤ} {i : ℤ} {l : List ((ℕ × ℤ) × ℤ)} (h : lookup key l = some i) : (key, i) ∈ l := by
  unfold lookup at h
  rw [Option.map_eq_some_iff] at h
  obtain ⟨e, h1, h2⟩ := h
  have h3 := List.find?_some h1
  have h4 := List.mem_of_find?_eq_some h1
  simp only [decide_eq_true_eq] at h3
  rw [← h3, ← h2]
  exact h4

theorem WF.bind {b : Bind κ} {s : State κ W} (h : WF s) : WF (bindKey b s).1 := by
  by_cases hb : ValidBind b s.handlerCount
  · have hc : (bindKey b s).1.handlerCount = s.handlerCount := by rw [bindKey_valid hb]
    refine ⟨?_, ?_, ?_⟩
    · rw [bindKey_valid hb]
      simp only
      unfold Sorted
      rw [keys_setSlot]
      exact sorted_insertKey _ h.sorted
    · intro k v hv
      rw [bindKey_find h.sorted hb] at hv
      rw [hc]
      split at hv
      · cases hv
        simp only [rebound, Slot.onReconfigured, Slot.reset]
        cases hf : findSlot b.key s.slots with
        | none => simp only [Option.getD_none]; omega
        | some w => exact h.index _ _ hf
      · exact h.index _ _ hv
    · intro k v hv e he
      rw [bindKey_find h.sorted hb] at hv
      rw [hc]
      split at hv
      · cases hv
        simp only [rebound, Slot.onReconfigured, Slot.reset] at he
        rcases mem_assign he with rfl | he
        · exact hb
        · cases hf : findSlot b.key s.slots with
          | none => rw [hf] at he; cases he
          | some w => rw [hf] at he; exact h.handlers _ _ hf e he
      · exact h.handlers _ _ hv e he
  · rw [bindKey_invalid hb]; exact h

/-! ### Elementary transitions -/

/-- A slot is modified, and a handler may be called. Requests of that handler are not included. -/
def touch (H : Handlers κ W) (k : κ) (v : Slot) (c : Option (ℤ × Bool)) (s : State κ W) : State κ W :=
  match c with
  | none => { s with slots := setSlot k v s.slots }
  | some (i, d) =>
    { s with slots := setSlot k v s.slots, world := (H i.toNat d s.world s.mode).world, mode := (H i.toNat d s.world s.mode).mode,
             calls := s.calls ++ [(k, i.toNat, d)] }

/-- The requests of the called handler. -/
def requests (H : Handlers κ W) (c : Option (ℤ × Bool)) (s : State κ W) : List (Bind κ) :=
  match c with
  | none => []
  | some (i, d) => (H i.toNat d s.world s.mode).binds

/-- Whether event processing may proceed. -/
def proceeds (H : Handlers κ W) (c : Option (ℤ × Bool)) (s : State κ W) : Bool :=
  match c with
  | none => true
  | some (i, d) => (H i.toNat d s.world s.mode).proceed

/-- Bind keys in order. -/
def bindAll (bs : List (Bind κ)) (s : State κ W) : State κ W := bs.foldl (fun s b => (bindKey b s).1) s

/-- A slot is modified, and a handler may be called. -/
def act (H : Handlers κ W) (k : κ) (v : Slot) (c : Option (ℤ × Bool)) (s : State κ W) : State κ W :=
  bindAll (requests H c s) (touch H k v c s)

/-- The multiplicity of a press. -/
def pressMult (mode : ℕ) (t : ℤ) (v : Slot) : ℤ :=
  (if v.mult > 0 ∧ mode = v.smode ∧ t - v.time ≤ 250 ∧ v.mult < v.maxMult then v.mult else 0) + 1

/-- The handler for a press. -/
def pressHandler (mode : ℕ) (t : ℤ) (v : Slot) : Option ℤ := lookup (mode, pressMult mode t v) v.handlers

/-- The slot after a press. -/
def pressSlot (mode : ℕ) (t : ℤ) (v : Slot) : Slot :=
  { v with pressed := true, mult := pressMult mode t v, time := t, smode := mode, handlerIndex := (pressHandler mode t v).getD (-1) }

/-- The call for a release. -/
def releaseCall (v : Slot) : Option (ℤ × Bool) := if v.pressed = false ∨ v.handlerIndex < 0 then none else some (v.handlerIndex, false)

theorem callHandler_eq (H : Handlers κ W) (k : κ) (v : Slot) (i : ℤ) (d : Bool) (s : State κ W) (h : 0 ≤ i ∧ i < s.handlerCount) :
    callHandler H k i d { s with slots := setSlot k v s.slots } = some (act H k v (some (i, d)) s, proceeds H (some (i, d)) s) := by
  unfold callHandler
  rw [if_pos h]
  rfl

theorem onKeydown_none (H : Handlers κ W) {k : κ} {t : ℤ} {s : State κ W} (h : findSlot k s.slots = none) :
    onKeydown H k t s = some (s, true) := by
  unfold onKeydown; rw [h]

theorem onKeydown_pressed (H : Handlers κ W) {k : κ} {t : ℤ} {s : State κ W} {v : Slot} (h : findSlot k s.slots = some v)
    (hp : v.pressed = true) : onKeydown H k t s = some (s, true) := by
  unfold onKeydown; rw [h]; simp [hp]

theorem onKeydown_eq (H : Handlers κ W) {k : κ} {t : ℤ} {s : State κ W} (hw : WF s) {v : Slot} (h : findSlot k s.slots = some v)
    (hp : v.pressed = false) :
    onKeydown H k t s = some (act H k (pressSlot s.mode t v) ((pressHandler s.mode t v).map (·, true)) s,
      proceeds H ((pressHandler s.mode t v).map (·, true)) s) := by
  unfold onKeydown
  rw [h]
  simp only [hp, Bool.false_eq_true, if_false, decide_eq_true_eq]
  change (match pressHandler s.mode t v with | none => _ | some index => _) = _
  cases hl : pressHandler s.mode t v with
  | none =>
    simp only [pressSlot, hl, Option.map_none, Option.getD_none]
    rfl
  | some i =>
    simp only [pressSlot, hl, Option.map_some, Option.getD_some]
    exact callHandler_eq H k _ i true s (hw.handlers k v h _ (lookup_mem hl))

theorem onKeyup_none (H : Handlers κ W) {k : κ} {s : State κ W} (h : findSlot k s.slots = none) : onKeyup H k s = some (s, true) := by
  unfold onKeyup; rw [h]

theorem onKeyup_released (H : Handlers κ W) {k : κ} {s : State κ W} {v : Slot} (h : findSlot k s.slots = some v)
    (hp : v.pressed = false) : onKeyup H k s = some (s, true) := by
  unfold onKeyup; rw [h]; simp [hp]

theorem onKeyup_eq (H : Handlers κ W) {k : κ} {s : State κ W} (hw : WF s) {v : Slot} (h : findSlot k s.slots = some v)
    (hp : v.pressed = true) :
    onKeyup H k s = some (act H k { v with pressed := false } (releaseCall v) s, proceeds H (releaseCall v) s) := by
  unfold onKeyup
  rw [h]
  simp only [hp, Bool.not_true, Bool.false_eq_true, if_false]
  by_cases hi : v.handlerIndex < 0
  · rw [if_pos hi]
    unfold releaseCall
    rw [if_pos (Or.inr hi)]
    rfl
  · rw [if_neg hi]
    have : releaseCall v = some (v.handlerIndex, false) := by
      unfold releaseCall; rw [if_neg]; rintro (h | h); · rw [hp] at h; cases h
      · exact hi h
    rw [this]
    exact callHandler_eq H k _ _ false s ⟨by omega, hw.index k v h⟩

theorem blurLoop_zero (H : Handlers κ W) (i : ℕ) (s : State κ W) : blurLoop H 0 i s = some ({ s with blur := false }, true) := rfl

theorem act_none (H : Handlers κ W) (k : κ) (v : Slot) (s : State κ W) :
    act H k v none s = { s with slots := setSlot k v s.slots } := rfl

theorem blurLoop_succ (H : Handlers κ W) {n i : ℕ} {s : State κ W} (hw : WF s) {k : κ} {v : Slot} (h : s.slots[i]? = some (k, v)) :
    blurLoop H (n + 1) i s =
      if proceeds H (releaseCall v) s then
        if (act H k v.reset (releaseCall v) s).slots.length = s.slots.length then
          blurLoop H n (i + 1) (act H k v.reset (releaseCall v) s)
        else none
      else some (act H k v.reset (releaseCall v) s, false) := by
  have hf : findSlot k s.slots = some v := findSlot_of_mem hw.sorted (List.mem_of_getElem? h)
  rw [blurLoop, h]
  simp only
  by_cases hp : v.pressed = false ∨ v.handlerIndex < 0
  · have hc : releaseCall v = none := by unfold releaseCall; rw [if_pos hp]
    have hb : (!v.pressed || decide (v.handlerIndex < 0)) = true := by
      rcases hp with hp | hp <;> simp [hp]
    rw [if_pos hb, hc, act_none]
    have hl : (setSlot k v.reset s.slots).length = s.slots.length := by unfold setSlot; simp
    simp only [proceeds, if_true, hl]
  · have hc : releaseCall v = some (v.handlerIndex, false) := by unfold releaseCall; rw [if_neg hp]
    have hb : ¬(!v.pressed || decide (v.handlerIndex < 0)) = true := by
      intro hb
      apply hp
      simpa using hb
    rw [if_neg hb, hc, callHandler_eq H k _ _ false s ⟨by omega, hw.index k v hf⟩]
    simp only
    have hl : (setSlot k v.reset s.slots).length = s.slots.length := by unfold setSlot; simp
    rw [hl]

/-! ### Preservation -/

theorem touch_slots (H : Handlers κ W) (k : κ) (v : Slot) (c : Option (ℤ × Bool)) (s : State κ W) :
    (touch H k v c s).slots = setSlot k v s.slots := by
  unfold touch; cases c <;> rfl

theorem touch_count (H : Handlers κ W) (k : κ) (v : Slot) (c : Option (ℤ × Bool)) (s : State κ W) :
    (touch H k v c s).handlerCount = s.handlerCount := by
  unfold touch; cases c <;> rfl

theorem WF.touch (H : Handlers κ W) {k : κ} {v w : Slot} {c : Option (ℤ × Bool)} {s : State κ W} (h : WF s)
    (hf : findSlot k s.slots = some v) (h1 : w.handlers = v.handlers) (h2 : w.handlerIndex < s.handlerCount) :
    WF (touch H k w c s) := by
  refine ⟨?_, ?_, ?_⟩
  · rw [touch_slots]; unfold Sorted; rw [keys_setSlot]; exact h.sorted
  · intro k' v' hv'
    rw [touch_slots, findSlot_setSlot, hf] at hv'
    rw [touch_count]
    split at hv'
    · cases hv'; exact h2
    · exact h.index k' v' hv'
  · intro k' v' hv'
    rw [touch_slots, findSlot_setSlot, hf] at hv'
    rw [touch_count]
    split at hv'
    · cases hv'
      show ∀ e ∈ w.handlers, _
      rw [h1]; exact h.handlers k v hf
    · exact h.handlers k' v' hv'

theorem pressSlot_index {s : State κ W} (hw : WF s) {k : κ} {v : Slot} (h : findSlot k s.slots = some v) (t : ℤ) :
    (pressSlot s.mode t v).handlerIndex < s.handlerCount := by
  show (pressHandler s.mode t v).getD (-1) < _
  cases hl : pressHandler s.mode t v with
  | none => simp only [Option.getD_none]; omega
  | some i => exact (hw.handlers k v h _ (lookup_mem hl)).2

/-- What is to be shown for a property to be preserved. -/
structure Preserved (H : Handlers κ W) (ok : Op κ → Prop) (P : State κ W → Prop) : Prop where
  requests : ∀ i d w m, ∀ b ∈ (H i d w m).binds, ok (.bind b)
  register : ∀ s, WF s → P s → P (registerHandler s).1
  bind : ∀ s b, ok (.bind b) → WF s → P s → ValidBind b s.handlerCount → P (bindKey b s).1
  setMode : ∀ s m, ok (.setMode m) → WF s → P s → P { s with mode := m }
  flag : ∀ s x, WF s → P s → P { s with blur := x }
  press : ∀ s k t v, WF s → P s → findSlot k s.slots = some v → v.pressed = false →
    P (touch H k (pressSlot s.mode t v) ((pressHandler s.mode t v).map (·, true)) s)
  release : ∀ s k v, WF s → P s → findSlot k s.slots = some v → v.pressed = true →
    P (touch H k { v with pressed := false } (releaseCall v) s)
  reset : ∀ s k v, WF s → P s → findSlot k s.slots = some v → P (touch H k v.reset (releaseCall v) s)

variable {H : Handlers κ W} {ok : Op κ → Prop} {P : State κ W → Prop}

theorem bindAll_inv (hP : Preserved H ok P) (bs : List (Bind κ)) : ∀ (s : State κ W), (∀ b ∈ bs, ok (.bind b)) → WF s → P s →
    WF (bindAll bs s) ∧ P (bindAll bs s) := by
  induction bs with
  | nil => intro s _ hw h; exact ⟨hw, h⟩
  | cons b bs ih =>
    intro s hb hw h
    have e : bindAll (b :: bs) s = bindAll bs (bindKey b s).1 := rfl
    rw [e]
    refine ih _ (fun b' hb' => hb b' (List.mem_cons_of_mem _ hb')) hw.bind ?_
    by_cases hv : ValidBind b s.handlerCount
    · exact hP.bind s b (hb b List.mem_cons_self) hw h hv
    · rw [bindKey_invalid hv]; exact h

theorem act_inv (hP : Preserved H ok P) {k : κ} {v : Slot} {c : Option (ℤ × Bool)} {s : State κ W}
    (hw : WF (touch H k v c s)) (h : P (touch H k v c s)) : WF (act H k v c s) ∧ P (act H k v c s) := by
  refine bindAll_inv hP _ _ ?_ hw h
  intro b hb
  unfold requests at hb
  cases c with
  | none => cases hb
  | some c => exact hP.requests _ _ _ _ b hb

theorem blurLoop_inv (hP : Preserved H ok P) (n : ℕ) : ∀ (i : ℕ) (s : State κ W), WF s → P s →
    ∀ r, blurLoop H n i s = some r → WF r.1 ∧ P r.1 := by
  induction n with
  | zero =>
    intro i s hw h r hr
    rw [blurLoop_zero] at hr
    cases hr
    exact ⟨⟨hw.sorted, hw.index, hw.handlers⟩, hP.flag s false hw h⟩
  | succ n ih =>
    intro i s hw h r hr
    cases he : s.slots[i]? with
    | none => rw [blurLoop, he] at hr; cases hr
    | some e =>
      obtain ⟨k, v⟩ := e
      have hf : findSlot k s.slots = some v := findSlot_of_mem hw.sorted (List.mem_of_getElem? he)
      have h2 := act_inv hP (hw.touch H (c := releaseCall v) (w := v.reset) hf rfl (hw.index k v hf)) (hP.reset s k v hw h hf)
      rw [blurLoop_succ H hw he] at hr
      split at hr
      · split at hr
        · exact ih _ _ h2.1 h2.2 r hr
        · cases hr
      · cases hr; exact h2

/-- Properties preserved by the elementary transitions are preserved by operations. -/
theorem step_inv (hP : Preserved H ok P) {op : Op κ} (hop : ok op) {s s' : State κ W} (hw : WF s) (h : P s)
    (hs : step H op s = some s') : WF s' ∧ P s' := by
  cases op with
  | register =>
    cases hs
    refine ⟨⟨hw.sorted, fun k v hv => ?_, fun k v hv e he => ?_⟩, hP.register s hw h⟩
    · have := hw.index k v hv
      simp only [registerHandler]; omega
    · have := hw.handlers k v hv e he
      simp only [registerHandler]; omega
  | bind b =>
    cases hs
    refine ⟨hw.bind, ?_⟩
    by_cases hv : ValidBind b s.handlerCount
    · exact hP.bind s b hop hw h hv
    · rw [bindKey_invalid hv]; exact h
  | setMode m => cases hs; exact ⟨⟨hw.sorted, hw.index, hw.handlers⟩, hP.setMode s m hop hw h⟩
  | keydown k t =>
    simp only [step] at hs
    cases hf : findSlot k s.slots with
    | none => rw [onKeydown_none H hf] at hs; cases hs; exact ⟨hw, h⟩
    | some v =>
      cases hp : v.pressed with
      | true => rw [onKeydown_pressed H hf hp] at hs; cases hs; exact ⟨hw, h⟩
      | false =>
        rw [onKeydown_eq H hw hf hp] at hs
        cases hs
        exact act_inv hP (hw.touch H hf rfl (pressSlot_index hw hf t)) (hP.press s k t v hw h hf hp)
  | keyup k =>
    simp only [step] at hs
    cases hf : findSlot k s.slots with
    | none => rw [onKeyup_none H hf] at hs; cases hs; exact ⟨hw, h⟩
    | some v =>
      cases hp : v.pressed with
      | false => rw [onKeyup_released H hf hp] at hs; cases hs; exact ⟨hw, h⟩
      | true =>
        rw [onKeyup_eq H hw hf hp] at hs
        cases hs
        exact act_inv hP (hw.touch H hf rfl (hw.index k v hf)) (hP.release s k v hw h hf hp)
  | blur =>
    simp only [step, onBlur, resumeIncomplete] at hs
    rw [Option.map_eq_some_iff] at hs
    obtain ⟨r, hr, rfl⟩ := hs
    exact blurLoop_inv hP _ _ { s with blur := true } ⟨hw.sorted, hw.index, hw.handlers⟩ (hP.flag s true hw h) r hr
  | resume =>
    simp only [step, resumeIfAny, resumeIncomplete] at hs
    rw [Option.map_eq_some_iff] at hs
    obtain ⟨r, hr, rfl⟩ := hs
    split at hr
    · cases hr; exact ⟨hw, h⟩
    · exact blurLoop_inv hP _ _ _ hw h r hr

theorem run_inv (hP : Preserved H ok P) (ops : List (Op κ)) : ∀ (s s' : State κ W), (∀ op ∈ ops, ok op) → WF s → P s →
    run H ops s = some s' → WF s' ∧ P s' := by
  induction ops with
  | nil => intro s s' _ hw h hr; cases hr; exact ⟨hw, h⟩
  | cons op ops ih =>
    intro s s' hops hw h hr
    rw [run, Option.bind_eq_some_iff] at hr
    obtain ⟨s1, h1, h2⟩ := hr
    have := step_inv hP (hops op List.mem_cons_self) hw h h1
    exact ih s1 s' (fun o ho => hops o (List.mem_cons_of_mem _ ho)) this.1 this.2 h2

end Verif.KeyBindings
