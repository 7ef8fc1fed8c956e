import Verif.KeyBindings.Lemmas
import Verif.KeyBindings.Spec

/-!
# Pairing of calls for key down and key up
-/

namespace Verif.KeyBindings

open Spec

variable {κ W : Type} [LinearOrder κ]

/-! ### Lists of calls -/

theorem upFollowsDown_nil : UpFollowsDown [] := by
  intro a h b e; simp at e

theorem concat_cases {α : Type} {l a b : List α} {x y : α} (h : l ++ [x] = a ++ y :: b) :
    (b = [] ∧ a = l ∧ y = x) ∨ ∃ b', b = b' ++ [x] ∧ l = a ++ y :: b' := by
  rcases List.eq_nil_or_concat b with rfl | ⟨b', z, rfl⟩
  · left
    have := List.append_inj' h rfl
    refine ⟨rfl, this.1.symm, ?_⟩
    have := this.2
    simp only [List.cons.injEq, and_true] at this
    exact this.symm
  · right
    have e : a ++ y :: (b' ++ [z]) = (a ++ y :: b') ++ [z] := by simp
    rw [List.concat_eq_append, e] at h
    have := List.append_inj' h rfl
    have h2 := this.2
    simp only [List.cons.injEq, and_true] at h2
    exact ⟨b', by simp [h2], this.1⟩

theorem upFollowsDown_down {l : List (ℕ × Bool)} (h : UpFollowsDown l) (i : ℕ) : UpFollowsDown (l ++ [(i, true)]) := by
  intro a j b e
  rcases concat_cases e with ⟨_, _, e3⟩ | ⟨b', _, e2⟩
  · cases e3
  · exact h a j b' e2

theorem upFollowsDown_up {l : List (ℕ × Bool)} (h : UpFollowsDown l) {i : ℕ} (hl : ∃ c, l = c ++ [(i, true)]) :
    UpFollowsDown (l ++ [(i, false)]) := by
  intro a j b e
  rcases concat_cases e with ⟨_, e2, e3⟩ | ⟨b', _, e2⟩
  · cases e3; rw [e2]; exact hl
  · exact h a j b' e2

theorem downFollowedByUp_nil : DownFollowedByUp [] := by
  intro a h b e; simp at e

theorem downFollowedByUp_down {l : List (ℕ × Bool)} (h : DownFollowedByUp l) (hl : ¬∃ c j, l = c ++ [(j, true)]) (i : ℕ) :
    DownFollowedByUp (l ++ [(i, true)]) := by
  intro a j b e
  rcases concat_cases e with ⟨e1, _, _⟩ | ⟨b', e1, e2⟩
  · exact Or.inl e1
  · right
    rcases h a j b' e2 with h3 | ⟨c, h3⟩
    · subst h3
      exact absurd ⟨a, j, e2⟩ hl
    · exact ⟨c ++ [(i, true)], by rw [e1, h3]; rfl⟩

theorem downFollowedByUp_up {l : List (ℕ × Bool)} (h : DownFollowedByUp l) {i : ℕ} (hl : ∃ c, l = c ++ [(i, true)]) :
    DownFollowedByUp (l ++ [(i, false)]) := by
  intro a j b e
  rcases concat_cases e with ⟨_, _, e3⟩ | ⟨b', e1, e2⟩
  · cases e3
  · right
    rcases h a j b' e2 with h3 | ⟨c, h3⟩
    · subst h3
      obtain ⟨c, hc⟩ := hl
      rw [e2] at hc
      have := (List.append_inj' hc rfl).2
      cases this
      exact ⟨[], by rw [e1]; rfl⟩
    · exact ⟨c ++ [(i, false)], by rw [e1, h3]; rfl⟩

/-! ### Calls of a key -/

theorem callsOf_append (k : κ) (a b : List (κ × ℕ × Bool)) : callsOf k (a ++ b) = callsOf k a ++ callsOf k b := by
  unfold callsOf; simp

theorem callsOf_touch (H : Handlers κ W) (k k' : κ) (v : Slot) (c : Option (ℤ × Bool)) (s : State κ W) :
    callsOf k (touch H k' v c s).calls = callsOf k s.calls ++
      if k' = k then (c.map fun c => (c.1.toNat, c.2)).toList else [] := by
  unfold touch
  cases c with
  | none => simp
  | some c =>
    simp only
    rw [callsOf_append]
    congr 1
    unfold callsOf
    by_cases h : k' = k <;> simp [h]

theorem find_touch (H : Handlers κ W) (k k' : κ) {v v' : Slot} (c : Option (ℤ × Bool)) {s : State κ W}
    (h : findSlot k' s.slots = some v) :
    findSlot k (touch H k' v' c s).slots = if k = k' then some v' else findSlot k s.slots := by
  rw [touch_slots, findSlot_setSlot, h]; rfl

theorem bindKey_calls (b : Bind κ) (s : State κ W) : (bindKey b s).1.calls = s.calls := by
  unfold bindKey; split <;> rfl

/-! ### Key up follows key down -/

/-- The invariant: when a key is pressed, and has a handler, the "key down" call of that handler is the last one. -/
structure UpInv (k : κ) (s : State κ W) : Prop where
  calls : UpFollowsDown (callsOf k s.calls)
  last : ∀ v, findSlot k s.slots = some v → v.pressed = true → 0 ≤ v.handlerIndex → ∃ c, callsOf k s.calls = c ++ [(v.handlerIndex.toNat, true)]

theorem releaseCall_none {v : Slot} (h : releaseCall v = none) : v.pressed = false ∨ v.handlerIndex < 0 := by
  unfold releaseCall at h; split at h
  · assumption
  · cases h

theorem releaseCall_some {v : Slot} {c : ℤ × Bool} (h : releaseCall v = some c) :
    v.pressed = true ∧ 0 ≤ v.handlerIndex ∧ c = (v.handlerIndex, false) := by
  unfold releaseCall at h; split at h
  · cases h
  · next h2 =>
    cases h
    refine ⟨?_, by omega, rfl⟩
    cases hp : v.pressed with
    | true => rfl
    | false => exact absurd (Or.inl hp) h2

theorem UpInv.release {H : Handlers κ W} {k k' : κ} {v v' : Slot} {s : State κ W} (h : UpInv k s)
    (hf : findSlot k' s.slots = some v) (hv : v'.pressed = false) : UpInv k (touch H k' v' (releaseCall v) s) := by
  constructor
  · rw [callsOf_touch]
    by_cases hk : k' = k
    · subst hk
      rw [if_pos rfl]
      cases hc : releaseCall v with
      | none => simpa using h.calls
      | some c =>
        obtain ⟨h1, h2, rfl⟩ := releaseCall_some hc
        exact upFollowsDown_up h.calls (h.last v hf h1 h2)
    · rw [if_neg hk, List.append_nil]; exact h.calls
  · intro w hw hp hi
    rw [find_touch H k k' _ hf] at hw
    rw [callsOf_touch]
    by_cases hk : k = k'
    · rw [if_pos hk] at hw
      cases hw
      rw [hv] at hp; cases hp
    · rw [if_neg hk] at hw
      rw [if_neg (fun h => hk h.symm), List.append_nil]
      exact h.last w hw hp hi

theorem upInv_preserved (H : Handlers κ W) (k : κ) : Preserved H (fun _ => True) (UpInv (W := W) k) where
  requests := fun _ _ _ _ _ _ => trivial
  register := fun s _ h => ⟨h.calls, h.last⟩
  bind := by
    intro s b _ hw h hv
    constructor
    · rw [bindKey_calls]; exact h.calls
    · intro v hf hp hi
      rw [bindKey_find hw.sorted hv] at hf
      rw [bindKey_calls]
      split at hf
      · cases hf; cases hp
      · exact h.last v hf hp hi
  setMode := fun s _ _ _ h => ⟨h.calls, h.last⟩
  flag := fun s _ _ h => ⟨h.calls, h.last⟩
  press := by
    intro s k' t v hw h hf hp
    constructor
    · rw [callsOf_touch]
      by_cases hk : k' = k
      · rw [if_pos hk]
        cases hc : pressHandler s.mode t v with
        | none => simpa using h.calls
        | some i => exact upFollowsDown_down h.calls i.toNat
      · rw [if_neg hk, List.append_nil]; exact h.calls
    · intro w hw hp hi
      rw [find_touch H k k' _ hf] at hw
      rw [callsOf_touch]
      by_cases hk : k = k'
      · rw [if_pos hk] at hw
        rw [if_pos hk.symm]
        cases hw
        simp only [pressSlot] at hi ⊢
        cases hc : pressHandler s.mode t v with
        | none => rw [hc] at hi; simp at hi
        | some i => exact ⟨_, rfl⟩
      · rw [if_neg hk] at hw
        rw [if_neg (fun h => hk h.symm), List.append_nil]
        exact h.last w hw hp hi
  release := fun s k' v _ h hf _ => h.release hf rfl
  reset := fun s k' v _ h hf => h.release hf rfl

/-! ### Key down is followed by key up -/

/-- In addition: when the last call is a "key down" call, the key is pressed. -/
structure DownInv (k : κ) (s : State κ W) : Prop where
  up : UpInv k s
  calls : DownFollowedByUp (callsOf k s.calls)
  last : ∀ (c : List (ℕ × Bool)) (j : ℕ), callsOf k s.calls = c ++ [(j, true)] → ∃ v, findSlot k s.slots = some v ∧ v.pressed = true ∧ v.handlerIndex = j

theorem DownInv.release {H : Handlers κ W} {k k' : κ} {v v' : Slot} {s : State κ W} (h : DownInv k s)
    (hf : findSlot k' s.slots = some v) (hv : v'.pressed = false) : DownInv k (touch H k' v' (releaseCall v) s) := by
  refine ⟨h.up.release hf hv, ?_, ?_⟩
  · rw [callsOf_touch]
    by_cases hk : k' = k
    · subst hk
      rw [if_pos rfl]
      cases hc : releaseCall v with
      | none => simpa using h.calls
      | some c =>
        obtain ⟨h1, h2, rfl⟩ := releaseCall_some hc
        exact downFollowedByUp_up h.calls (h.up.last v hf h1 h2)
    · rw [if_neg hk, List.append_nil]; exact h.calls
  · intro c j hcj
    rw [callsOf_touch] at hcj
    rw [find_touch H k k' _ hf]
    by_cases hk : k = k'
    · subst hk
      rw [if_pos rfl] at hcj
      exfalso
      cases hc : releaseCall v with
      | none =>
        rw [hc] at hcj
        simp only [Option.map_none, Option.toList_none, List.append_nil] at hcj
        obtain ⟨w, hw, h1, h2⟩ := h.last c j hcj
        rw [hf] at hw
        cases hw
        rcases releaseCall_none hc with h3 | h3
        · rw [h1] at h3; cases h3
        · omega
      | some d =>
        obtain ⟨h1, h2, rfl⟩ := releaseCall_some hc
        rw [hc] at hcj
        have := (List.append_inj' hcj rfl).2
        cases this
    · rw [if_neg hk]
      rw [if_neg (fun h => hk h.symm), List.append_nil] at hcj
      exact h.last c j hcj

theorem downInv_preserved (H : Handlers κ W) (k : κ) (hH : ∀ i d w m, ∀ b ∈ (H i d w m).binds, b.key ≠ k) :
    Preserved H (NotBind k) (DownInv (W := W) k) where
  requests := hH
  register := fun s hw h => ⟨(upInv_preserved H k).register s hw h.up, h.calls, h.last⟩
  bind := by
    intro s b hb hw h hv
    refine ⟨(upInv_preserved H k).bind s b trivial hw h.up hv, ?_, ?_⟩
    · rw [bindKey_calls]; exact h.calls
    · intro c j hcj
      rw [bindKey_calls] at hcj
      rw [bindKey_find hw.sorted hv, if_neg (fun h => hb h.symm)]
      exact h.last c j hcj
  setMode := fun s _ _ _ h => ⟨⟨h.up.calls, h.up.last⟩, h.calls, h.last⟩
  flag := fun s _ _ h => ⟨⟨h.up.calls, h.up.last⟩, h.calls, h.last⟩
  press := by
    intro s k' t v hw h hf hp
    refine ⟨(upInv_preserved H k).press s k' t v hw h.up hf hp, ?_, ?_⟩
    · rw [callsOf_touch]
      by_cases hk : k' = k
      · subst hk
        rw [if_pos rfl]
        cases hc : pressHandler s.mode t v with
        | none => simpa using h.calls
        | some i =>
          refine downFollowedByUp_down h.calls ?_ i.toNat
          rintro ⟨c, j, hcj⟩
          obtain ⟨w, hw, h1, _⟩ := h.last c j hcj
          rw [hf] at hw
          cases hw
          rw [hp] at h1; cases h1
      · rw [if_neg hk, List.append_nil]; exact h.calls
    · intro c j hcj
      rw [callsOf_touch] at hcj
      rw [find_touch H k k' _ hf]
      by_cases hk : k = k'
      · subst hk
        rw [if_pos rfl] at hcj ⊢
        refine ⟨_, rfl, rfl, ?_⟩
        cases hc : pressHandler s.mode t v with
        | none =>
          rw [hc] at hcj
          simp only [Option.map_none, Option.toList_none, List.append_nil] at hcj
          obtain ⟨w, hw, h1, _⟩ := h.last c j hcj
          rw [hf] at hw
          cases hw
          rw [hp] at h1; cases h1
        | some i =>
          rw [hc] at hcj
          have h2 := (List.append_inj' hcj rfl).2
          simp only [Option.map_some, Option.toList_some, List.cons.injEq, Prod.mk.injEq, and_true] at h2
          simp only [pressSlot, hc, Option.getD_some]
          have := (hw.handlers k v hf _ (lookup_mem hc)).1
          simp only at this
          omega
      · rw [if_neg hk]
        rw [if_neg (fun h => hk h.symm), List.append_nil] at hcj
        exact h.last c j hcj
  release := fun s k' v _ h hf _ => h.release hf rfl
  reset := fun s k' v _ h hf => h.release hf rfl

/-! ### Setup -/

theorem wf_init (w : W) : WF ({ world := w } : State κ W) :=
  ⟨List.Pairwise.nil, fun k v h => (by cases h), fun k v h => (by cases h)⟩

/-- No key is pressed, and no handler was called. -/
structure Idle (s : State κ W) : Prop where
  wf : WF s
  calls : s.calls = []
  blur : s.blur = false
  mode : s.mode = 0
  slots : ∀ k v, findSlot k s.slots = some v → v.pressed = false ∧ v.mult = 0 ∧ v.maxMult = maxMultiplicity v.handlers

theorem idle_init (w : W) : Idle ({ world := w } : State κ W) := ⟨wf_init w, rfl, rfl, rfl, fun k v h => by cases h⟩

theorem Idle.register {s : State κ W} (h : Idle s) : Idle (registerHandler s).1 := by
  refine ⟨⟨h.wf.sorted, fun k v hv => ?_, fun k v hv e he => ?_⟩, h.calls, h.blur, h.mode, h.slots⟩
  · have := h.wf.index k v hv
    simp only [registerHandler]; omega
  · have := h.wf.handlers k v hv e he
    simp only [registerHandler]; omega

theorem Idle.bind {s : State κ W} (h : Idle s) (b : Bind κ) : Idle (bindKey b s).1 := by
  by_cases hv : ValidBind b s.handlerCount
  · refine ⟨h.wf.bind, ?_, ?_, ?_, ?_⟩
    · rw [bindKey_calls]; exact h.calls
    · rw [bindKey_valid hv]; exact h.blur
    · rw [bindKey_valid hv]; exact h.mode
    · intro k v hf
      rw [bindKey_find h.wf.sorted hv] at hf
      split at hf
      · cases hf; exact ⟨rfl, rfl, rfl⟩
      · exact h.slots k v hf
  · rw [bindKey_invalid hv]; exact h

theorem Idle.run {H : Handlers κ W} {ops : List (Op κ)} : ∀ {s s' : State κ W}, (∀ op ∈ ops, IsSetup op) → Idle s →
    run H ops s = some s' → Idle s' := by
  induction ops with
  | nil => intro s s' _ h hr; cases hr; exact h
  | cons op ops ih =>
    intro s s' hops h hr
    rw [KeyBindings.run, Option.bind_eq_some_iff] at hr
    obtain ⟨s1, h1, h2⟩ := hr
    refine ih (fun o ho => hops o (List.mem_cons_of_mem _ ho)) ?_ h2
    have := hops op List.mem_cons_self
    cases op with
    | register => cases h1; exact h.register
    | bind b => cases h1; exact h.bind b
    | _ => exact this.elim

theorem Idle.downInv {s : State κ W} (h : Idle s) (k : κ) : DownInv k s := by
  have hc : callsOf k s.calls = [] := by rw [h.calls]; rfl
  refine ⟨⟨by rw [hc]; exact upFollowsDown_nil, ?_⟩, by rw [hc]; exact downFollowedByUp_nil, ?_⟩
  · intro v hf hp
    rw [(h.slots k v hf).1] at hp; cases hp
  · intro c j hcj
    rw [hc] at hcj; simp at hcj

theorem run_append (H : Handlers κ W) (a b : List (Op κ)) : ∀ (s : State κ W), run H (a ++ b) s = (run H a s).bind (run H b) := by
  induction a with
  | nil => intro s; rfl
  | cons op a ih =>
    intro s
    simp only [List.cons_append, run]
    cases step H op s with
    | none => rfl
    | some s1 => exact ih s1

end Verif.KeyBindings
