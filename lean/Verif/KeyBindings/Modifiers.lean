import Verif.KeyBindings.Taps

/-!
# Modifier keys
-/

namespace Verif.KeyBindings

open Spec

set_option linter.unusedSectionVars false
set_option linter.unusedVariables false

variable {κ W : Type} [LinearOrder κ]

/-- The modifier mode when the specified modifier key is the one in effect. -/
def modeOf : Option ℕ → ℕ
  | none => 0
  | some j => 2 ^ (j / 2)

/-- The state of the slot of a modifier key. -/
structure ModSlot (o : Option ℕ) (j : ℕ) (v : Slot) : Prop where
  handlers : ∀ m μ, lookup (m, μ) v.handlers = if m = 0 ∧ μ = 1 then some ((j / 2 : ℕ) : ℤ) else none
  max : v.maxMult = 1
  active : v.pressed = true ∧ 0 ≤ v.handlerIndex ↔ o = some j
  index : v.pressed = true → 0 ≤ v.handlerIndex → v.handlerIndex = ((j / 2 : ℕ) : ℤ)

/-- The state of the slot of any other key. -/
structure OtherSlot (v : Slot) : Prop where
  handlers : ∀ e ∈ v.handlers, 4 ≤ e.2
  index : v.pressed = true → v.handlerIndex < 0 ∨ 4 ≤ v.handlerIndex

/-- The invariant. -/
structure ModInv (keys : ℕ → κ) (o : Option ℕ) (s : State κ W) : Prop where
  lt : ∀ j, o = some j → j < 8
  mode : s.mode = modeOf o
  slot : ∀ j, j < 8 → ∃ v, findSlot (keys j) s.slots = some v ∧ ModSlot o j v
  other : ∀ k v, findSlot k s.slots = some v → (∀ j, j < 8 → k ≠ keys j) → OtherSlot v

theorem modifierFunc_bits : ∀ i, i < 4 → modifierFunc (2 ^ i) true 0 = 2 ^ i ∧ modifierFunc (2 ^ i) false (2 ^ i) = 0 := by decide

theorem engine_low {U : Handlers κ W} {i : ℕ} (h : i < 4) (d : Bool) (w : W) (m : ℕ) :
    (engineHandlers U i d w m).mode = modifierFunc (2 ^ i) d m ∧ (engineHandlers U i d w m).binds = [] := by
  unfold engineHandlers; rw [if_pos h]; exact ⟨rfl, rfl⟩

theorem engine_high {U : Handlers κ W} {i : ℕ} (h : ¬i < 4) (d : Bool) (w : W) (m : ℕ) :
    (engineHandlers U i d w m).mode = m ∧ (engineHandlers U i d w m).binds = (U i d w m).binds := by
  unfold engineHandlers; rw [if_neg h]; exact ⟨rfl, rfl⟩

theorem touch_mode (H : Handlers κ W) (k : κ) (v : Slot) (c : Option (ℤ × Bool)) (s : State κ W) :
    (touch H k v c s).mode = match c with | none => s.mode | some c => (H c.1.toNat c.2 s.world s.mode).mode := by
  unfold touch; cases c <;> rfl

theorem mod_pressHandler {o : Option ℕ} {j : ℕ} {v : Slot} (h : ModSlot o j v) (m : ℕ) (t : ℤ) :
    pressHandler m t v = if m = 0 then some ((j / 2 : ℕ) : ℤ) else none := by
  unfold pressHandler
  rw [h.handlers]
  have : pressMult m t v = 1 := by
    unfold pressMult
    rw [h.max, if_neg (by omega)]; rfl
  rw [this]
  simp

theorem modeOf_eq_zero {o : Option ℕ} : modeOf o = 0 ↔ o = none := by
  cases o with
  | none => simp [modeOf]
  | some j => simp [modeOf]

theorem exists_index {k : κ} {keys : ℕ → κ} : (∃ j, j < 8 ∧ k = keys j) ∨ ∀ j, j < 8 → k ≠ keys j := by
  by_cases h : ∃ j, j < 8 ∧ k = keys j
  · exact Or.inl h
  · right
    intro j hj e
    exact h ⟨j, hj, e⟩

/-- The effect of the release of a key. -/
theorem ModInv.release {U : Handlers κ W} {keys : ℕ → κ} (hk : Distinct keys) {o : Option ℕ} {s : State κ W} (h : ModInv keys o s)
    {k : κ} {v v' : Slot} (hf : findSlot k s.slots = some v) (h1 : v'.handlers = v.handlers) (h2 : v'.maxMult = v.maxMult)
    (h3 : v'.pressed = false) :
    ∃ o', ModInv keys o' (touch (engineHandlers U) k v' (releaseCall v) s) := by
  rcases exists_index (k := k) (keys := keys) with ⟨j, hj, rfl⟩ | hother
  · obtain ⟨w, hw, hm⟩ := h.slot j hj
    rw [hf] at hw
    cases hw
    have hm' : ∀ o', o' ≠ some j → ModSlot o' j v' := by
      intro o' ho'
      refine ⟨by rw [h1]; exact hm.handlers, by rw [h2]; exact hm.max, ?_, ?_⟩
      · rw [h3]
        exact ⟨fun h => (by cases h.1), fun h => absurd h ho'⟩
      · rw [h3]; intro h; cases h
    have hrest : ∀ (o' : Option ℕ), o' ≠ some j → (∀ i, i < 8 → i ≠ j → (o = some i ↔ o' = some i)) → ∀ i, i < 8 →
        ∃ u, findSlot (keys i) (touch (engineHandlers U) (keys j) v' (releaseCall v) s).slots = some u ∧ ModSlot o' i u := by
      intro o' ho' hiff i hi
      rw [find_touch _ _ _ _ hf]
      by_cases hij : i = j
      · subst hij
        rw [if_pos rfl]
        exact ⟨v', rfl, hm' o' ho'⟩
      · rw [if_neg (fun e => hij (hk i j hi hj e))]
        obtain ⟨w, hw, hmw⟩ := h.slot i hi
        exact ⟨w, hw, hmw.handlers, hmw.max, hmw.active.trans (hiff i hi hij), hmw.index⟩
    have hoth : ∀ k' w, findSlot k' (touch (engineHandlers U) (keys j) v' (releaseCall v) s).slots = some w →
        (∀ i, i < 8 → k' ≠ keys i) → OtherSlot w := by
      intro k' w hw hk'
      rw [find_touch _ _ _ _ hf, if_neg (hk' j hj)] at hw
      exact h.other k' w hw hk'
    cases hc : releaseCall v with
    | none =>
      rw [hc] at hrest hoth
      have hne : o ≠ some j := by
        intro ho
        obtain ⟨h4, h5⟩ := hm.active.mpr ho
        rcases releaseCall_none hc with h6 | h6
        · rw [h4] at h6; cases h6
        · omega
      exact ⟨o, h.lt, by rw [touch_mode]; exact h.mode, hrest o hne (fun _ _ _ => Iff.rfl), hoth⟩
    | some c =>
      rw [hc] at hrest hoth
      obtain ⟨h4, h5, rfl⟩ := releaseCall_some hc
      have ho := hm.active.mp ⟨h4, h5⟩
      refine ⟨none, fun j h => (by cases h), ?_, hrest none (by simp) ?_, hoth⟩
      · rw [touch_mode]
        simp only
        rw [hm.index h4 h5, Int.toNat_natCast, (engine_low (by omega) _ _ _).1, h.mode, ho]
        exact (modifierFunc_bits (j / 2) (by omega)).2
      · intro i _ hij
        rw [ho]
        simp only [Option.some.injEq, reduceCtorEq, iff_false]
        exact fun e => hij e.symm
  · have hv := h.other k v hf hother
    refine ⟨o, h.lt, ?_, ?_, ?_⟩
    · rw [touch_mode]
      cases hc : releaseCall v with
      | none => exact h.mode
      | some c =>
        obtain ⟨h4, h5, rfl⟩ := releaseCall_some hc
        have := (hv.index h4).resolve_left (by omega)
        simp only
        rw [(engine_high (by omega) _ _ _).1]
        exact h.mode
    · intro i hi
      rw [find_touch _ _ _ _ hf, if_neg (fun e => hother i hi e.symm)]
      exact h.slot i hi
    · intro k' w hw hk'
      rw [find_touch _ _ _ _ hf] at hw
      split at hw
      · cases hw
        exact ⟨by rw [h1]; exact hv.handlers, fun h => by rw [h3] at h; cases h⟩
      · exact h.other k' w hw hk'

theorem ModInv.press {U : Handlers κ W} {keys : ℕ → κ} (hk : Distinct keys) {o : Option ℕ} {s : State κ W} (h : ModInv keys o s)
    {k : κ} {v : Slot} {t : ℤ} (hf : findSlot k s.slots = some v) (hp : v.pressed = false) :
    ∃ o', ModInv keys o' (touch (engineHandlers U) k (pressSlot s.mode t v) ((pressHandler s.mode t v).map (·, true)) s) := by
  rcases exists_index (k := k) (keys := keys) with ⟨j, hj, rfl⟩ | hother
  · obtain ⟨w, hw, hm⟩ := h.slot j hj
    rw [hf] at hw
    cases hw
    have hne : o ≠ some j := by
      intro ho
      have := (hm.active.mpr ho).1
      rw [hp] at this; cases this
    have hph := mod_pressHandler hm s.mode t
    have hoth : ∀ c k' w, findSlot k' (touch (engineHandlers U) (keys j) (pressSlot s.mode t v) c s).slots = some w →
        (∀ i, i < 8 → k' ≠ keys i) → OtherSlot w := by
      intro c k' w hw hk'
      rw [find_touch _ _ _ _ hf, if_neg (hk' j hj)] at hw
      exact h.other k' w hw hk'
    by_cases h0 : s.mode = 0
    · rw [if_pos h0] at hph
      have ho : o = none := modeOf_eq_zero.mp (h.mode.symm.trans h0)
      refine ⟨some j, fun i e => (by cases e; exact hj), ?_, ?_, hoth _⟩
      · rw [touch_mode, hph]
        simp only [Option.map_some]
        rw [Int.toNat_natCast, (engine_low (by omega) _ _ _).1, h0]
        exact (modifierFunc_bits (j / 2) (by omega)).1
      · intro i hi
        rw [find_touch _ _ _ _ hf]
        by_cases hij : i = j
        · subst hij
          rw [if_pos rfl]
          refine ⟨_, rfl, hm.handlers, hm.max, ?_, ?_⟩
          · simp only [pressSlot, hph, Option.getD_some]
            exact ⟨fun _ => trivial, fun _ => ⟨trivial, by omega⟩⟩
          · intro _ _
            simp only [pressSlot, hph, Option.getD_some]
        · rw [if_neg (fun e => hij (hk i j hi hj e))]
          obtain ⟨w, hw, hmw⟩ := h.slot i hi
          refine ⟨w, hw, hmw.handlers, hmw.max, hmw.active.trans ?_, hmw.index⟩
          rw [ho]
          simp only [Option.some.injEq, reduceCtorEq, false_iff]
          exact fun e => hij e.symm
    · rw [if_neg h0] at hph
      refine ⟨o, h.lt, ?_, ?_, hoth _⟩
      · rw [touch_mode, hph]; exact h.mode
      · intro i hi
        rw [find_touch _ _ _ _ hf]
        by_cases hij : i = j
        · subst hij
          rw [if_pos rfl]
          refine ⟨_, rfl, hm.handlers, hm.max, ?_, ?_⟩
          · simp only [pressSlot, hph, Option.getD_none]
            exact ⟨fun h => absurd h.2 (by decide), fun h => absurd h hne⟩
          · intro _ h
            simp only [pressSlot, hph, Option.getD_none] at h
            exact absurd h (by decide)
        · rw [if_neg (fun e => hij (hk i j hi hj e))]
          exact h.slot i hi
  · have hv := h.other k v hf hother
    have hh : ∀ i, pressHandler s.mode t v = some i → 4 ≤ i := fun i hi => hv.handlers _ (lookup_mem hi)
    refine ⟨o, h.lt, ?_, ?_, ?_⟩
    · rw [touch_mode]
      cases hc : pressHandler s.mode t v with
      | none => exact h.mode
      | some i =>
        have := hh i hc
        simp only [Option.map_some]
        rw [(engine_high (by omega) _ _ _).1]
        exact h.mode
    · intro i hi
      rw [find_touch _ _ _ _ hf, if_neg (fun e => hother i hi e.symm)]
      exact h.slot i hi
    · intro k' w hw hk'
      rw [find_touch _ _ _ _ hf] at hw
      split at hw
      · cases hw
        refine ⟨hv.handlers, fun _ => ?_⟩
        simp only [pressSlot]
        cases hc : pressHandler s.mode t v with
        | none => left; decide
        | some i => right; exact hh i hc
      · exact h.other k' w hw hk'

theorem ModInv.bind {keys : ℕ → κ} {o : Option ℕ} {s : State κ W} (h : ModInv keys o s) (hw : WF s) {b : Bind κ}
    (hb : Foreign keys b) (hv : ValidBind b s.handlerCount) : ModInv keys o (bindKey b s).1 := by
  refine ⟨h.lt, ?_, ?_, ?_⟩
  · rw [bindKey_valid hv]; exact h.mode
  · intro j hj
    rw [bindKey_find hw.sorted hv, if_neg (fun e => hb.2 j hj e.symm)]
    exact h.slot j hj
  · intro k v hf hk'
    rw [bindKey_find hw.sorted hv] at hf
    split at hf
    · next hk2 =>
      cases hf
      refine ⟨?_, fun h => (by cases h)⟩
      intro e he
      have he : e ∈ assign (b.mode, b.mult) b.handler ((findSlot b.key s.slots).getD {}).handlers := he
      rcases mem_assign he with rfl | he
      · exact hb.1
      · cases hf : findSlot b.key s.slots with
        | none => rw [hf] at he; cases he
        | some w =>
          rw [hf] at he
          exact (h.other _ _ hf (hk2 ▸ hk')).handlers e he
    · exact h.other k v hf hk'

theorem engine_requests {U : Handlers κ W} {p : Bind κ → Prop} (hU : ∀ i d w m, ∀ b ∈ (U i d w m).binds, p b) :
    ∀ i d w m, ∀ b ∈ (engineHandlers U i d w m).binds, p b := by
  intro i d w m b hb
  by_cases hi : i < 4
  · rw [(engine_low hi _ _ _).2] at hb; cases hb
  · rw [(engine_high hi _ _ _).2] at hb; exact hU i d w m b hb

theorem modInv_preserved {U : Handlers κ W} {keys : ℕ → κ} (hk : Distinct keys)
    (hU : ∀ i d w m, ∀ b ∈ (U i d w m).binds, Foreign keys b) :
    Preserved (engineHandlers U) (Allowed keys) (fun s : State κ W => ∃ o, ModInv keys o s) where
  requests := engine_requests hU
  register := fun s _ ⟨o, h⟩ => ⟨o, h.lt, h.mode, h.slot, h.other⟩
  bind := fun s b hb hw ⟨o, h⟩ hv => ⟨o, h.bind hw hb hv⟩
  setMode := fun s m hm => hm.elim
  flag := fun s _ _ ⟨o, h⟩ => ⟨o, h.lt, h.mode, h.slot, h.other⟩
  press := fun s k t v _ ⟨_, h⟩ hf hp => h.press hk hf hp
  release := fun s k v _ ⟨_, h⟩ hf _ => h.release hk hf rfl rfl rfl
  reset := fun s k v _ ⟨_, h⟩ hf => h.release hk hf rfl rfl rfl

/-! ### The initial state -/

theorem BindInv.register {n : ℕ} {bs : List (Bind κ)} {s : State κ W} (h : BindInv n bs s) : BindInv (n + 1) bs (registerHandler s).1 :=
  ⟨h.idle.register, by simp [registerHandler, h.count], h.bound, h.handlers⟩

theorem engine_step {n : ℕ} {bs : List (Bind κ)} {s : State κ W} (h : BindInv n bs s) (a b : κ) :
    BindInv (n + 1) (bs ++ [⟨a, 0, 1, n⟩] ++ [⟨b, 0, 1, n⟩])
      (bindKey ⟨b, 0, 1, (registerHandler s).2⟩ (bindKey ⟨a, 0, 1, (registerHandler s).2⟩ (registerHandler s).1).1).1 := by
  have e : (registerHandler s).2 = n := h.count
  rw [e]
  refine BindInv.bind (BindInv.bind h.register ?_) ?_ <;> exact ⟨by simp, by simp⟩

/-- The built-in bindings of modifier keys. -/
def builtinBinds (keys : ℕ → κ) : List (Bind κ) := (List.range 8).map fun i => ⟨keys i, 0, 1, ((i / 2 : ℕ) : ℤ)⟩

theorem engineInit_bindInv (keys : ℕ → κ) (w : W) : BindInv 4 (builtinBinds keys) (engineInit keys w) := by
  have h0 : BindInv 0 [] ({ world := w } : State κ W) := ⟨idle_init w, rfl, fun _ _ _ => rfl, fun k v h => (by cases h)⟩
  exact engine_step (engine_step (engine_step (engine_step h0 (keys 0) (keys 1)) (keys 2) (keys 3)) (keys 4) (keys 5)) (keys 6) (keys 7)

theorem boundTo_builtin {keys : ℕ → κ} (hk : Distinct keys) {j : ℕ} (hj : j < 8) (m : ℕ) (μ : ℤ) :
    boundTo (builtinBinds keys) (keys j) m μ = if m = 0 ∧ μ = 1 then some ((j / 2 : ℕ) : ℤ) else none := by
  unfold boundTo
  cases hf : (builtinBinds keys).reverse.find? fun b => b.key = keys j ∧ b.mode = m ∧ b.mult = μ with
  | none =>
    rw [if_neg]; · rfl
    rintro ⟨rfl, rfl⟩
    rw [List.find?_eq_none] at hf
    have := hf ⟨keys j, 0, 1, ((j / 2 : ℕ) : ℤ)⟩ (by
      rw [List.mem_reverse]
      exact List.mem_map.mpr ⟨j, List.mem_range.mpr hj, rfl⟩)
    simp at this
  | some b =>
    have h1 := List.find?_some hf
    have h2 := List.mem_of_find?_eq_some hf
    rw [List.mem_reverse] at h2
    obtain ⟨i, hi, rfl⟩ := List.mem_map.mp h2
    simp only [decide_eq_true_eq] at h1
    obtain ⟨h3, rfl, rfl⟩ := h1
    cases hk i j (List.mem_range.mp hi) hj h3
    simp

theorem engineInit_inv {keys : ℕ → κ} (hk : Distinct keys) (w : W) : ModInv keys none (engineInit keys w) := by
  have h := engineInit_bindInv keys w
  refine ⟨fun j h => (by cases h), h.idle.mode, ?_, ?_⟩
  · intro j hj
    have hb := h.bound (keys j)
    have h01 := hb 0 1
    rw [boundTo_builtin hk hj, if_pos ⟨rfl, rfl⟩] at h01
    unfold boundIn at h01 hb
    cases hf : findSlot (keys j) (engineInit keys w).slots with
    | none => rw [hf] at h01; cases h01
    | some v =>
      rw [hf] at h01 hb
      simp only [Option.bind_some] at h01 hb
      have hi := h.idle.slots _ v hf
      refine ⟨v, rfl, fun m μ => (hb m μ).trans (boundTo_builtin hk hj m μ), ?_, ?_, ?_⟩
      · rw [hi.2.2]
        refine maxMultiplicity_eq le_rfl ⟨_, lookup_mem h01, rfl⟩ ?_
        intro e he
        obtain ⟨b, hb, _, h2⟩ := h.handlers _ v hf e he
        obtain ⟨i, _, rfl⟩ := List.mem_map.mp hb
        rw [← h2]
      · rw [hi.1]; simp
      · rw [hi.1]; intro h; cases h
  · intro k v hf hk'
    refine ⟨?_, ?_⟩
    · intro e he
      obtain ⟨b, hb, h1, _⟩ := h.handlers _ v hf e he
      obtain ⟨i, hi, rfl⟩ := List.mem_map.mp hb
      exact absurd h1.symm (hk' i (List.mem_range.mp hi))
    · rw [(h.idle.slots _ v hf).1]; intro h; cases h

/-! ### A modifier mode that is stuck -/

/-- The state in which the shift modifier mode is in effect, and nothing ends it. -/
structure Stuck (s : State κ W) : Prop where
  mode : s.mode = 1
  handlers : ∀ k v, findSlot k s.slots = some v → ∀ e ∈ v.handlers, 4 ≤ e.2 ∨ e.1.1 ≠ 1
  index : ∀ k v, findSlot k s.slots = some v → v.pressed = true → v.handlerIndex < 0 ∨ 4 ≤ v.handlerIndex

theorem Stuck.release {U : Handlers κ W} {s : State κ W} (h : Stuck s) {k : κ} {v v' : Slot} (hf : findSlot k s.slots = some v)
    (h1 : v'.handlers = v.handlers) (h3 : v'.pressed = false) : Stuck (touch (engineHandlers U) k v' (releaseCall v) s) := by
  refine ⟨?_, ?_, ?_⟩
  · rw [touch_mode]
    cases hc : releaseCall v with
    | none => exact h.mode
    | some c =>
      obtain ⟨h4, h5, rfl⟩ := releaseCall_some hc
      have := (h.index k v hf h4).resolve_left (by omega)
      simp only
      rw [(engine_high (by omega) _ _ _).1]
      exact h.mode
  · intro k' w hw
    rw [find_touch _ _ _ _ hf] at hw
    split at hw
    · cases hw; rw [h1]; exact h.handlers k v hf
    · exact h.handlers k' w hw
  · intro k' w hw
    rw [find_touch _ _ _ _ hf] at hw
    split at hw
    · cases hw; rw [h3]; intro h; cases h
    · exact h.index k' w hw

theorem stuck_preserved {U : Handlers κ W} (hU : ∀ i d w m, ∀ b ∈ (U i d w m).binds, ShiftSafe (.bind b)) :
    Preserved (engineHandlers U) ShiftSafe (Stuck : State κ W → Prop) where
  requests := engine_requests hU
  register := fun s _ h => ⟨h.mode, h.handlers, h.index⟩
  bind := by
    intro s b hb hw h hv
    refine ⟨by rw [bindKey_valid hv]; exact h.mode, ?_, ?_⟩
    · intro k v hf e he
      rw [bindKey_find hw.sorted hv] at hf
      split at hf
      · cases hf
        have he : e ∈ assign (b.mode, b.mult) b.handler ((findSlot b.key s.slots).getD {}).handlers := he
        rcases mem_assign he with rfl | he
        · exact hb
        · cases hf : findSlot b.key s.slots with
          | none => rw [hf] at he; cases he
          | some w => rw [hf] at he; exact h.handlers _ _ hf e he
      · exact h.handlers k v hf e he
    · intro k v hf hp
      rw [bindKey_find hw.sorted hv] at hf
      split at hf
      · cases hf; cases hp
      · exact h.index k v hf hp
  setMode := fun s m hm => hm.elim
  flag := fun s _ _ h => ⟨h.mode, h.handlers, h.index⟩
  press := by
    intro s k t v hw h hf hp
    have hh : ∀ i, pressHandler s.mode t v = some i → 4 ≤ i := fun i hi =>
      (h.handlers k v hf _ (lookup_mem hi)).resolve_right (fun hn => hn h.mode)
    refine ⟨?_, ?_, ?_⟩
    · rw [touch_mode]
      cases hc : pressHandler s.mode t v with
      | none => exact h.mode
      | some i =>
        have := hh i hc
        simp only [Option.map_some]
        rw [(engine_high (by omega) _ _ _).1]
        exact h.mode
    · intro k' w hw
      rw [find_touch _ _ _ _ hf] at hw
      split at hw
      · cases hw; exact h.handlers k v hf
      · exact h.handlers k' w hw
    · intro k' w hw hp
      rw [find_touch _ _ _ _ hf] at hw
      split at hw
      · cases hw
        simp only [pressSlot]
        cases hc : pressHandler s.mode t v with
        | none => left; decide
        | some i => right; exact hh i hc
      · exact h.index k' w hw hp
  release := fun s k v _ h hf _ => h.release hf rfl rfl
  reset := fun s k v _ h hf => h.release hf rfl rfl

theorem lookup_ne_none {l : List ((ℕ × ℤ) × ℤ)} {e : (ℕ × ℤ) × ℤ} (h : e ∈ l) : lookup e.1 l ≠ none := by
  unfold lookup
  rw [Ne, Option.map_eq_none_iff, List.find?_eq_none]
  intro h2
  exact h2 e h (by simp)

/-- Binding the modifier key that is in effect. -/
theorem stuck_bind {keys : ℕ → κ} {j : ℕ} {s : State κ W} (h : ModInv keys (some j) s) (hw : WF s) (hm : s.mode = 1)
    {b : Bind κ} (hb : 4 ≤ b.handler) (hbk : b.key = keys j) (hv : ValidBind b s.handlerCount) : Stuck (bindKey b s).1 := by
  have hmod : ∀ i, i < 8 → ∀ v, findSlot (keys i) s.slots = some v → (∀ e ∈ v.handlers, 4 ≤ e.2 ∨ e.1.1 ≠ 1) := by
    intro i hi v hf e he
    obtain ⟨w, hw, hms⟩ := h.slot i hi
    rw [hf] at hw
    cases hw
    right
    intro h1
    apply lookup_ne_none he
    have := hms.handlers e.1.1 e.1.2
    rw [if_neg (by omega)] at this
    exact this
  refine ⟨by rw [bindKey_valid hv]; exact hm, ?_, ?_⟩
  · intro k v hf e he
    rw [bindKey_find hw.sorted hv] at hf
    split at hf
    · cases hf
      have he : e ∈ assign (b.mode, b.mult) b.handler ((findSlot b.key s.slots).getD {}).handlers := he
      rcases mem_assign he with rfl | he
      · exact Or.inl hb
      · obtain ⟨w, hw, _⟩ := h.slot j (h.lt j rfl)
        rw [hbk, hw] at he
        exact hmod j (h.lt j rfl) w hw e he
    · rcases exists_index (k := k) (keys := keys) with ⟨i, hi, rfl⟩ | hother
      · exact hmod i hi v hf e he
      · exact Or.inl ((h.other k v hf hother).handlers e he)
  · intro k v hf hp
    rw [bindKey_find hw.sorted hv] at hf
    split at hf
    · cases hf; cases hp
    · next hkb =>
      rcases exists_index (k := k) (keys := keys) with ⟨i, hi, rfl⟩ | hother
      · obtain ⟨w, hw, hms⟩ := h.slot i hi
        rw [hf] at hw
        cases hw
        left
        by_contra hn
        have := hms.active.mp ⟨hp, by omega⟩
        cases this
        exact hkb hbk.symm
      · exact (h.other k v hf hother).index hp

/-! ### One modifier key at a time -/

theorem bindAll_find {keys : ℕ → κ} (bs : List (Bind κ)) : ∀ (s : State κ W), WF s → (∀ b ∈ bs, Foreign keys b) → ∀ j, j < 8 →
    findSlot (keys j) (bindAll bs s).slots = findSlot (keys j) s.slots := by
  induction bs with
  | nil => intro s _ _ j _; rfl
  | cons b bs ih =>
    intro s hw hb j hj
    have e : bindAll (b :: bs) s = bindAll bs (bindKey b s).1 := rfl
    rw [e, ih _ hw.bind (fun b' hb' => hb b' (List.mem_cons_of_mem _ hb')) j hj]
    by_cases hv : ValidBind b s.handlerCount
    · rw [bindKey_find hw.sorted hv, if_neg (fun e => (hb b List.mem_cons_self).2 j hj e.symm)]
    · rw [bindKey_invalid hv]

theorem act_find {U : Handlers κ W} {keys : ℕ → κ} (hU : ∀ i d w m, ∀ b ∈ (U i d w m).binds, Foreign keys b) {k : κ} {v v' : Slot}
    {c : Option (ℤ × Bool)} {s : State κ W} (hw : WF (touch (engineHandlers U) k v' c s)) (hf : findSlot k s.slots = some v) {j : ℕ}
    (hj : j < 8) :
    findSlot (keys j) (act (engineHandlers U) k v' c s).slots = if keys j = k then some v' else findSlot (keys j) s.slots := by
  unfold act
  rw [bindAll_find _ _ hw _ j hj, find_touch _ _ _ _ hf]
  intro b hb
  unfold requests at hb
  cases c with
  | none => cases hb
  | some c => exact engine_requests hU _ _ _ _ b hb

theorem held_append (k : κ) (ops : List (Op κ)) (op : Op κ) :
    held k (ops ++ [op]) = match op with
      | .keydown k' _ => if k' = k then true else held k ops
      | .keyup k' => if k' = k then false else held k ops
      | _ => held k ops := by
  unfold held
  rw [List.foldl_append]
  rfl

/-- Each modifier key that is held down is the one in effect. -/
structure Tight (keys : ℕ → κ) (ops : List (Op κ)) (s : State κ W) : Prop where
  wf : WF s
  inv : ∃ o, ModInv keys o s
  slot : ∀ j, j < 8 → ∀ v, findSlot (keys j) s.slots = some v → v.pressed = held (keys j) ops ∧ (v.pressed = true → 0 ≤ v.handlerIndex)

theorem tight_step {U : Handlers κ W} {keys : ℕ → κ} (hk : Distinct keys) (hU : ∀ i d w m, ∀ b ∈ (U i d w m).binds, Foreign keys b)
    {ops : List (Op κ)} {op : Op κ} (hop : KeyOp op) {s s' : State κ W} (h : Tight keys ops s)
    (hone : ∀ j t, j < 8 → op = .keydown (keys j) t → held (keys j) ops = false → ∀ i, i < 8 → held (keys i) ops = false)
    (hs : step (engineHandlers U) op s = some s') : Tight keys (ops ++ [op]) s' := by
  obtain ⟨o, ho⟩ := h.inv
  have hall : Allowed keys op := by cases op <;> first | trivial | exact hop.elim
  have h2 := step_inv (modInv_preserved hk hU) hall h.wf h.inv hs
  refine ⟨h2.1, h2.2, ?_⟩
  intro j hj v' hf'
  rw [held_append]
  obtain ⟨vj, hvj, hmj⟩ := ho.slot j hj
  have hsl := h.slot j hj vj hvj
  cases op with
  | keydown k t =>
    simp only [step] at hs
    simp only
    cases hf : findSlot k s.slots with
    | none =>
      rw [onKeydown_none _ hf] at hs
      cases hs
      have hne : ¬k = keys j := fun e => by rw [← e, hf] at hvj; cases hvj
      rw [if_neg hne]
      exact h.slot j hj v' hf'
    | some v =>
      cases hp : v.pressed with
      | true =>
        rw [onKeydown_pressed _ hf hp] at hs
        cases hs
        have := h.slot j hj v' hf'
        by_cases e : k = keys j
        · rw [if_pos e]
          rw [← e, hf] at hf'
          cases hf'
          exact ⟨hp, this.2⟩
        · rw [if_neg e]; exact this
      | false =>
        rw [onKeydown_eq _ h.wf hf hp] at hs
        cases hs
        simp only at hf'
        rw [act_find (v' := pressSlot s.mode t v) hU (h.wf.touch (w := pressSlot s.mode t v) _ hf rfl (pressSlot_index h.wf hf t)) hf hj] at hf'
        by_cases e : k = keys j
        · subst e
          rw [if_pos rfl] at hf' ⊢
          cases hf'
          refine ⟨rfl, fun _ => ?_⟩
          rw [hf] at hvj
          cases hvj
          have hh := hone j t hj rfl (by rw [← hsl.1]; exact hp)
          have ho0 : o = none := by
            cases ho' : o with
            | none => rfl
            | some i =>
              obtain ⟨w, hw, hmw⟩ := ho.slot i (ho.lt i ho')
              have h3 := (hmw.active.mpr ho').1
              rw [(h.slot i (ho.lt i ho') w hw).1, hh i (ho.lt i ho')] at h3
              cases h3
          have hm0 : s.mode = 0 := by rw [ho.mode, ho0]; rfl
          simp only [pressSlot]
          rw [mod_pressHandler hmj, if_pos hm0, Option.getD_some]
          omega
        · rw [if_neg (fun h => e h.symm)] at hf'
          rw [if_neg e]
          exact h.slot j hj v' hf'
  | keyup k =>
    simp only [step] at hs
    simp only
    cases hf : findSlot k s.slots with
    | none =>
      rw [onKeyup_none _ hf] at hs
      cases hs
      have hne : ¬k = keys j := fun e => by rw [← e, hf] at hvj; cases hvj
      rw [if_neg hne]
      exact h.slot j hj v' hf'
    | some v =>
      cases hp : v.pressed with
      | false =>
        rw [onKeyup_released _ hf hp] at hs
        cases hs
        have := h.slot j hj v' hf'
        by_cases e : k = keys j
        · rw [if_pos e]
          rw [← e, hf] at hf'
          cases hf'
          exact ⟨hp, this.2⟩
        · rw [if_neg e]; exact this
      | true =>
        rw [onKeyup_eq _ h.wf hf hp] at hs
        cases hs
        simp only at hf'
        rw [act_find (v' := { v with pressed := false }) hU
          (h.wf.touch (w := { v with pressed := false }) _ hf rfl (h.wf.index k v hf)) hf hj] at hf'
        by_cases e : k = keys j
        · subst e
          rw [if_pos rfl] at hf' ⊢
          cases hf'
          exact ⟨rfl, fun h => by cases h⟩
        · rw [if_neg (fun h => e h.symm)] at hf'
          rw [if_neg e]
          exact h.slot j hj v' hf'
  | _ => exact hop.elim

theorem Tight.mode {keys : ℕ → κ} {ops : List (Op κ)} {s : State κ W} (h : Tight keys ops s) : s.mode = documentedMode keys ops := by
  obtain ⟨o, ho⟩ := h.inv
  have hh : ∀ j, j < 8 → held (keys j) ops = decide (o = some j) := by
    intro j hj
    obtain ⟨v, hv, hm⟩ := ho.slot j hj
    have h1 := h.slot j hj v hv
    rw [← h1.1]
    cases hp : v.pressed with
    | true => simp [hm.active.mp ⟨hp, h1.2 hp⟩]
    | false =>
      have : ¬o = some j := fun e => by
        have := (hm.active.mpr e).1
        rw [hp] at this; cases this
      simp [this]
  have hd : documentedMode keys ops =
      ((List.range 4).map fun i => if decide (o = some (2 * i)) || decide (o = some (2 * i + 1)) then 2 ^ i else 0).sum := by
    unfold documentedMode
    congr 1
    apply List.map_congr_left
    intro i hi
    rw [List.mem_range] at hi
    rw [hh (2 * i) (by omega), hh (2 * i + 1) (by omega)]
  rw [hd, ho.mode]
  cases ho' : o with
  | none => rfl
  | some j =>
    have hj := ho.lt j ho'
    have : ∀ j, j < 8 → modeOf (some j) =
        ((List.range 4).map fun i => if decide (some j = some (2 * i)) || decide (some j = some (2 * i + 1)) then 2 ^ i else 0).sum := by
      decide
    exact this j hj

theorem tight_run {U : Handlers κ W} {keys : ℕ → κ} (hk : Distinct keys) (hU : ∀ i d w m, ∀ b ∈ (U i d w m).binds, Foreign keys b)
    (ops : List (Op κ)) : ∀ (done : List (Op κ)) (s s' : State κ W), (∀ op ∈ ops, KeyOp op) → Tight keys done s →
    (∀ a j t b, done ++ ops = a ++ .keydown (keys j) t :: b → j < 8 → held (keys j) a = false → ∀ i, i < 8 → held (keys i) a = false) →
    run (engineHandlers U) ops s = some s' → Tight keys (done ++ ops) s' := by
  induction ops with
  | nil => intro done s s' _ h _ hr; cases hr; rw [List.append_nil]; exact h
  | cons op ops ih =>
    intro done s s' hops h hone hr
    rw [run, Option.bind_eq_some_iff] at hr
    obtain ⟨s1, h1, h2⟩ := hr
    rw [List.append_cons] at hone ⊢
    refine ih (done ++ [op]) s1 s' (fun o ho => hops o (List.mem_cons_of_mem _ ho)) ?_ hone h2
    refine tight_step hk hU (hops op List.mem_cons_self) h ?_ h1
    intro j t hj e
    subst e
    exact hone done j t ops (by simp) hj

theorem tight_init {keys : ℕ → κ} (hk : Distinct keys) (w : W) : Tight keys [] (engineInit keys w) := by
  have h := engineInit_bindInv keys w
  refine ⟨h.idle.wf, ⟨none, engineInit_inv hk w⟩, ?_⟩
  intro j _ v hf
  have := (h.idle.slots _ v hf).1
  exact ⟨this, fun h => by rw [this] at h; cases h⟩

end Verif.KeyBindings
