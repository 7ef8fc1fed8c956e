import Verif.KeyBindings.Pairing

/-!
# Loss of focus
-/

namespace Verif.KeyBindings

open Spec

variable {κ W : Type} [LinearOrder κ]

theorem act_eq_touch {H : Handlers κ W} (hH : NoBinds H) (k : κ) (v : Slot) (c : Option (ℤ × Bool)) (s : State κ W) :
    act H k v c s = touch H k v c s := by
  unfold act requests
  cases c with
  | none => rfl
  | some c =>
    show bindAll (H c.1.toNat c.2 s.world s.mode).binds _ = _
    rw [hH]; rfl

theorem setSlot_mid (k : κ) (v w : Slot) (l₁ l₂ : List (κ × Slot)) (h : Sorted (l₁ ++ (k, v) :: l₂)) :
    setSlot k w (l₁ ++ (k, v) :: l₂) = l₁ ++ (k, w) :: l₂ := by
  unfold Sorted at h
  rw [List.map_append, List.pairwise_append, List.map_cons, List.pairwise_cons] at h
  obtain ⟨_, ⟨h2, _⟩, h3⟩ := h
  unfold setSlot
  rw [List.map_append, List.map_cons, if_pos rfl]
  congr 1
  · conv_rhs => rw [← List.map_id l₁]
    apply List.map_congr_left
    intro e he
    have := h3 e.1 (List.mem_map.mpr ⟨e, he, rfl⟩) k List.mem_cons_self
    rw [if_neg (ne_of_lt this)]
    rfl
  · congr 1
    conv_rhs => rw [← List.map_id l₂]
    apply List.map_congr_left
    intro e he
    have := h2 e.1 (List.mem_map.mpr ⟨e, he, rfl⟩)
    rw [if_neg (ne_of_gt this)]
    rfl

theorem outstanding_append (a b : List (κ × Slot)) : outstanding (a ++ b) = outstanding a ++ outstanding b := by
  unfold outstanding; rw [List.filterMap_append]

theorem outstanding_cons (k : κ) (v : Slot) (l : List (κ × Slot)) :
    outstanding ((k, v) :: l) = (releaseCall v).toList.map (fun c => (k, c.1.toNat, c.2)) ++ outstanding l := by
  unfold outstanding releaseCall
  rw [List.filterMap_cons]
  by_cases h : v.pressed = false ∨ v.handlerIndex < 0
  · rw [if_pos h, if_neg]
    · rfl
    · rintro ⟨h1, h2⟩
      simp only at h1 h2
      rcases h with h | h
      · rw [h] at h1; cases h1
      · omega
  · rw [if_neg h, if_pos]
    · rfl
    · refine ⟨?_, by simp only; omega⟩
      cases hp : v.pressed with
      | true => rfl
      | false => exact absurd (Or.inl hp) h

theorem outstanding_released {l : List (κ × Slot)} (h : AllReleased l) : outstanding l = [] := by
  unfold outstanding
  rw [List.filterMap_eq_nil_iff]
  intro e he
  rw [if_neg]
  rw [h e he]; simp

theorem touch_calls (H : Handlers κ W) (k : κ) (v : Slot) (c : Option (ℤ × Bool)) (s : State κ W) :
    (touch H k v c s).calls = s.calls ++ c.toList.map (fun c => (k, c.1.toNat, c.2)) := by
  unfold touch; cases c <;> simp

theorem touch_blur (H : Handlers κ W) (k : κ) (v : Slot) (c : Option (ℤ × Bool)) (s : State κ W) :
    (touch H k v c s).blur = s.blur := by
  unfold touch; cases c <;> rfl

/-- The outcome of one run through the slots. -/
structure BlurResult (s : State κ W) (r : State κ W × Bool) : Prop where
  wf : WF r.1
  total : r.1.calls ++ outstanding r.1.slots = s.calls ++ outstanding s.slots
  keys : r.1.slots.map Prod.fst = s.slots.map Prod.fst
  complete : r.2 = true → r.1.blur = false ∧ AllReleased r.1.slots
  interrupted : r.2 = false → r.1.blur = s.blur ∧ (outstanding r.1.slots).length < (outstanding s.slots).length

theorem blurLoop_result {H : Handlers κ W} (hH : NoBinds H) (l₂ : List (κ × Slot)) : ∀ (l₁ : List (κ × Slot)) (s : State κ W), WF s →
    s.slots = l₁ ++ l₂ → AllReleased l₁ → ∃ r, blurLoop H l₂.length l₁.length s = some r ∧ BlurResult s r := by
  induction l₂ with
  | nil =>
    intro l₁ s hw hs h1
    refine ⟨_, rfl, ⟨hw.sorted, hw.index, hw.handlers⟩, rfl, rfl, fun _ => ⟨rfl, ?_⟩, fun h => by cases h⟩
    simp only
    rw [hs, List.append_nil]
    exact h1
  | cons e l₂ ih =>
    obtain ⟨k, v⟩ := e
    intro l₁ s hw hs h1
    have he : s.slots[l₁.length]? = some (k, v) := by rw [hs]; simp
    have hf : findSlot k s.slots = some v := findSlot_of_mem hw.sorted (List.mem_of_getElem? he)
    have hw' : WF (touch H k v.reset (releaseCall v) s) := hw.touch H hf rfl (hw.index k v hf)
    have hsl : (touch H k v.reset (releaseCall v) s).slots = l₁ ++ (k, v.reset) :: l₂ := by
      rw [touch_slots, hs]
      exact setSlot_mid k v v.reset l₁ l₂ (hs ▸ hw.sorted)
    have hrel : AllReleased (l₁ ++ [(k, v.reset)]) := by
      intro e he
      rcases List.mem_append.mp he with he | he
      · exact h1 e he
      · rw [List.mem_singleton] at he; rw [he]; rfl
    have hout : outstanding s.slots = (releaseCall v).toList.map (fun c => (k, c.1.toNat, c.2)) ++ outstanding l₂ := by
      rw [hs, outstanding_append, outstanding_released h1, List.nil_append, outstanding_cons]
    have hout' : outstanding (touch H k v.reset (releaseCall v) s).slots = outstanding l₂ := by
      rw [hsl, List.append_cons, outstanding_append, outstanding_released hrel, List.nil_append]
    have hkeys : (touch H k v.reset (releaseCall v) s).slots.map Prod.fst = s.slots.map Prod.fst := by
      rw [touch_slots, keys_setSlot]
    rw [List.length_cons, blurLoop_succ H hw he, act_eq_touch hH]
    by_cases hp : proceeds H (releaseCall v) s = true
    · rw [if_pos hp, if_pos (by rw [hsl, hs]; simp)]
      obtain ⟨r, hr, h2⟩ := ih (l₁ ++ [(k, v.reset)]) (touch H k v.reset (releaseCall v) s) hw' (by rw [hsl]; simp) hrel
      rw [List.length_append, List.length_singleton] at hr
      refine ⟨r, hr, h2.wf, ?_, h2.keys.trans hkeys, h2.complete, ?_⟩
      · rw [h2.total, hout', touch_calls, hout, List.append_assoc]
      · intro h3
        have h4 := h2.interrupted h3
        rw [touch_blur, hout'] at h4
        refine ⟨h4.1, ?_⟩
        rw [hout, List.length_append]
        omega
    · rw [if_neg hp]
      refine ⟨_, rfl, hw', ?_, hkeys, fun h => (by cases h), fun _ => ⟨touch_blur _ _ _ _ _, ?_⟩⟩
      · simp only
        rw [hout', touch_calls, hout, List.append_assoc]
      · simp only
        rw [hout', hout, List.length_append]
        cases hc : releaseCall v with
        | none => rw [hc] at hp; exact absurd rfl hp
        | some c => simp

theorem resumeIncomplete_result {H : Handlers κ W} (hH : NoBinds H) {s : State κ W} (hw : WF s) :
    ∃ r, resumeIncomplete H s = some r ∧ BlurResult s r := by
  obtain ⟨r, hr, h⟩ := blurLoop_result hH s.slots [] s hw rfl (fun e he => by cases he)
  exact ⟨r, hr, h⟩

/-- Enough repetitions complete the operation. -/
theorem resume_complete {H : Handlers κ W} (hH : NoBinds H) (n : ℕ) : ∀ (s : State κ W), WF s → (s.blur = true ∨ AllReleased s.slots) →
    (s.blur = true → (outstanding s.slots).length < n) →
    ∃ s', run H (List.replicate n .resume) s = some s' ∧ WF s' ∧ s'.blur = false ∧ s'.calls = s.calls ++ outstanding s.slots ∧
      AllReleased s'.slots ∧ s'.slots.map Prod.fst = s.slots.map Prod.fst := by
  induction n with
  | zero =>
    intro s hw h1 h2
    cases hb : s.blur with
    | true => exact absurd (h2 hb) (Nat.not_lt_zero _)
    | false =>
      rw [hb] at h1
      have h3 := h1.resolve_left (by simp)
      exact ⟨s, rfl, hw, hb, by rw [outstanding_released h3, List.append_nil], h3, rfl⟩
  | succ n ih =>
    intro s hw h1 h2
    rw [List.replicate_succ, run]
    cases hb : s.blur with
    | false =>
      rw [hb] at h1
      have e : step H .resume s = some s := by simp [step, resumeIfAny, hb]
      rw [e]
      exact ih s hw (Or.inr (h1.resolve_left (by simp))) (fun h => by rw [hb] at h; cases h)
    | true =>
      obtain ⟨r, hr, h3⟩ := resumeIncomplete_result hH hw
      have e : step H .resume s = some r.1 := by simp [step, resumeIfAny, hb, hr]
      rw [e]
      have key : ∃ s', run H (List.replicate n .resume) r.1 = some s' ∧ WF s' ∧ s'.blur = false ∧
          s'.calls = r.1.calls ++ outstanding r.1.slots ∧ AllReleased s'.slots ∧ s'.slots.map Prod.fst = r.1.slots.map Prod.fst := by
        cases hr2 : r.2 with
        | true =>
          have h4 := h3.complete hr2
          exact ih r.1 h3.wf (Or.inr h4.2) (fun h => by rw [h4.1] at h; cases h)
        | false =>
          have h4 := h3.interrupted hr2
          have h5 := h2 hb
          exact ih r.1 h3.wf (Or.inl (h4.1.trans hb)) (fun _ => by omega)
      obtain ⟨s', k1, k2, k3, k4, k5, k6⟩ := key
      exact ⟨s', k1, k2, k3, by rw [k4, h3.total], k5, by rw [k6, h3.keys]⟩

theorem blur_complete {H : Handlers κ W} (hH : NoBinds H) {s : State κ W} (hw : WF s) {n : ℕ} (hn : (outstanding s.slots).length ≤ n) :
    ∃ s', run H (.blur :: List.replicate n .resume) s = some s' ∧ WF s' ∧ s'.blur = false ∧ s'.calls = s.calls ++ outstanding s.slots ∧
      AllReleased s'.slots ∧ s'.slots.map Prod.fst = s.slots.map Prod.fst := by
  have h := resume_complete hH (n + 1) { s with blur := true } ⟨hw.sorted, hw.index, hw.handlers⟩ (Or.inl rfl) (fun _ => Nat.lt_succ_of_le hn)
  rw [List.replicate_succ] at h
  exact h

end Verif.KeyBindings
