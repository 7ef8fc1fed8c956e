import Verif.KeyBindings.Modifiers

/-!
# Properties of key bindings
-/

namespace Verif.KeyBindings.Props

open Spec

set_option linter.unusedSectionVars false

variable {κ W : Type} [LinearOrder κ]

/-- Handlers that do nothing. -/
def idle : Handlers ℕ Unit := fun _ _ w m => ⟨w, m, [], true⟩

theorem preserved_true (H : Handlers κ W) : Preserved H (fun _ => True) (fun _ : State κ W => True) :=
  ⟨fun _ _ _ _ _ _ => trivial, fun _ _ _ => trivial, fun _ _ _ _ _ _ => trivial, fun _ _ _ _ _ => trivial, fun _ _ _ _ => trivial,
    fun _ _ _ _ _ _ _ _ => trivial, fun _ _ _ _ _ _ _ => trivial, fun _ _ _ _ _ _ => trivial⟩

/-! ### C123: key down and key up -/

/-- C123: Regardless of what handlers do, and regardless of the order of operations, a handler is called for "key up" only right after
it was called for "key down" on behalf of the same key. -/
theorem C123_up_follows_down (H : Handlers κ W) (ops : List (Op κ)) (w : W) (s : State κ W) (hr : run H ops { world := w } = some s)
    (k : κ) : UpFollowsDown (callsOf k s.calls) := by
  refine (run_inv (upInv_preserved H k) ops _ s (fun _ _ => trivial) (wf_init w) ?_ hr).2.calls
  exact ((idle_init w).downInv k).up

/-- C123: When keys are bound before the first key press, and not after that, every "key down" call is followed by the "key up" call of
the same handler before any other call is made on behalf of the same key. What is missing is the case where the key is bound while it is
pressed, for which the claim does not hold. -/
theorem C123_down_followed_by_up_partial (H : Handlers κ W) (k : κ) (hH : ∀ i d w m, ∀ b ∈ (H i d w m).binds, b.key ≠ k)
    (setup ops : List (Op κ)) (hsetup : ∀ op ∈ setup, IsSetup op) (hops : ∀ op ∈ ops, NotBind k op) (w : W) (s : State κ W)
    (hr : run H (setup ++ ops) { world := w } = some s) : DownFollowedByUp (callsOf k s.calls) := by
  rw [run_append, Option.bind_eq_some_iff] at hr
  obtain ⟨s1, h1, h2⟩ := hr
  have hi := Idle.run hsetup (idle_init w) h1
  exact (run_inv (downInv_preserved H k hH) ops s1 s hops hi.wf (hi.downInv k) h2).2.calls

/-- C123: A key that is bound while it is pressed: the handler is not called for "key up". -/
theorem C123_bind_while_pressed : ∃ (H : Handlers ℕ Unit) (ops : List (Op ℕ)) (s : State ℕ Unit), run H ops { world := () } = some s ∧
    ¬DownFollowedByUp (callsOf 7 s.calls) := by
  refine ⟨idle, [.register, .register, .bind ⟨7, 0, 1, 0⟩, .keydown 7 0, .bind ⟨7, 0, 2, 1⟩, .keyup 7, .keydown 7 1000, .keyup 7], _, rfl, ?_⟩
  intro h
  have := h [] 0 [(0, true), (0, false)] rfl
  rcases this with h | ⟨c, h⟩ <;> cases h

/-- C123: Presses and releases of keys, and setup, never involve undefined behavior (no index out of range, no invalid iterator). -/
theorem C123_defined (H : Handlers κ W) (ops : List (Op κ)) (hops : ∀ op ∈ ops, op ≠ .blur ∧ op ≠ .resume) (w : W) :
    ∃ s, run H ops { world := w } = some s := by
  have : ∀ (ops : List (Op κ)) (s : State κ W), WF s → (∀ op ∈ ops, op ≠ .blur ∧ op ≠ .resume) → ∃ s', run H ops s = some s' := by
    intro ops
    induction ops with
    | nil => intro s _ _; exact ⟨s, rfl⟩
    | cons op ops ih =>
      intro s hw hops
      have : ∃ s1, step H op s = some s1 := by
        cases op with
        | register => exact ⟨_, rfl⟩
        | bind b => exact ⟨_, rfl⟩
        | setMode m => exact ⟨_, rfl⟩
        | keydown k t =>
          simp only [step]
          cases hf : findSlot k s.slots with
          | none => rw [onKeydown_none _ hf]; exact ⟨_, rfl⟩
          | some v =>
            cases hp : v.pressed with
            | true => rw [onKeydown_pressed _ hf hp]; exact ⟨_, rfl⟩
            | false => rw [onKeydown_eq _ hw hf hp]; exact ⟨_, rfl⟩
        | keyup k =>
          simp only [step]
          cases hf : findSlot k s.slots with
          | none => rw [onKeyup_none _ hf]; exact ⟨_, rfl⟩
          | some v =>
            cases hp : v.pressed with
            | false => rw [onKeyup_released _ hf hp]; exact ⟨_, rfl⟩
            | true => rw [onKeyup_eq _ hw hf hp]; exact ⟨_, rfl⟩
        | blur => exact absurd rfl (hops .blur List.mem_cons_self).1
        | resume => exact absurd rfl (hops .resume List.mem_cons_self).2
      obtain ⟨s1, h1⟩ := this
      have hw1 := (step_inv (preserved_true H) trivial hw trivial h1).1
      obtain ⟨s2, h2⟩ := ih s1 hw1 (fun o ho => hops o (List.mem_cons_of_mem _ ho))
      exact ⟨s2, by rw [run, h1]; exact h2⟩
  exact this ops _ (wf_init w) hops

/-- Two keys, one of which is pressed repeatedly while the other one is held. -/
example : (run idle [.register, .register, .bind ⟨7, 0, 1, 0⟩, .bind ⟨3, 0, 1, 1⟩, .keydown 7 0, .keydown 3 10, .keydown 7 20, .keyup 3,
      .keydown 3 900, .keyup 7, .keyup 7, .keyup 3] { world := () }).map (fun s => (callsOf 7 s.calls, callsOf 3 s.calls)) =
    some ([(0, true), (0, false)], [(1, true), (1, false), (1, true), (1, false)]) := by decide +kernel

/-! ### C124: multiplicity of key presses -/

/-- C124: When a key is pressed and released any number of times, the handler that is called is the one that was bound last for the
combination of modifier mode and multiplicity, where the multiplicity is determined by the position of the press in the series of quick
presses that it belongs to, and starts over after the greatest multiplicity that is bound. -/
theorem C124_taps (H : Handlers κ W) (hH : NoBinds H) (n : ℕ) (bs : List (Bind κ)) (hbs : ∀ b ∈ bs, ValidBind b n) (k : κ) (M : ℕ)
    (hM1 : ∃ b ∈ bs, b.key = k ∧ b.mult = M) (hM2 : ∀ b ∈ bs, b.key = k → b.mult ≤ M) (hM3 : 1 ≤ M) (taps : List (ℤ × ℕ)) (w : W) :
    ∃ s, run H (List.replicate n .register ++ bs.map .bind ++ tapOps k taps) { world := w } = some s ∧ s.calls = tapCalls bs k M taps := by
  obtain ⟨s1, h1, h2⟩ := setup_run H n bs hbs w
  obtain ⟨b, hb, hbk, hbm⟩ := hM1
  have hb1 : ∃ i, boundTo bs k b.mode b.mult = some i := by
    unfold boundTo
    cases hf : bs.reverse.find? fun c => c.key = k ∧ c.mode = b.mode ∧ c.mult = b.mult with
    | none =>
      rw [List.find?_eq_none] at hf
      have := hf b (List.mem_reverse.mpr hb)
      simp [hbk] at this
    | some c => exact ⟨_, rfl⟩
  obtain ⟨i, hi⟩ := hb1
  have hbound := h2.bound k
  have hi2 := hbound b.mode b.mult
  rw [hi] at hi2
  unfold boundIn at hi2 hbound
  cases hf : findSlot k s1.slots with
  | none => rw [hf] at hi2; cases hi2
  | some v =>
    rw [hf] at hi2 hbound
    simp only [Option.bind_some] at hi2 hbound
    have hs := h2.idle.slots k v hf
    have hmax : v.maxMult = M := by
      rw [hs.2.2]
      refine maxMultiplicity_eq (by omega) ⟨_, lookup_mem hi2, hbm⟩ ?_
      intro e he
      obtain ⟨c, hc, hck, hcm⟩ := h2.handlers k v hf e he
      rw [← hcm]
      exact hM2 c hc hck
    obtain ⟨s', h3, h4⟩ := taps_run hH hM3 taps none s1 v h2.idle.wf hf hs.1 rfl hmax hs.2.1
    refine ⟨s', by rw [run_append, h1]; exact h3, ?_⟩
    rw [h4, h2.idle.calls, List.nil_append]
    have : (fun m μ => lookup (m, μ) v.handlers) = boundTo bs k := by funext m μ; exact hbound m μ
    rw [this]
    rfl

/-- C124: Without bindings for a key, nothing happens when it is pressed. -/
theorem C124_unbound (H : Handlers κ W) (n : ℕ) (bs : List (Bind κ)) (hbs : ∀ b ∈ bs, ValidBind b n) (k : κ) (hk : ∀ b ∈ bs, b.key ≠ k)
    (t : ℤ) (w : W) (s : State κ W) (hr : run H (List.replicate n .register ++ bs.map .bind) { world := w } = some s) :
    ∃ s1 s2, step H (.keydown k t) s = some s1 ∧ step H (.keyup k) s1 = some s2 ∧ s1.calls = [] ∧ s2.calls = [] := by
  obtain ⟨s1, h1, h2⟩ := setup_run H n bs hbs w
  rw [h1] at hr
  cases hr
  cases hf : findSlot k s.slots with
  | none =>
    refine ⟨s, s, ?_, ?_, h2.idle.calls, h2.idle.calls⟩
    · simp only [step]; rw [onKeydown_none _ hf]; rfl
    · simp only [step]; rw [onKeyup_none _ hf]; rfl
  | some v =>
    have hp := (h2.idle.slots k v hf).1
    have hh : v.handlers = [] := by
      rw [List.eq_nil_iff_forall_not_mem]
      intro e he
      obtain ⟨c, hc, hck, _⟩ := h2.handlers k v hf e he
      exact hk c hc hck
    have hph : pressHandler s.mode t v = none := by unfold pressHandler; rw [hh]; rfl
    have hk1 : step H (.keydown k t) s = some (touch H k (pressSlot s.mode t v) none s) := by
      simp only [step]; rw [onKeydown_eq _ h2.idle.wf hf hp, hph]; rfl
    have hw1 := h2.idle.wf.touch (w := pressSlot s.mode t v) (c := none) H hf rfl (pressSlot_index h2.idle.wf hf t)
    have hf1 : findSlot k (touch H k (pressSlot s.mode t v) none s).slots = some (pressSlot s.mode t v) := by
      rw [find_touch _ _ _ _ hf, if_pos rfl]
    have hrel : releaseCall (pressSlot s.mode t v) = none := by
      unfold releaseCall
      rw [if_pos]
      right
      simp only [pressSlot, hph, Option.getD_none]
      decide
    refine ⟨_, touch H k { pressSlot s.mode t v with pressed := false } none (touch H k (pressSlot s.mode t v) none s), hk1, ?_, ?_, ?_⟩
    · simp only [step]
      rw [onKeyup_eq _ hw1 hf1 rfl, hrel]
      rfl
    · rw [touch_calls, h2.idle.calls]; rfl
    · rw [touch_calls, touch_calls, h2.idle.calls]; rfl

/-- Single and double tap. Presses 1, 2, 3, and 4 are quick. Press 5 comes after a pause. -/
example : tapCalls [⟨7, 0, 1, 0⟩, ⟨7, 0, 2, 1⟩, ⟨7, 0, 2, 2⟩] 7 2 [(0, 0), (200, 0), (450, 0), (500, 0), (751, 0)] =
    [(7, 0, true), (7, 0, false), (7, 2, true), (7, 2, false), (7, 0, true), (7, 0, false), (7, 2, true), (7, 2, false),
      (7, 0, true), (7, 0, false)] := by decide +kernel

/-- The same in the model. A change of modifier mode breaks the series. -/
example : (run idle (List.replicate 3 .register ++ ([⟨7, 0, 1, 0⟩, ⟨7, 0, 2, 1⟩, ⟨7, 0, 2, 2⟩] : List (Bind ℕ)).map .bind ++
      tapOps 7 [(0, 0), (200, 0), (300, 1), (310, 0), (400, 0)]) { world := () }).map (·.calls) =
    some [(7, 0, true), (7, 0, false), (7, 2, true), (7, 2, false), (7, 0, true), (7, 0, false), (7, 2, true), (7, 2, false)] := by
  decide +kernel

/-! ### C125: loss of keyboard focus -/

/-- C125: When focus is lost, each handler, that was called for "key down" without being called for "key up", is called for "key up"
exactly once, in the order of keys. Afterwards, no key is pressed. A handler is able to interrupt the process, but resumption continues
where it was interrupted. -/
theorem C125_blur_partial (H : Handlers κ W) (hH : NoBinds H) (ops : List (Op κ)) (w : W) (s : State κ W)
    (hr : run H ops { world := w } = some s) (n : ℕ) (hn : (outstanding s.slots).length ≤ n) :
    ∃ s', run H (.blur :: List.replicate n .resume) s = some s' ∧ s'.blur = false ∧ s'.calls = s.calls ++ outstanding s.slots ∧
      AllReleased s'.slots ∧ s'.slots.map Prod.fst = s.slots.map Prod.fst := by
  have hw := (run_inv (preserved_true H) ops _ s (fun _ _ => trivial) (wf_init w) trivial hr).1
  obtain ⟨s', h1, _, h3⟩ := blur_complete hH hw hn
  exact ⟨s', h1, h3⟩

/-- C125: After this, further resumption does nothing. -/
theorem C125_resume_idle (H : Handlers κ W) (s : State κ W) (h : s.blur = false) : step H .resume s = some s := by
  simp only [step, resumeIfAny, h]
  rfl

/-- C125: There is no undefined behavior when handlers do not bind keys. -/
theorem C125_defined_partial (H : Handlers κ W) (hH : NoBinds H) (ops : List (Op κ)) (w : W) : ∃ s, run H ops { world := w } = some s := by
  have : ∀ (ops : List (Op κ)) (s : State κ W), WF s → ∃ s', run H ops s = some s' := by
    intro ops
    induction ops with
    | nil => intro s _; exact ⟨s, rfl⟩
    | cons op ops ih =>
      intro s hw
      have : ∃ s1, step H op s = some s1 := by
        cases op with
        | register => exact ⟨_, rfl⟩
        | bind b => exact ⟨_, rfl⟩
        | setMode m => exact ⟨_, rfl⟩
        | keydown k t =>
          simp only [step]
          cases hf : findSlot k s.slots with
          | none => rw [onKeydown_none _ hf]; exact ⟨_, rfl⟩
          | some v =>
            cases hp : v.pressed with
            | true => rw [onKeydown_pressed _ hf hp]; exact ⟨_, rfl⟩
            | false => rw [onKeydown_eq _ hw hf hp]; exact ⟨_, rfl⟩
        | keyup k =>
          simp only [step]
          cases hf : findSlot k s.slots with
          | none => rw [onKeyup_none _ hf]; exact ⟨_, rfl⟩
          | some v =>
            cases hp : v.pressed with
            | false => rw [onKeyup_released _ hf hp]; exact ⟨_, rfl⟩
            | true => rw [onKeyup_eq _ hw hf hp]; exact ⟨_, rfl⟩
        | blur =>
          simp only [step, onBlur]
          obtain ⟨r, hr, _⟩ := resumeIncomplete_result hH (s := { s with blur := true }) ⟨hw.sorted, hw.index, hw.handlers⟩
          rw [hr]; exact ⟨_, rfl⟩
        | resume =>
          simp only [step, resumeIfAny]
          cases hb : s.blur with
          | false => exact ⟨_, rfl⟩
          | true =>
            obtain ⟨r, hr, _⟩ := resumeIncomplete_result hH hw
            simp only [Bool.not_true, Bool.false_eq_true, if_false]
            rw [hr]; exact ⟨_, rfl⟩
      obtain ⟨s1, h1⟩ := this
      obtain ⟨s2, h2⟩ := ih s1 (step_inv (preserved_true H) trivial hw trivial h1).1
      exact ⟨s2, by rw [run, h1]; exact h2⟩
  exact this ops _ (wf_init w)

/-- C125: A handler that binds a new key while focus is being lost invalidates the iterator of the loop that calls it, which is undefined
behavior, even though handlers are allowed to bind keys. -/
theorem C125_bind_while_blur : ∃ (H : Handlers ℕ Unit) (ops : List (Op ℕ)), run H ops { world := () } = none := by
  refine ⟨fun _ down w m => ⟨w, m, if down then [] else [⟨9, 0, 1, 0⟩], true⟩,
    [.register, .bind ⟨7, 0, 1, 0⟩, .keydown 7 0, .blur], ?_⟩
  decide +kernel

/-- Handlers that interrupt the process: three keys are pressed, of which one has no binding in the current mode. -/
example : (run (fun _ _ w m => ⟨w, m, [], false⟩) [.register, .register, .bind ⟨7, 0, 1, 0⟩, .bind ⟨3, 0, 1, 1⟩, .bind ⟨5, 1, 1, 1⟩, .keydown 7 0,
      .keydown 3 10, .keydown 5 10, .blur, .resume, .resume] ({ world := () } : State ℕ Unit)).map (fun s => (s.calls, s.blur)) =
    some ([(7, 0, true), (3, 1, true), (3, 1, false), (7, 0, false)], false) := by decide +kernel

/-- Without resumption, only the first handler is called. -/
example : (run (fun _ _ w m => ⟨w, m, [], false⟩) [.register, .register, .bind ⟨7, 0, 1, 0⟩, .bind ⟨3, 0, 1, 1⟩, .keydown 7 0,
      .keydown 3 10, .blur] ({ world := () } : State ℕ Unit)).map (fun s => (s.calls, s.blur)) =
    some ([(7, 0, true), (3, 1, true), (3, 1, false)], true) := by decide +kernel

/-! ### C126: modifier modes -/

/-- C126: When there is never more than one modifier key pressed, the modifier mode is the documented one. -/
theorem C126_single_partial (U : Handlers κ W) (keys : ℕ → κ) (hk : Distinct keys)
    (hU : ∀ i d w m, ∀ b ∈ (U i d w m).binds, Foreign keys b) (ops : List (Op κ)) (hops : ∀ op ∈ ops, KeyOp op)
    (hone : ∀ a j t b, ops = a ++ .keydown (keys j) t :: b → j < 8 → held (keys j) a = false → ∀ i, i < 8 → held (keys i) a = false)
    (w : W) (s : State κ W) (hr : run (engineHandlers U) ops (engineInit keys w) = some s) : s.mode = documentedMode keys ops := by
  have h := tight_run hk hU ops [] _ s hops (tight_init hk w) (by rw [List.nil_append]; exact hone) hr
  rw [List.nil_append] at h
  exact h.mode

/-- C126: With the built-in bindings, composed modifier modes never come into effect, regardless of which keys are pressed. -/
theorem C126_never_composed (U : Handlers κ W) (keys : ℕ → κ) (hk : Distinct keys)
    (hU : ∀ i d w m, ∀ b ∈ (U i d w m).binds, Foreign keys b) (ops : List (Op κ)) (hops : ∀ op ∈ ops, Allowed keys op) (w : W)
    (s : State κ W) (hr : run (engineHandlers U) ops (engineInit keys w) = some s) :
    s.mode = 0 ∨ s.mode = 1 ∨ s.mode = 2 ∨ s.mode = 4 ∨ s.mode = 8 := by
  obtain ⟨_, o, h⟩ := run_inv (modInv_preserved hk hU) ops _ s hops (engineInit_bindInv keys w).idle.wf ⟨none, engineInit_inv hk w⟩ hr
  have h1 := h.mode
  have h2 := h.lt
  cases o with
  | none => exact Or.inl h1
  | some j =>
    have hj := h2 j rfl
    have : ∀ j, j < 8 → modeOf (some j) = 1 ∨ modeOf (some j) = 2 ∨ modeOf (some j) = 4 ∨ modeOf (some j) = 8 := by decide
    rw [h1]
    exact Or.inr (this j hj)

/-- C126: The control key is pressed, and then the shift key: the documented mode is 3, the actual mode is 2. -/
theorem C126_composed_fails : (run (engineHandlers idle) [.keydown 2 0, .keydown 0 100] (engineInit id ())).map (·.mode) = some 2 ∧
    documentedMode id [.keydown 2 0, .keydown 0 100] = 3 := by decide +kernel

/-- C126: What a modifier key does to the modifier mode: it sets or clears its own bit, and leaves all other bits as they are. -/
theorem C126_bit (i j mode : ℕ) (hi : i < 4) (hm : mode < 2 ^ 32) (down : Bool) :
    (modifierFunc (2 ^ i) down mode).testBit j = if j = i then down else mode.testBit j := by
  unfold modifierFunc
  cases down
  · simp only [Bool.false_eq_true, if_false]
    have e : 2 ^ 32 - 1 - 2 ^ i = (2 ^ 32 - 1) ^^^ 2 ^ i := by
      have : ∀ i, i < 4 → 2 ^ 32 - 1 - 2 ^ i = (2 ^ 32 - 1) ^^^ 2 ^ i := by decide +kernel
      exact this i hi
    rw [e, Nat.testBit_and, Nat.testBit_xor, Nat.testBit_two_pow_sub_one, Nat.testBit_two_pow]
    by_cases hj : j = i
    · subst hj
      simp [show j < 32 by omega]
    · rw [if_neg hj]
      by_cases hj2 : j < 32
      · simp [hj2, Ne.symm hj]
      · rw [Nat.testBit_lt_two_pow (lt_of_lt_of_le hm (Nat.pow_le_pow_right (by decide) (by omega))), Bool.false_and]
  · simp only [if_true]
    rw [Nat.testBit_or, Nat.testBit_two_pow]
    by_cases hj : j = i
    · simp [hj]
    · simp [hj, Ne.symm hj]

/-- C126: With an additional binding of the shift key for the control mode, the composed mode comes into effect. -/
example : (run (engineHandlers idle) [.bind ⟨0, 2, 1, 0⟩, .keydown 2 0, .keydown 0 100] (engineInit id ())).map (·.mode) = some 3 := by
  decide +kernel

/-- C126: Both shift keys are pressed, and one is released: the documented mode is 1, the actual mode is 0. -/
theorem C126_both_sides_fails :
    (run (engineHandlers idle) [.keydown 0 0, .keydown 1 100, .keyup 0] (engineInit id ())).map (·.mode) = some 0 ∧
      documentedMode id [.keydown 0 0, .keydown 1 100, .keyup 0] = 1 := by decide +kernel

/-- C126: When the shift key is bound to an additional handler while it is pressed, the shift mode remains in effect forever, regardless
of which keys are pressed and released after that, and regardless of loss of focus. -/
theorem C126_stuck (U : Handlers κ W) (keys : ℕ → κ) (hk : Distinct keys)
    (hU : ∀ i d w m, ∀ b ∈ (U i d w m).binds, Foreign keys b) (t : ℤ) (b : Bind κ) (hb : b.key = keys 0) (hbh : b.handler = 4)
    (ops : List (Op κ)) (hops : ∀ op ∈ ops, ShiftSafe op) (w : W) (s : State κ W)
    (hr : run (engineHandlers U) ([.register, .keydown (keys 0) t, .bind b] ++ ops) (engineInit keys w) = some s) : s.mode = 1 := by
  rw [run_append, Option.bind_eq_some_iff] at hr
  obtain ⟨s3, h3, hr⟩ := hr
  have hbi := (engineInit_bindInv keys w).register
  have hinv := (modInv_preserved (U := U) hk hU).register _ (engineInit_bindInv keys w).idle.wf ⟨none, engineInit_inv hk w⟩
  generalize h0 : (registerHandler (engineInit keys w)).1 = s0 at hbi hinv
  have hrun : run (engineHandlers U) [.register, .keydown (keys 0) t, .bind b] (engineInit keys w) =
      (step (engineHandlers U) (.keydown (keys 0) t) s0).bind (fun s1 => some (bindKey b s1).1) := by
    rw [← h0]
    simp only [run, step, Option.bind_some]
  rw [hrun, Option.bind_eq_some_iff] at h3
  obtain ⟨s1, h1, h2⟩ := h3
  cases h2
  obtain ⟨o0, ho0⟩ := hinv
  have ho0' : o0 = none := modeOf_eq_zero.mp (ho0.mode.symm.trans hbi.idle.mode)
  subst ho0'
  obtain ⟨v, hf, hm⟩ := ho0.slot 0 (by omega)
  have hp := (hbi.idle.slots _ v hf).1
  have hph := mod_pressHandler hm s0.mode t
  rw [if_pos hbi.idle.mode] at hph
  simp only [step] at h1
  rw [onKeydown_eq _ hbi.idle.wf hf hp, hph] at h1
  have h1' : s1 = touch (engineHandlers U) (keys 0) (pressSlot s0.mode t v) (some (((0 / 2 : ℕ) : ℤ), true)) s0 := by
    have e : act (engineHandlers U) (keys 0) (pressSlot s0.mode t v) (some (((0 / 2 : ℕ) : ℤ), true)) s0 = s1 := by
      simpa using h1
    rw [← e]
    rfl
  have hmode : s1.mode = 1 := by
    rw [h1', touch_mode]
    show modifierFunc (2 ^ 0) true s0.mode = 1
    rw [hbi.idle.mode]; rfl
  have hpress := ho0.press (U := U) (t := t) hk hf hp
  rw [hph] at hpress
  have h1'' : ∃ o, ModInv keys o s1 := by rw [h1']; exact hpress
  obtain ⟨o, ho⟩ := h1''
  have hf0 : findSlot (keys 0) s1.slots = some (pressSlot s0.mode t v) := by rw [h1', find_touch _ _ _ _ hf, if_pos rfl]
  have ho1 : o = some 0 := by
    obtain ⟨v0, hv0, hm0⟩ := ho.slot 0 (by omega)
    rw [hf0] at hv0
    cases hv0
    apply hm0.active.mp
    refine ⟨rfl, ?_⟩
    simp only [pressSlot, hph, Option.getD_some]
    omega
  subst ho1
  have hw1 : WF s1 := by
    rw [h1']
    exact hbi.idle.wf.touch _ hf rfl (pressSlot_index hbi.idle.wf hf t)
  have hcount : s1.handlerCount = 5 := by rw [h1']; exact hbi.count
  have hst : Stuck (bindKey b s1).1 := stuck_bind ho hw1 hmode (by omega) hb ⟨by omega, by rw [hcount, hbh]; decide⟩
  have hU' : ∀ i d w m, ∀ b ∈ (U i d w m).binds, ShiftSafe (.bind b) := fun i d w m b hb => Or.inl (hU i d w m b hb).1
  exact (run_inv (stuck_preserved hU') ops _ s hops hw1.bind hst hr).2.mode

/-- One key at a time. -/
example : (run (engineHandlers idle) [.keydown 3 0, .keyup 3, .keydown 6 100] (engineInit id ())).map (·.mode) = some 8 ∧
    documentedMode id [.keydown 3 0, .keyup 3, .keydown 6 100] = 8 := by decide +kernel

/-- Shift is stuck: it is released, and pressed and released again. -/
example : (run (engineHandlers idle) ([.register, .keydown 0 0, .bind ⟨0, 0, 2, 4⟩] ++ [.keyup 0, .keydown 0 9000, .keyup 0, .blur])
    (engineInit id ())).map (·.mode) = some 1 := by decide +kernel

end Verif.KeyBindings.Props
