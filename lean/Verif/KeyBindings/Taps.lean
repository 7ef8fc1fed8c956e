import Mathlib.Data.Nat.ModEq
import Verif.KeyBindings.Blur

/-!
# Multiplicity of presses
-/

namespace Verif.KeyBindings

open Spec

variable {κ W : Type} [LinearOrder κ]

/-! ### Bindings -/

theorem lookup_cons (key : ℕ × ℤ) (e : (ℕ × ℤ) × ℤ) (l : List ((ℕ × ℤ) × ℤ)) :
    lookup key (e :: l) = if e.1 = key then some e.2 else lookup key l := by
  unfold lookup
  by_cases h : e.1 = key <;> simp [h]

theorem lookup_assign (key key' : ℕ × ℤ) (i : ℤ) (l : List ((ℕ × ℤ) × ℤ)) :
    lookup key' (assign key i l) = if key' = key then some i else lookup key' l := by
  induction l with
  | nil =>
    rw [assign, lookup_cons]
    by_cases h : key' = key
    · simp [h]
    · have h2 : ¬key = key' := fun e => h e.symm
      simp [h, h2]
  | cons e l ih =>
    rw [assign]
    by_cases h1 : e.1 = key
    · rw [if_pos h1, lookup_cons, lookup_cons]
      by_cases h : key' = key
      · simp [h]
      · have h2 : ¬key = key' := fun e => h e.symm
        have h3 : ¬e.1 = key' := fun e => h2 (h1.symm.trans e)
        simp [h, h2, h3]
    · rw [if_neg h1, lookup_cons, ih, lookup_cons]
      by_cases h : key' = key
      · subst h; simp [h1]
      · simp [h]

theorem maxMult_aux (l : List ((ℕ × ℤ) × ℤ)) : ∀ (m : ℤ), m ≤ l.foldl (fun m e => if e.1.2 ≤ m then m else e.1.2) m ∧
    (∀ e ∈ l, e.1.2 ≤ l.foldl (fun m e => if e.1.2 ≤ m then m else e.1.2) m) ∧
    (l.foldl (fun m e => if e.1.2 ≤ m then m else e.1.2) m = m ∨ ∃ e ∈ l, e.1.2 = l.foldl (fun m e => if e.1.2 ≤ m then m else e.1.2) m) := by
  induction l with
  | nil => intro m; exact ⟨le_rfl, fun e he => (by cases he), Or.inl rfl⟩
  | cons a l ih =>
    intro m
    rw [List.foldl_cons]
    obtain ⟨h1, h2, h3⟩ := ih (if a.1.2 ≤ m then m else a.1.2)
    have h4 : m ≤ (if a.1.2 ≤ m then m else a.1.2) ∧ a.1.2 ≤ (if a.1.2 ≤ m then m else a.1.2) := by split <;> omega
    refine ⟨h4.1.trans h1, ?_, ?_⟩
    · intro e he
      rcases List.mem_cons.mp he with rfl | he
      · exact h4.2.trans h1
      · exact h2 e he
    · rcases h3 with h3 | ⟨e, he, h3⟩
      · by_cases h5 : a.1.2 ≤ m
        · rw [if_pos h5] at h3 ⊢; exact Or.inl h3
        · rw [if_neg h5] at h3 ⊢; exact Or.inr ⟨a, List.mem_cons_self, h3.symm⟩
      · exact Or.inr ⟨e, List.mem_cons_of_mem _ he, h3⟩

theorem maxMultiplicity_eq {l : List ((ℕ × ℤ) × ℤ)} {M : ℤ} (h0 : 1 ≤ M) (h1 : ∃ e ∈ l, e.1.2 = M) (h2 : ∀ e ∈ l, e.1.2 ≤ M) :
    maxMultiplicity l = M := by
  obtain ⟨a, b, c⟩ := maxMult_aux l 0
  obtain ⟨e, he, hM⟩ := h1
  have hb := b e he
  unfold maxMultiplicity
  rcases c with c | ⟨e', he', c⟩
  · omega
  · have := h2 e' he'
    omega

/-- The handler to which a key is bound. -/
def boundIn (s : State κ W) (k : κ) (mode : ℕ) (mult : ℤ) : Option ℤ := (findSlot k s.slots).bind fun v => lookup (mode, mult) v.handlers

theorem boundTo_append (bs : List (Bind κ)) (b : Bind κ) (k : κ) (m : ℕ) (μ : ℤ) :
    boundTo (bs ++ [b]) k m μ = if b.key = k ∧ b.mode = m ∧ b.mult = μ then some b.handler else boundTo bs k m μ := by
  unfold boundTo
  rw [List.reverse_append, List.reverse_singleton, List.singleton_append]
  by_cases h : b.key = k ∧ b.mode = m ∧ b.mult = μ <;> simp [h]

/-- The state after a series of requests. -/
structure BindInv (n : ℕ) (bs : List (Bind κ)) (s : State κ W) : Prop where
  idle : Idle s
  count : s.handlerCount = n
  bound : ∀ k m μ, boundIn s k m μ = boundTo bs k m μ
  handlers : ∀ k v, findSlot k s.slots = some v → ∀ e ∈ v.handlers, ∃ b ∈ bs, b.key = k ∧ b.mult = e.1.2

theorem BindInv.bind {n : ℕ} {bs : List (Bind κ)} {s : State κ W} (h : BindInv n bs s) {b : Bind κ} (hb : ValidBind b n) :
    BindInv n (bs ++ [b]) (bindKey b s).1 := by
  have hv : ValidBind b s.handlerCount := by rw [h.count]; exact hb
  refine ⟨h.idle.bind b, ?_, ?_, ?_⟩
  · rw [bindKey_valid hv]; exact h.count
  · intro k m μ
    rw [boundTo_append]
    unfold boundIn
    rw [bindKey_find h.idle.wf.sorted hv]
    by_cases hk : k = b.key
    · subst hk
      rw [if_pos rfl, Option.bind_some]
      show lookup (m, μ) (assign (b.mode, b.mult) b.handler ((findSlot b.key s.slots).getD {}).handlers) = _
      rw [lookup_assign]
      by_cases h2 : b.mode = m ∧ b.mult = μ
      · rw [if_pos (by rw [h2.1, h2.2]), if_pos ⟨rfl, h2⟩]
      · rw [if_neg (fun e => h2 ?_), if_neg (fun e => h2 e.2), ← h.bound]
        · unfold boundIn
          cases findSlot b.key s.slots <;> rfl
        · simp only [Prod.mk.injEq] at e
          exact ⟨e.1.symm, e.2.symm⟩
    · rw [if_neg hk, if_neg (fun e => hk e.1.symm), ← h.bound]
      rfl
  · intro k v hf e he
    rw [bindKey_find h.idle.wf.sorted hv] at hf
    split at hf
    · next hk =>
      cases hf
      have he : e ∈ assign (b.mode, b.mult) b.handler ((findSlot b.key s.slots).getD {}).handlers := he
      rcases mem_assign he with rfl | he
      · exact ⟨b, by simp, hk.symm, rfl⟩
      · cases hf : findSlot b.key s.slots with
        | none => rw [hf] at he; cases he
        | some w =>
          rw [hf] at he
          obtain ⟨b', hb', h1, h2⟩ := h.handlers _ _ hf e he
          exact ⟨b', by simp [hb'], h1.trans hk.symm, h2⟩
    · obtain ⟨b', hb', h1⟩ := h.handlers _ _ hf e he
      exact ⟨b', by simp [hb'], h1⟩

theorem bindInv_binds {H : Handlers κ W} {n : ℕ} (bs' : List (Bind κ)) : ∀ (bs : List (Bind κ)) (s : State κ W), BindInv n bs s →
    (∀ b ∈ bs', ValidBind b n) → ∃ s', run H (bs'.map .bind) s = some s' ∧ BindInv n (bs ++ bs') s' := by
  induction bs' with
  | nil => intro bs s h _; exact ⟨s, rfl, by rw [List.append_nil]; exact h⟩
  | cons b bs' ih =>
    intro bs s h hv
    obtain ⟨s', h1, h2⟩ := ih (bs ++ [b]) _ (h.bind (hv b List.mem_cons_self)) (fun b' hb' => hv b' (List.mem_cons_of_mem _ hb'))
    refine ⟨s', ?_, by simpa using h2⟩
    rw [List.map_cons, run]
    exact h1

theorem bindInv_registers {H : Handlers κ W} (n : ℕ) : ∀ (m : ℕ) (s : State κ W), BindInv m [] s →
    ∃ s', run H (List.replicate n .register) s = some s' ∧ BindInv (m + n) [] s' := by
  induction n with
  | zero => intro m s h; exact ⟨s, rfl, h⟩
  | succ n ih =>
    intro m s h
    obtain ⟨s', h1, h2⟩ := ih (m + 1) (registerHandler s).1 ⟨h.idle.register, by simp [registerHandler, h.count], h.bound, h.handlers⟩
    refine ⟨s', ?_, by rw [show m + (n + 1) = m + 1 + n by omega]; exact h2⟩
    rw [List.replicate_succ, run]
    exact h1

theorem setup_run (H : Handlers κ W) (n : ℕ) (bs : List (Bind κ)) (hbs : ∀ b ∈ bs, ValidBind b n) (w : W) :
    ∃ s, run H (List.replicate n .register ++ bs.map .bind) { world := w } = some s ∧ BindInv n bs s := by
  obtain ⟨s1, h1, h2⟩ := bindInv_registers (H := H) n 0 ({ world := w } : State κ W)
    ⟨idle_init w, rfl, fun _ _ _ => rfl, fun k v h => (by cases h)⟩
  obtain ⟨s2, h3, h4⟩ := bindInv_binds (H := H) bs [] s1 (by rw [Nat.zero_add] at h2; exact h2) hbs
  exact ⟨s2, by rw [run_append, h1]; exact h3, h4⟩

/-! ### Series of presses -/

/-- The state of a slot relative to the previous press. -/
def SlotAfter (M : ℕ) (prev : Option (ℕ × ℤ × ℕ)) (v : Slot) : Prop :=
  match prev with
  | none => v.mult = 0
  | some (p, t, m) => v.mult = (p % M : ℕ) + 1 ∧ v.time = t ∧ v.smode = m

theorem succ_mod {p M : ℕ} (hM : 1 ≤ M) : (p + 1) % M = if p % M + 1 < M then p % M + 1 else 0 := by
  have h1 : (p % M + 1) % M = (p + 1) % M := Nat.mod_add_mod p M 1
  have h2 := Nat.mod_lt p hM
  rw [← h1]
  split
  · next h => exact Nat.mod_eq_of_lt h
  · have : p % M + 1 = M := by omega
    rw [this, Nat.mod_self]

/-- The expected calls for one press. -/
def tapCall (f : ℕ → ℤ → Option ℤ) (k : κ) (M : ℕ) (x : (ℤ × ℕ) × ℕ) : List (κ × ℕ × Bool) :=
  match f x.1.2 ((x.2 % M : ℕ) + 1) with
  | none => []
  | some h => [(k, h.toNat, true), (k, h.toNat, false)]

/-- The position of the next press. -/
def nextPos (prev : Option (ℕ × ℤ × ℕ)) (t : ℤ) (m : ℕ) : ℕ :=
  match prev with
  | none => 0
  | some (p, t', m') => if m = m' ∧ t - t' ≤ 250 then p + 1 else 0

theorem seriesPositions_cons (prev : Option (ℕ × ℤ × ℕ)) (t : ℤ) (m : ℕ) (l : List (ℤ × ℕ)) :
    seriesPositions prev ((t, m) :: l) = nextPos prev t m :: seriesPositions (some (nextPos prev t m, t, m)) l := by
  cases prev <;> rfl

theorem pressMult_eq {M : ℕ} (hM : 1 ≤ M) {prev : Option (ℕ × ℤ × ℕ)} {v : Slot} (h : SlotAfter M prev v) (hmax : v.maxMult = M)
    (t : ℤ) (m : ℕ) : pressMult m t v = (nextPos prev t m % M : ℕ) + 1 := by
  unfold pressMult
  cases prev with
  | none =>
    have h : v.mult = 0 := h
    rw [if_neg (by omega)]
    simp [nextPos]
  | some x =>
    obtain ⟨p, t', m'⟩ := x
    obtain ⟨h1, h2, h3⟩ := h
    rw [h1, h2, h3, hmax]
    simp only [nextPos]
    by_cases hq : m = m' ∧ t - t' ≤ 250
    · rw [if_pos hq, succ_mod hM]
      by_cases hl : p % M + 1 < M
      · rw [if_pos ⟨by omega, hq.1, hq.2, by omega⟩, if_pos hl]
        push_cast; rfl
      · rw [if_neg (by omega), if_neg hl]; simp
    · rw [if_neg hq, if_neg (fun h => hq ⟨h.2.1, h.2.2.1⟩)]; simp

theorem taps_run {H : Handlers κ W} (hH : NoBinds H) {k : κ} {M : ℕ} (hM : 1 ≤ M) {hs : List ((ℕ × ℤ) × ℤ)} (taps : List (ℤ × ℕ)) :
    ∀ (prev : Option (ℕ × ℤ × ℕ)) (s : State κ W) (v : Slot), WF s → findSlot k s.slots = some v → v.pressed = false →
      v.handlers = hs → v.maxMult = M → SlotAfter M prev v →
      ∃ s', run H (tapOps k taps) s = some s' ∧
        s'.calls = s.calls ++ (taps.zip (seriesPositions prev taps)).flatMap (tapCall (fun m μ => lookup (m, μ) hs) k M) := by
  induction taps with
  | nil => intro prev s v _ _ _ _ _ _; exact ⟨s, rfl, by simp⟩
  | cons x taps ih =>
    obtain ⟨t, m⟩ := x
    intro prev s v hw hf hp hh hmax hsa
    have hops : tapOps k ((t, m) :: taps) = [.setMode m, .keydown k t, .keyup k] ++ tapOps k taps := rfl
    rw [hops, run_append]
    have hmul := pressMult_eq hM hsa hmax t m
    set s1 : State κ W := { s with mode := m } with hs1
    have hw1 : WF s1 := ⟨hw.sorted, hw.index, hw.handlers⟩
    have hf1 : findSlot k s1.slots = some v := hf
    have e1 : step H (.setMode m) s = some s1 := rfl
    have e2 : step H (.keydown k t) s1 = some (touch H k (pressSlot m t v) ((pressHandler m t v).map (·, true)) s1) := by
      simp only [step]
      rw [onKeydown_eq H hw1 hf1 hp, act_eq_touch hH]
      rfl
    have hw2 : WF (touch H k (pressSlot m t v) ((pressHandler m t v).map (·, true)) s1) :=
      hw1.touch H hf1 rfl (pressSlot_index hw1 hf1 t)
    generalize hs2 : touch H k (pressSlot m t v) ((pressHandler m t v).map (·, true)) s1 = s2 at e2 hw2
    have hf2 : findSlot k s2.slots = some (pressSlot m t v) := by
      rw [← hs2, find_touch H k k _ hf1, if_pos rfl]
    have hc2 : s2.calls = s.calls ++ ((pressHandler m t v).map (·, true)).toList.map (fun c => (k, c.1.toNat, c.2)) := by
      rw [← hs2, touch_calls]
    have e3 : step H (.keyup k) s2 = some (touch H k { pressSlot m t v with pressed := false } (releaseCall (pressSlot m t v)) s2) := by
      simp only [step]
      rw [onKeyup_eq H hw2 hf2 rfl, act_eq_touch hH]
      rfl
    have hw3 : WF (touch H k { pressSlot m t v with pressed := false } (releaseCall (pressSlot m t v)) s2) :=
      hw2.touch H hf2 rfl (hw2.index k (pressSlot m t v) hf2)
    have hf3 : findSlot k (touch H k { pressSlot m t v with pressed := false } (releaseCall (pressSlot m t v)) s2).slots =
        some { pressSlot m t v with pressed := false } := by
      rw [find_touch H k k _ hf2, if_pos rfl]
    have hc3 := touch_calls H k { pressSlot m t v with pressed := false } (releaseCall (pressSlot m t v)) s2
    generalize touch H k { pressSlot m t v with pressed := false } (releaseCall (pressSlot m t v)) s2 = s3 at e3 hw3 hf3 hc3
    have hrun : run H [.setMode m, .keydown k t, .keyup k] s = some s3 := by
      simp only [run, e1, e2, e3, Option.bind_some]
    rw [hrun]
    obtain ⟨s', h1, h2⟩ := ih (some (nextPos prev t m, t, m)) s3 _ hw3 hf3 rfl hh hmax ⟨hmul, rfl, rfl⟩
    refine ⟨s', h1, ?_⟩
    rw [h2, seriesPositions_cons, List.zip_cons_cons, List.flatMap_cons, hc3, hc2, List.append_assoc, List.append_assoc]
    congr 1
    rw [← List.append_assoc]
    congr 1
    unfold tapCall
    simp only
    rw [← hmul, ← hh]
    have hph : pressHandler m t v = lookup (m, pressMult m t v) v.handlers := rfl
    cases hl : lookup (m, pressMult m t v) v.handlers with
    | none =>
      have : releaseCall (pressSlot m t v) = none := by
        unfold releaseCall
        rw [if_pos]
        right
        simp only [pressSlot, hph, hl]; decide
      rw [hph, hl, this]; rfl
    | some i =>
      have hi := (hw.handlers k v hf _ (lookup_mem hl)).1
      simp only at hi
      have : releaseCall (pressSlot m t v) = some (i, false) := by
        unfold releaseCall
        rw [if_neg]
        · simp only [pressSlot, hph, hl]; rfl
        · rintro (h | h)
          · cases h
          · simp only [pressSlot, hph, hl, Option.getD_some] at h; omega
      rw [hph, hl, this]; rfl

end Verif.KeyBindings
