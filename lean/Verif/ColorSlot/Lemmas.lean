import Verif.ColorSlot.Spec
import Verif.ImageIter.Lemmas
/-!
Lemmas about the model of color slots.
-/
namespace Verif.ColorSlot
open Verif.ImageIter Spec

variable {α φ β : Type}

/-- The part of the array for the specified slot has the specified color. -/
def Holds (k : Nat) (slot : Slot) (mem : Option (Mem β)) (l : List β) : Prop :=
  l.length = k ∧ ∃ m, mem = some m ∧ ∀ j : Nat, j < k → m (slot.offset k + j) = some l[j]?

/-- The array, if there is one, is as large as it should be. -/
def Room (k : Nat) (mem : Option (Mem β)) : Prop := ∀ a : Int, 0 ≤ a → a < k * 2 → ensureSlots k mem a ≠ none

theorem room_none (k : Nat) : Room k (none : Option (Mem β)) := by
  intro a h1 h2
  simp [ensureSlots, alloc, h1, h2]

theorem offset_range (slot : Slot) (k j : Nat) (h : j < k) : 0 ≤ slot.offset k + j ∧ slot.offset k + (j : Int) < k * 2 := by
  cases slot <;> simp [Slot.offset, Slot.index] <;> omega

theorem offset_ne {slot slot' : Slot} (hs : slot' ≠ slot) {k j j' : Nat} (h : j < k) (h' : j' < k) :
    slot'.offset k + (j' : Int) ≠ slot.offset k + j := by
  cases slot <;> cases slot' <;> simp [Slot.offset, Slot.index] at hs ⊢ <;> omega

theorem mapM_range {n : Nat} {f : Nat → Option β} {l : List β} (hl : l.length = n) (h : ∀ j, j < n → f j = l[j]?) :
    (List.range n).mapM f = some l := by
  subst hl
  suffices ∀ n, n ≤ l.length → (List.range n).mapM f = some (l.take n) by simpa using this l.length (le_refl _)
  intro n
  induction n with
  | zero => intro _; rfl
  | succ n ih =>
    intro hn
    have h1 := ih (by omega)
    have h2 : f n = some l[n] := by rw [h n (by omega), List.getElem?_eq_getElem]
    rw [List.range_succ, List.mapM_append, h1, List.take_succ_eq_append_getElem (by omega)]
    simp [h2]

theorem getSlot_eq {k : Nat} {slot : Slot} {mem : Option (Mem β)} {l : List β} (h : Holds k slot mem l) : getSlot k slot mem = some l := by
  obtain ⟨hl, m, rfl, hm⟩ := h
  simp only [getSlot, loadColor, Option.bind_eq_bind, Option.bind_some]
  refine mapM_range hl fun j hj => ?_
  simp [load, hm j hj]

/-- Storing of a part of the color, from the beginning. -/
theorem put_part {k n : Nat} {slot : Slot} {mem : Option (Mem β)} {l : List β} (hr : Room k mem) (hn : n ≤ k) (hl : n ≤ l.length) :
    ∃ m', put l (slot.offset k) n 0 (ensureSlots k mem) = some m' ∧ (∀ j : Nat, j < n → m' (slot.offset k + j) = some l[j]?) ∧
      Room k (some m') ∧ ∀ (slot' : Slot) (j : Nat), slot' ≠ slot → j < k → m' (slot'.offset k + j) = ensureSlots k mem (slot'.offset k + j) := by
  obtain ⟨m', e, h1, h2⟩ := put_spec (pixel := l) (destin := slot.offset k) n 0 (ensureSlots k mem) (by omega)
    (fun j _ hj => hr _ (offset_range slot k j (by omega)).1 (offset_range slot k j (by omega)).2)
  refine ⟨m', e, fun j hj => h1 j (by omega) (by omega), ?_, ?_⟩
  · intro a ha1 ha2
    show m' a ≠ none
    by_cases hc : ∀ j : Nat, 0 ≤ j → j < 0 + n → a ≠ slot.offset k + j
    · rw [h2 a hc]; exact hr a ha1 ha2
    · push Not at hc
      obtain ⟨j, _, hj, rfl⟩ := hc
      rw [h1 j (by omega) (by omega)]
      simp
  · intro slot' j hs hj
    exact h2 _ fun j' _ hj' => offset_ne hs (by omega) hj

theorem Holds.other {k : Nat} {slot' : Slot} {mem : Option (Mem β)} {m' : Mem β} {l : List β} (h : Holds k slot' mem l)
    (hm : ∀ j : Nat, j < k → m' (slot'.offset k + j) = ensureSlots k mem (slot'.offset k + j)) : Holds k slot' (some m') l := by
  obtain ⟨hl, m, rfl, h⟩ := h
  exact ⟨hl, m', rfl, fun j hj => by rw [hm j hj]; exact h j hj⟩

/-- Storing of a color. -/
theorem put_slot {k : Nat} {slot : Slot} {mem : Option (Mem β)} {l : List β} (hr : Room k mem) (hl : l.length = k) :
    ∃ m', put l (slot.offset k) k 0 (ensureSlots k mem) = some m' ∧ Holds k slot (some m') l ∧ Room k (some m') ∧
      ∀ (slot' : Slot) (l' : List β), slot' ≠ slot → Holds k slot' mem l' → Holds k slot' (some m') l' := by
  obtain ⟨m', e, h1, h2, h3⟩ := put_part (slot := slot) hr (le_refl k) hl.ge
  exact ⟨m', e, ⟨hl, m', rfl, h1⟩, h2, fun slot' l' hs h => h.other fun j hj => h3 slot' j hs hj⟩

theorem toFloat_length (s : Scheme α φ) (hasAlpha : Bool) (l : List α) : (s.toFloat hasAlpha l).length = l.length := by
  unfold Scheme.toFloat
  split
  · simp
  · cases hg : l.getLast? with
    | none => rw [List.getLast?_eq_none_iff] at hg; simp [hg]
    | some a =>
      have : l ≠ [] := by rintro rfl; simp at hg
      have := List.length_pos_iff.mpr this
      simp; omega

theorem fromFloat_length (s : Scheme α φ) (hasAlpha : Bool) (l : List φ) : (s.fromFloat hasAlpha l).length = l.length := by
  unfold Scheme.fromFloat
  split
  · simp
  · cases hg : l.getLast? with
    | none => rw [List.getLast?_eq_none_iff] at hg; simp [hg]
    | some a =>
      have : l ≠ [] := by rintro rfl; simp at hg
      have := List.length_pos_iff.mpr this
      simp; omega

set_option linter.unusedSectionVars false

variable [DecidableEq α] [DecidableEq φ]

/-- The number of components of a color. -/
def Len (k : Nat) : Color α φ → Prop
  | .exact c => c.length = k
  | .neutral c => c.length = k

theorem Len.toNeutral {k : Nat} {s : Scheme α φ} {c : Color α φ} (h : Len k c) : (c.toNeutral s).length = k := by
  cases c with
  | exact c => rw [Color.toNeutral, toFloat_length]; exact h
  | neutral c => exact h

theorem Len.toExact {k : Nat} {s : Scheme α φ} {c : Color α φ} (h : Len k c) : (c.toExact s).length = k := by
  cases c with
  | exact c => exact h
  | neutral c => rw [Color.toExact, fromFloat_length]; exact h

theorem assigned_len {k : Nat} {s : Scheme α φ} {arg : Arg α φ} {opacity : φ} (h : ArgOk k arg) : Len k (assigned s arg opacity) := by
  cases arg with
  | native c a =>
    by_cases ho : opacity = s.one <;>
      cases a <;> simp only [ArgOk, Bool.not_false, Bool.not_true, Bool.toNat_true, Bool.toNat_false] at h <;>
      simp [assigned, Len, toFloat_length, ho] <;> omega
  | foreign c => simpa [assigned, Len, ArgOk] using h

/-- The state of a slot that has been initialized with the specified color. -/
structure Has (s : Scheme α φ) (k : Nat) (st : State α φ) (slot : Slot) (c : Color α φ) : Prop where
  len : Len k c
  solid : (st.ctrl slot).isSolid = c.isSolid s
  f : (st.ctrl slot).haveNeutral = true → Holds k slot st.f (c.toNeutral s)
  u : (st.ctrl slot).haveUnrestricted = true → Holds k slot st.u (c.toExact s)
  r : (st.ctrl slot).haveRestricted = true → Holds k slot st.r (c.toSolid s)
  exact : ∀ l, c = .exact l → (st.ctrl slot).haveUnrestricted = true
  neutral : ∀ l, c = .neutral l → (st.ctrl slot).haveNeutral = true

/-- The slot has not been initialized. -/
def Fresh (st : State α φ) (slot : Slot) : Prop :=
  (st.ctrl slot).haveNeutral = false ∧ (st.ctrl slot).haveRestricted = false ∧ (st.ctrl slot).haveUnrestricted = false

/-- The state agrees with the colors of the slots. -/
structure Inv (s : Scheme α φ) (k : Nat) (dflt : Slot → Arg α φ) (st : State α φ) (colors : Slot → Color α φ) : Prop where
  f : Room k st.f
  r : Room k st.r
  u : Room k st.u
  slot : ∀ slot, Has s k st slot (colors slot) ∨ Fresh st slot ∧ colors slot = defaults s dflt slot

theorem Has.congr {s : Scheme α φ} {k : Nat} {st st' : State α φ} {slot : Slot} {c : Color α φ} (h : Has s k st slot c)
    (hc : st'.ctrl slot = st.ctrl slot) (hf : ∀ l, Holds k slot st.f l → Holds k slot st'.f l) (hr : ∀ l, Holds k slot st.r l → Holds k slot st'.r l)
    (hu : ∀ l, Holds k slot st.u l → Holds k slot st'.u l) : Has s k st' slot c :=
  ⟨h.len, by rw [hc]; exact h.solid, fun e => hf _ (h.f (hc ▸ e)), fun e => hu _ (h.u (hc ▸ e)), fun e => hr _ (h.r (hc ▸ e)),
    fun l e => by rw [hc]; exact h.exact l e, fun l e => by rw [hc]; exact h.neutral l e⟩

/-- Other slots are not affected. -/
theorem Inv.update {s : Scheme α φ} {k : Nat} {dflt : Slot → Arg α φ} {st st' : State α φ} {colors : Slot → Color α φ} {slot : Slot} {c : Color α φ}
    (h : Inv s k dflt st colors) (hh : Has s k st' slot c) (kf : Room k st'.f) (kr : Room k st'.r) (ku : Room k st'.u)
    (hc : ∀ slot', slot' ≠ slot → st'.ctrl slot' = st.ctrl slot') (hf : ∀ slot' l, slot' ≠ slot → Holds k slot' st.f l → Holds k slot' st'.f l)
    (hr : ∀ slot' l, slot' ≠ slot → Holds k slot' st.r l → Holds k slot' st'.r l)
    (hu : ∀ slot' l, slot' ≠ slot → Holds k slot' st.u l → Holds k slot' st'.u l) :
    Inv s k dflt st' fun s' => if s' = slot then c else colors s' := by
  refine ⟨kf, kr, ku, fun slot' => ?_⟩
  by_cases hs : slot' = slot
  · subst hs
    rw [if_pos rfl]
    exact .inl hh
  · rw [if_neg hs]
    rcases h.slot slot' with h' | ⟨h', e⟩
    · exact .inl (h'.congr (hc _ hs) (fun l => hf _ l hs) (fun l => hr _ l hs) fun l => hu _ l hs)
    · refine .inr ⟨?_, e⟩
      unfold Fresh
      rw [hc _ hs]
      exact h'

theorem setCtrl_same (st : State α φ) (slot : Slot) (c : Ctrl) : (st.setCtrl slot c).ctrl slot = c := by simp [State.setCtrl]

theorem setCtrl_other (st : State α φ) {slot slot' : Slot} (c : Ctrl) (h : slot' ≠ slot) : (st.setCtrl slot c).ctrl slot' = st.ctrl slot' := by
  simp [State.setCtrl, h]

theorem getLast?_index {l : List β} {k : Nat} (hl : l.length = k) : l.getLast? = l[k - 1]? := by
  rw [List.getLast?_eq_getElem?, hl]

/-- Assignment of a color in the format of the image. -/
theorem setNative_inv {s : Scheme α φ} {k : Nat} {dflt : Slot → Arg α φ} {st : State α φ} {colors : Slot → Color α φ} (hk : 0 < k)
    (h : Inv s k dflt st colors) (slot : Slot) {c : List α} {a : Bool} (hl : c.length + (!a).toNat = k) :
    ∃ st', setNative s k slot c a st = some st' ∧
      Inv s k dflt st' (fun s' => if s' = slot then .exact (if a then c else c ++ [s.max]) else colors s') ∧
      Has s k st' slot (.exact (if a then c else c ++ [s.max])) := by
  unfold setNative
  cases a with
  | true =>
    simp only [Bool.not_true, Bool.toNat_false, Nat.add_zero] at hl
    obtain ⟨m', e, h1, h2, h3⟩ := put_slot (slot := slot) h.u hl
    simp only [Bool.not_true, Bool.toNat_false, Nat.sub_zero, e, Option.bind_eq_bind, Option.bind_some, if_true]
    have e2 : load m' (slot.offset k + ((k : Int) - 1)) = some (c[k - 1]'(by omega)) := by
      obtain ⟨_, m, hm, h1⟩ := h1
      cases hm
      have := h1 (k - 1) (by omega)
      rw [show ((k - 1 : Nat) : Int) = (k : Int) - 1 by omega] at this
      simp [load, this]
    rw [e2, Option.bind_some]
    have hh : Has s k (State.setCtrl { st with u := some m' } slot ⟨false, false, true, decide ((c[k - 1]'(by omega)) = s.max)⟩) slot (.exact c) := by
      refine ⟨hl, ?_, ?_, ?_, ?_, ?_, ?_⟩
      · rw [setCtrl_same]
        simp only [Color.isSolid, getLast?_index hl]
        rw [List.getElem?_eq_getElem (by omega), Bool.eq_iff_iff]
        simp
      · rw [setCtrl_same]; simp
      · intro _; exact h1
      · rw [setCtrl_same]; simp
      · rw [setCtrl_same]; simp
      · intro l hl; cases hl
    exact ⟨_, rfl, h.update hh h.f h.r h2 (fun slot' hs => setCtrl_other _ _ hs) (fun _ _ _ => id) (fun _ _ _ => id) (fun slot' l hs => h3 slot' l hs), hh⟩
  | false =>
    simp only [Bool.not_false, Bool.toNat_true] at hl
    obtain ⟨m', e, h1, h2, h3⟩ := put_part (slot := slot) (l := c) h.u (n := k - 1) (by omega) (by omega)
    have hr := offset_range slot k (k - 1) (by omega)
    have hcell := h2 _ hr.1 hr.2
    simp only [ensureSlots, Option.getD_some] at hcell
    simp only [Bool.not_false, Bool.toNat_true, e, Option.bind_eq_bind, Option.bind_some, Bool.false_eq_true, if_false, store_eq s.max hcell]
    have hh : Has s k (State.setCtrl { st with u := some (fun b => if b = slot.offset k + ((k - 1 : Nat) : Int) then some (some s.max) else m' b) } slot
        ⟨false, false, true, true⟩) slot (.exact (c ++ [s.max])) := by
      refine ⟨by simp [Len]; omega, ?_, ?_, ?_, ?_, ?_, ?_⟩
      · rw [setCtrl_same]; simp [Color.isSolid]
      · rw [setCtrl_same]; simp
      · intro _
        refine ⟨by simp [Color.toExact]; omega, _, rfl, fun j hj => ?_⟩
        simp only [Color.toExact]
        by_cases hjk : j = k - 1
        · subst hjk
          rw [if_pos rfl, List.getElem?_append_right (by omega)]
          simp [show k - 1 - c.length = 0 by omega]
        · rw [if_neg (by omega), h1 j (by omega), List.getElem?_append_left (by omega)]
      · rw [setCtrl_same]; simp
      · rw [setCtrl_same]; simp
      · intro l hl; cases hl
    refine ⟨_, rfl, h.update hh h.f h.r ?_ (fun slot' hs => setCtrl_other _ _ hs) (fun _ _ _ => id) (fun _ _ _ => id) (fun slot' l hs hl => ?_), hh⟩
    · intro a ha1 ha2
      show (if a = _ then some (some s.max) else m' a) ≠ none
      split
      · simp
      · exact h2 a ha1 ha2
    · refine hl.other fun j hj => ?_
      rw [if_neg (offset_ne hs (by omega) hj)]
      exact h3 slot' j hs hj

/-- Assignment of a color in representation `float_`. -/
theorem setNeutral_inv {s : Scheme α φ} {k : Nat} {dflt : Slot → Arg α φ} {st : State α φ} {colors : Slot → Color α φ} (hk : 0 < k)
    (h : Inv s k dflt st colors) (slot : Slot) {c : List φ} {opacity : φ} (hl : c.length = k) :
    ∃ st', setNeutral s k slot c opacity st = some st' ∧
      Inv s k dflt st' (fun s' => if s' = slot then .neutral (c.map fun x => s.mul x opacity) else colors s') ∧
      Has s k st' slot (.neutral (c.map fun x => s.mul x opacity)) := by
  unfold setNeutral
  have hl' : (c.map fun x => s.mul x opacity).length = k := by simpa using hl
  generalize (c.map fun x => s.mul x opacity) = c' at hl'
  obtain ⟨m', e, h1, h2, h3⟩ := put_slot (slot := slot) h.f hl'
  simp only [e, Option.bind_eq_bind, Option.bind_some]
  have e2 : load m' (slot.offset k + ((k : Int) - 1)) = some (c'[k - 1]'(by omega)) := by
    obtain ⟨_, m, hm, h1⟩ := h1
    cases hm
    have := h1 (k - 1) (by omega)
    rw [show ((k - 1 : Nat) : Int) = (k : Int) - 1 by omega] at this
    simp [load, this]
  rw [e2, Option.bind_some]
  have hh : Has s k (State.setCtrl { st with f := some m' } slot ⟨true, false, false, decide ((c'[k - 1]'(by omega)) = s.one)⟩) slot (.neutral c') := by
    refine ⟨hl', ?_, ?_, ?_, ?_, ?_, ?_⟩
    · rw [setCtrl_same]
      simp only [Color.isSolid, getLast?_index hl']
      rw [List.getElem?_eq_getElem (by omega), Bool.eq_iff_iff]
      simp
    · intro _; exact h1
    · rw [setCtrl_same]; simp
    · rw [setCtrl_same]; simp
    · intro l hl; cases hl
    · rw [setCtrl_same]; simp
  exact ⟨_, rfl, h.update hh h2 h.r h.u (fun slot' hs => setCtrl_other _ _ hs) (fun slot' l hs => h3 slot' l hs) (fun _ _ _ => id) (fun _ _ _ => id), hh⟩

/-- Assignment. -/
theorem doSet_inv {s : Scheme α φ} {k : Nat} {dflt : Slot → Arg α φ} {st : State α φ} {colors : Slot → Color α φ} (hk : 0 < k)
    (h : Inv s k dflt st colors) (slot : Slot) {arg : Arg α φ} {opacity : φ} (ha : ArgOk k arg) :
    ∃ st', doSet s k slot arg opacity st = some st' ∧
      Inv s k dflt st' (fun s' => if s' = slot then assigned s arg opacity else colors s') ∧ Has s k st' slot (assigned s arg opacity) := by
  cases arg with
  | native c a =>
    simp only [doSet]
    by_cases ho : opacity = s.one
    · rw [if_pos ho]
      have := setNative_inv hk h slot ha
      cases a <;> simpa [assigned, ho] using this
    · rw [if_neg ho]
      have hl : (s.toNeutral a c).length = k := by
        cases a <;> simp [ArgOk] at ha <;> simp [Scheme.toNeutral, toFloat_length, ha]
      have := setNeutral_inv (opacity := opacity) hk h slot hl
      cases a <;> simpa [assigned, ho, Scheme.toNeutral] using this
  | foreign c => exact setNeutral_inv hk h slot ha

/-- After assignment, there is one form of the color. -/
theorem doSet_one {s : Scheme α φ} {k : Nat} {slot : Slot} {arg : Arg α φ} {opacity : φ} {st st' : State α φ}
    (h : doSet s k slot arg opacity st = some st') : (st'.ctrl slot).haveNeutral = !(st'.ctrl slot).haveUnrestricted := by
  have h1 : ∀ c a, setNative s k slot c a st = some st' → (st'.ctrl slot).haveNeutral = !(st'.ctrl slot).haveUnrestricted := by
    intro c a h
    unfold setNative at h
    rw [Option.bind_eq_bind, Option.bind_eq_some_iff] at h
    obtain ⟨m, -, h⟩ := h
    split at h
    all_goals
      simp only [Option.bind_eq_bind, Option.bind_eq_some_iff] at h
      obtain ⟨_, -, h⟩ := h
      cases h
      rw [setCtrl_same]
      rfl
  have h2 : ∀ c, setNeutral s k slot c opacity st = some st' → (st'.ctrl slot).haveNeutral = !(st'.ctrl slot).haveUnrestricted := by
    intro c h
    unfold setNeutral at h
    rw [Option.bind_eq_bind, Option.bind_eq_some_iff] at h
    obtain ⟨m, -, h⟩ := h
    rw [Option.bind_eq_bind, Option.bind_eq_some_iff] at h
    obtain ⟨_, -, h⟩ := h
    cases h
    rw [setCtrl_same]
    rfl
  unfold doSet at h
  split at h
  · split at h
    · exact h1 _ _ h
    · exact h2 _ h
  · exact h2 _ h

theorem setDefault_one {s : Scheme α φ} {k : Nat} {dflt : Slot → Arg α φ} {slot : Slot} {st st' : State α φ}
    (h : setDefault s k dflt slot st = some st') : (st'.ctrl slot).haveNeutral = !(st'.ctrl slot).haveUnrestricted := by
  unfold setDefault at h
  simp only at h
  split at h
  · exact doSet_one h
  · cases h

/-- The array of opaque colors is not affected by assignment. -/
theorem doSet_r {s : Scheme α φ} {k : Nat} {slot : Slot} {arg : Arg α φ} {opacity : φ} {st st' : State α φ}
    (h : doSet s k slot arg opacity st = some st') : st'.r = st.r := by
  have h1 : ∀ c a, setNative s k slot c a st = some st' → st'.r = st.r := by
    intro c a h
    unfold setNative at h
    rw [Option.bind_eq_bind, Option.bind_eq_some_iff] at h
    obtain ⟨m, -, h⟩ := h
    split at h
    all_goals
      simp only [Option.bind_eq_bind, Option.bind_eq_some_iff] at h
      obtain ⟨_, -, h⟩ := h
      cases h
      rfl
  have h2 : ∀ c, setNeutral s k slot c opacity st = some st' → st'.r = st.r := by
    intro c h
    unfold setNeutral at h
    rw [Option.bind_eq_bind, Option.bind_eq_some_iff] at h
    obtain ⟨m, -, h⟩ := h
    rw [Option.bind_eq_bind, Option.bind_eq_some_iff] at h
    obtain ⟨_, -, h⟩ := h
    cases h
    rfl
  unfold doSet at h
  split at h
  · split at h
    · exact h1 _ _ h
    · exact h2 _ h
  · exact h2 _ h

theorem ensureF_r {s : Scheme α φ} {k : Nat} {dflt : Slot → Arg α φ} {slot : Slot} {st st' : State α φ} {c : List φ}
    (h : ensureF s k dflt slot st = some (st', c)) : st'.r = st.r := by
  have h1 : ∀ st1 st2 : State α φ, convertF s k slot st1 = some st2 → st2.r = st1.r := by
    intro st1 st2 h
    unfold convertF at h
    simp only [Option.bind_eq_bind, Option.bind_eq_some_iff] at h
    obtain ⟨_, -, _, -, h⟩ := h
    cases h
    rfl
  have h2 : ∀ st2 : State α φ, initF s k dflt slot st = some st2 → st2.r = st.r := by
    intro st2 h
    unfold initF at h
    split at h
    · cases h
    · split at h
      · exact h1 _ _ h
      · simp only [Option.bind_eq_bind, Option.bind_eq_some_iff] at h
        obtain ⟨st1, e, h⟩ := h
        have e1 : st1.r = st.r := by
          unfold setDefault at e
          simp only at e
          split at e
          · exact doSet_r e
          · cases e
        split at h
        · rw [h1 _ _ h, e1]
        · split at h
          · cases h; exact e1
          · cases h
  unfold ensureF at h
  split at h
  · simp only [Option.bind_eq_bind, Option.bind_eq_some_iff] at h
    obtain ⟨_, -, h⟩ := h
    cases h
    rfl
  · simp only [Option.bind_eq_bind, Option.bind_eq_some_iff] at h
    obtain ⟨st1, e, h⟩ := h
    split at h
    · simp only [Option.bind_eq_some_iff] at h
      obtain ⟨_, -, h⟩ := h
      cases h
      exact h2 _ e
    · cases h

/-- Assignment of the default color. -/
theorem setDefault_inv {s : Scheme α φ} {k : Nat} {dflt : Slot → Arg α φ} {st : State α φ} {colors : Slot → Color α φ} (hk : 0 < k)
    (hd : ∀ slot, ArgOk k (dflt slot)) (h : Inv s k dflt st colors) {slot : Slot} (hf : Fresh st slot) (hc : colors slot = defaults s dflt slot) :
    ∃ st', setDefault s k dflt slot st = some st' ∧ Inv s k dflt st' colors ∧ Has s k st' slot (colors slot) := by
  obtain ⟨st', e, h1, h2⟩ := doSet_inv hk h slot (opacity := s.one) (hd slot)
  refine ⟨st', ?_, ?_, ?_⟩
  · simp only [setDefault, hf.1, hf.2.1, hf.2.2, Bool.not_false, Bool.and_self, if_true, e]
  · have : (fun s' => if s' = slot then assigned s (dflt slot) s.one else colors s') = colors := by
      funext s'
      split
      · rename_i hs; subst hs; exact hc.symm
      · rfl
    rwa [this] at h1
  · rw [hc]; exact h2

/-- The color in representation `float_` is had from the other one. -/
theorem convertF_inv {s : Scheme α φ} {k : Nat} {dflt : Slot → Arg α φ} {st : State α φ} {colors : Slot → Color α φ} {slot : Slot}
    (h : Inv s k dflt st colors) (hh : Has s k st slot (colors slot)) (hn : (st.ctrl slot).haveNeutral = false) :
    ∃ st', convertF s k slot st = some st' ∧ Inv s k dflt st' colors ∧ Has s k st' slot (colors slot) ∧ (st'.ctrl slot).haveNeutral = true := by
  unfold convertF
  have hu := hh.u
  have hlen := hh.len
  cases hcol : colors slot with
  | neutral p => simp [hh.neutral p hcol] at hn
  | exact c =>
    have ho := hh.exact c hcol
    rw [hcol] at hu hlen
    obtain ⟨m', e, h1, h2, h3⟩ := put_slot (slot := slot) (l := s.toFloat true c) h.f (by rw [toFloat_length]; exact hlen)
    simp only [getSlot_eq (hu ho), Color.toExact, Option.bind_eq_bind, Option.bind_some, e]
    have hh' : Has s k (State.setCtrl { st with f := some m' } slot { st.ctrl slot with haveNeutral := true }) slot (.exact c) := by
      rw [hcol] at hh
      refine ⟨hlen, ?_, fun _ => h1, ?_, ?_, ?_, ?_⟩
      · rw [setCtrl_same]; exact hh.solid
      · rw [setCtrl_same]; exact hh.u
      · rw [setCtrl_same]; exact hh.r
      · rw [setCtrl_same]; exact fun _ _ => ho
      · intro l hl; cases hl
    refine ⟨_, rfl, ?_, hh', by rw [setCtrl_same]⟩
    have := h.update hh' h2 h.r h.u (fun slot' hs => setCtrl_other _ _ hs) (fun slot' l hs => h3 slot' l hs) (fun _ _ _ => id) (fun _ _ _ => id)
    rwa [show (fun s' => if s' = slot then Color.exact c else colors s') = colors from funext fun s' => by split <;> simp_all] at this

/-- The color in the representation of the image is had from the other one. -/
theorem convertU_inv {s : Scheme α φ} {k : Nat} {dflt : Slot → Arg α φ} {st : State α φ} {colors : Slot → Color α φ} {slot : Slot}
    (h : Inv s k dflt st colors) (hh : Has s k st slot (colors slot)) (hn : (st.ctrl slot).haveUnrestricted = false) :
    ∃ st', convertU s k slot st = some st' ∧ Inv s k dflt st' colors ∧ Has s k st' slot (colors slot) ∧ (st'.ctrl slot).haveUnrestricted = true := by
  unfold convertU
  have hu := hh.f
  have hlen := hh.len
  cases hcol : colors slot with
  | exact p => simp [hh.exact p hcol] at hn
  | neutral c =>
    have ho := hh.neutral c hcol
    rw [hcol] at hu hlen
    obtain ⟨m', e, h1, h2, h3⟩ := put_slot (slot := slot) (l := s.fromFloat true c) h.u (by rw [fromFloat_length]; exact hlen)
    simp only [getSlot_eq (hu ho), Color.toNeutral, Option.bind_eq_bind, Option.bind_some, e]
    have hh' : Has s k (State.setCtrl { st with u := some m' } slot { st.ctrl slot with haveUnrestricted := true }) slot (.neutral c) := by
      rw [hcol] at hh
      refine ⟨hlen, ?_, ?_, fun _ => h1, ?_, ?_, ?_⟩
      · rw [setCtrl_same]; exact hh.solid
      · rw [setCtrl_same]; exact hh.f
      · rw [setCtrl_same]; exact hh.r
      · intro l hl; cases hl
      · rw [setCtrl_same]; exact fun _ _ => ho
    refine ⟨_, rfl, ?_, hh', by rw [setCtrl_same]⟩
    have := h.update hh' h.f h.r h2 (fun slot' hs => setCtrl_other _ _ hs) (fun _ _ _ => id) (fun _ _ _ => id) (fun slot' l hs => h3 slot' l hs)
    rwa [show (fun s' => if s' = slot then Color.neutral c else colors s') = colors from funext fun s' => by split <;> simp_all] at this

theorem ensureF_inv {s : Scheme α φ} {k : Nat} {dflt : Slot → Arg α φ} {st : State α φ} {colors : Slot → Color α φ} (hk : 0 < k)
    (hd : ∀ slot, ArgOk k (dflt slot)) (h : Inv s k dflt st colors) (slot : Slot) :
    ∃ st', ensureF s k dflt slot st = some (st', (colors slot).toNeutral s) ∧ Inv s k dflt st' colors ∧ Has s k st' slot (colors slot) := by
  unfold ensureF
  by_cases hn : (st.ctrl slot).haveNeutral = true
  · rw [if_pos hn]
    rcases h.slot slot with hh | ⟨hf, _⟩
    · exact ⟨st, by simp [getSlot_eq (hh.f hn)], h, hh⟩
    · simp [hf.1] at hn
  · rw [if_neg hn]
    rw [Bool.not_eq_true] at hn
    have : ∃ st', initF s k dflt slot st = some st' ∧ Inv s k dflt st' colors ∧ Has s k st' slot (colors slot) ∧ (st'.ctrl slot).haveNeutral = true := by
      unfold initF
      rw [if_neg (by simp [hn])]
      rcases h.slot slot with hh | ⟨hf, hc⟩
      · cases hcol : colors slot with
        | neutral p => simp [hh.neutral p hcol] at hn
        | exact c =>
          rw [if_pos (hh.exact c hcol), ← hcol]
          exact convertF_inv h hh hn
      · rw [if_neg (by simp [hf.2.2])]
        obtain ⟨st1, e, h1, hh⟩ := setDefault_inv hk hd h hf hc
        rw [e, Option.bind_eq_bind, Option.bind_some]
        by_cases hu : (st1.ctrl slot).haveUnrestricted = true
        · rw [if_pos hu]
          exact convertF_inv h1 hh (by rw [setDefault_one e, hu]; rfl)
        · rw [if_neg hu]
          cases hcol : colors slot with
          | exact c => exact absurd (hh.exact c hcol) hu
          | neutral p =>
            have := hh.neutral p hcol
            rw [if_pos this, ← hcol]
            exact ⟨st1, rfl, h1, hh, this⟩
    obtain ⟨st', e, h1, h2, h3⟩ := this
    simp only [e, Option.bind_eq_bind, Option.bind_some, h3, if_true, getSlot_eq (h2.f h3)]
    exact ⟨st', rfl, h1, h2⟩

theorem ensureU_inv {s : Scheme α φ} {k : Nat} {dflt : Slot → Arg α φ} {st : State α φ} {colors : Slot → Color α φ} (hk : 0 < k)
    (hd : ∀ slot, ArgOk k (dflt slot)) (h : Inv s k dflt st colors) (slot : Slot) :
    ∃ st', ensureU s k dflt slot st = some (st', (colors slot).toExact s) ∧ Inv s k dflt st' colors := by
  have : ∃ st', (if (st.ctrl slot).haveUnrestricted then some st else initU s k dflt slot st) = some st' ∧ Inv s k dflt st' colors ∧
      Has s k st' slot (colors slot) ∧ (st'.ctrl slot).haveUnrestricted = true := by
    by_cases hn : (st.ctrl slot).haveUnrestricted = true
    · rw [if_pos hn]
      rcases h.slot slot with hh | ⟨hf, _⟩
      · exact ⟨st, rfl, h, hh, hn⟩
      · simp [hf.2.2] at hn
    · rw [if_neg hn]
      rw [Bool.not_eq_true] at hn
      unfold initU
      rw [if_neg (by simp [hn])]
      rcases h.slot slot with hh | ⟨hf, hc⟩
      · cases hcol : colors slot with
        | exact p => simp [hh.exact p hcol] at hn
        | neutral c =>
          rw [if_pos (hh.neutral c hcol), ← hcol]
          exact convertU_inv h hh hn
      · rw [if_neg (by simp [hf.1])]
        obtain ⟨st1, e, h1, hh⟩ := setDefault_inv hk hd h hf hc
        rw [e, Option.bind_eq_bind, Option.bind_some]
        have h11 := setDefault_one e
        by_cases hu : (st1.ctrl slot).haveNeutral = true
        · rw [if_pos hu]
          exact convertU_inv h1 hh (by rw [hu] at h11; simpa using h11.symm)
        · rw [if_neg hu]
          cases hcol : colors slot with
          | neutral c => exact absurd (hh.neutral c hcol) hu
          | exact p =>
            have := hh.exact p hcol
            rw [if_pos this, ← hcol]
            exact ⟨st1, rfl, h1, hh, this⟩
  obtain ⟨st', e, h1, h2, h3⟩ := this
  unfold ensureU
  rw [e]
  exact ⟨st', by simp [getSlot_eq (h2.u h3)], h1⟩

theorem isSolid_inv {s : Scheme α φ} {k : Nat} {dflt : Slot → Arg α φ} {st : State α φ} {colors : Slot → Color α φ} (hk : 0 < k)
    (hd : ∀ slot, ArgOk k (dflt slot)) (h : Inv s k dflt st colors) (slot : Slot) :
    ∃ st', isSolid s k dflt slot st = some (st', (colors slot).isSolid s) ∧ Inv s k dflt st' colors := by
  unfold isSolid
  rcases h.slot slot with hh | ⟨hf, hc⟩
  · have : ((st.ctrl slot).haveNeutral || (st.ctrl slot).haveUnrestricted) = true := by
      cases hcol : colors slot with
      | exact p => simp [hh.exact p hcol]
      | neutral p => simp [hh.neutral p hcol]
    rw [if_pos this]
    exact ⟨st, by simp [hh.solid], h⟩
  · rw [if_neg (by simp [hf.1, hf.2.2])]
    obtain ⟨st1, e, h1, hh⟩ := setDefault_inv hk hd h hf hc
    rw [e]
    exact ⟨st1, by simp [hh.solid], h1⟩

theorem toSolid_length {k : Nat} {s : Scheme α φ} {c : Color α φ} (hk : 0 < k) (h : Len k c) : (c.toSolid s).length = k := by
  cases c with
  | exact c =>
    have hc : c.length = k := h
    simp only [Color.toSolid]
    split
    · exact h
    · simp [fromFloat_length, toFloat_length, hc]; omega
  | neutral c =>
    have hc : c.length = k := h
    simp [Color.toSolid, fromFloat_length, hc]; omega

theorem dropLast_concat {l : List β} {x : β} (h : l.getLast? = some x) : l.dropLast ++ [x] = l := by
  have hne : l ≠ [] := by rintro rfl; simp at h
  rw [List.getLast?_eq_some_getLast hne, Option.some.injEq] at h
  rw [← h]
  exact List.dropLast_concat_getLast hne

/-- An opaque color is not changed by being made opaque. -/
theorem solid_exact {s : Scheme α φ} (hs : Laws s) {c : Color α φ} (h : c.isSolid s = true) : c.toSolid s = c.toExact s := by
  cases c with
  | exact c =>
    simp only [Color.isSolid, beq_iff_eq] at h
    simp [Color.toSolid, Color.toExact, h]
  | neutral c =>
    simp only [Color.isSolid, beq_iff_eq] at h
    simp only [Color.toSolid, Color.toExact, Scheme.fromFloat, Bool.not_false, Bool.or_true, if_true, Bool.not_true, Bool.or_false, h]
    split
    · rename_i hf
      conv_rhs => rw [← dropLast_concat h]
      simp [hs.color hf]
    · simp [hs.unmul, hs.alpha]

/-- Making opaque of the color in representation `float_`. -/
theorem opaque_neutral {s : Scheme α φ} {k : Nat} {c : Color α φ} (h : Len k c) (hc : ∀ l, c = .exact l → c.isSolid s = false ∨
    s.fromFloat false (s.toFloat true l).dropLast ++ [s.max] = l) : s.opaque (k - 1) (c.toNeutral s) = c.toSolid s := by
  have hl := h.toNeutral (s := s)
  have : (c.toNeutral s).take (k - 1) = (c.toNeutral s).dropLast := by rw [List.dropLast_eq_take, hl]
  rw [Scheme.opaque, this]
  cases c with
  | neutral c => rfl
  | exact c =>
    simp only [Color.toSolid, Color.toNeutral]
    rcases hc c rfl with h1 | h1
    · simp only [Color.isSolid, beq_eq_false_iff_ne] at h1
      rw [if_neg h1]
    · split
      · exact h1
      · rfl

theorem ensureR_inv {s : Scheme α φ} {k : Nat} {dflt : Slot → Arg α φ} {st : State α φ} {colors : Slot → Color α φ} (hk : 0 < k)
    (hs : Laws s) (hd : ∀ slot, ArgOk k (dflt slot))
    (hw : ∀ slot l, defaults s dflt slot = .exact l → (defaults s dflt slot).isSolid s = true →
      s.fromFloat false (s.toFloat true l).dropLast ++ [s.max] = l)
    (h : Inv s k dflt st colors) (slot : Slot) :
    ∃ st', ensureR s k dflt slot st = some (st', (colors slot).toSolid s) ∧ Inv s k dflt st' colors := by
  have key : ∀ st1 : State α φ, Inv s k dflt st1 colors → Has s k st1 slot (colors slot) →
      ∃ st', (put ((colors slot).toSolid s) (slot.offset k) k 0 (ensureSlots k st1.r)).bind
        (fun m => some (State.setCtrl { st1 with r := some m } slot { st1.ctrl slot with haveRestricted := true })) = some st' ∧
      Inv s k dflt st' colors ∧ Has s k st' slot (colors slot) ∧ (st'.ctrl slot).haveRestricted = true := by
    intro st1 h hh
    obtain ⟨m', e, h1, h2, h3⟩ := put_slot (slot := slot) h.r (toSolid_length (s := s) hk hh.len)
    rw [e, Option.bind_some]
    have hh' : Has s k (State.setCtrl { st1 with r := some m' } slot { st1.ctrl slot with haveRestricted := true }) slot (colors slot) := by
      refine ⟨hh.len, ?_, ?_, ?_, fun _ => h1, ?_, ?_⟩ <;> rw [setCtrl_same]
      · exact hh.solid
      · exact hh.f
      · exact hh.u
      · exact hh.exact
      · exact hh.neutral
    refine ⟨_, rfl, ?_, hh', by rw [setCtrl_same]⟩
    have := h.update hh' h.f h2 h.u (fun slot' hs => setCtrl_other _ _ hs) (fun _ _ _ => id) (fun slot' l hs => h3 slot' l hs) (fun _ _ _ => id)
    rwa [show (fun s' => if s' = slot then colors slot else colors s') = colors from funext fun s' => by split <;> simp_all] at this
  have : ∃ st', (if (st.ctrl slot).haveRestricted then some st else initR s k dflt slot st) = some st' ∧ Inv s k dflt st' colors ∧
      Has s k st' slot (colors slot) ∧ (st'.ctrl slot).haveRestricted = true := by
    by_cases hn : (st.ctrl slot).haveRestricted = true
    · rw [if_pos hn]
      rcases h.slot slot with hh | ⟨hf, _⟩
      · exact ⟨st, rfl, h, hh, hn⟩
      · simp [hf.2.1] at hn
    · rw [if_neg hn]
      unfold initR
      rw [if_neg hn]
      simp only
      by_cases hu : ((st.ctrl slot).isSolid && (st.ctrl slot).haveUnrestricted) = true
      · rw [if_pos hu]
        rw [Bool.and_eq_true] at hu
        rcases h.slot slot with hh | ⟨hf, _⟩
        · rw [getSlot_eq (hh.u hu.2), Option.bind_eq_bind, Option.bind_some, ← solid_exact hs (hh.solid ▸ hu.1)]
          exact key st h hh
        · simp [hf.2.2] at hu
      · rw [if_neg hu]
        obtain ⟨st1, e, h1, hh⟩ := ensureF_inv hk hd h slot
        rw [e, Option.bind_eq_bind, Option.bind_some]
        simp only
        rw [opaque_neutral hh.len, ← ensureF_r e]
        · exact key st1 h1 hh
        · intro l hl
          rcases h.slot slot with hh | ⟨hf, hc⟩
          · left
            rw [← hh.solid]
            rw [hh.exact l hl, Bool.and_true, Bool.not_eq_true] at hu
            exact hu
          · by_cases hsol : (colors slot).isSolid s = true
            · right
              rw [hc] at hl hsol
              exact hw slot l hl hsol
            · left
              simpa using hsol
  obtain ⟨st', e, h1, h2, h3⟩ := this
  unfold ensureR
  rw [e]
  exact ⟨st', by simp [getSlot_eq (h2.r h3)], h1⟩

theorem getColor_inv {s : Scheme α φ} {k : Nat} {dflt : Slot → Arg α φ} {st : State α φ} {colors : Slot → Color α φ} (hk : 0 < k)
    (hd : ∀ slot, ArgOk k (dflt slot)) (h : Inv s k dflt st colors) (slot : Slot) (q : Request) :
    ∃ st', getColor s k dflt slot q st = some (st', (colors slot).get s q) ∧ Inv s k dflt st' colors := by
  obtain ⟨st1, e1, h1⟩ := isSolid_inv hk hd h slot
  simp only [getColor, e1, Option.bind_eq_bind, Option.bind_some]
  by_cases hq : (q.sameRepr && q.sameSpace && (q.hasAlpha || s.isFloat || (colors slot).isSolid s)) = true
  · obtain ⟨st2, e2, h2⟩ := ensureU_inv hk hd h1 slot
    rw [if_pos hq, Color.get, if_pos (show isDirect s q (colors slot) = true from hq)]
    refine ⟨st2, ?_, h2⟩
    rw [e2, Option.bind_some]
    simp only [Option.some.injEq, Prod.mk.injEq, true_and, Out.exact.injEq]
    have hlen : ((colors slot).toExact s).length = k := by
      rcases h.slot slot with hh | ⟨_, hc⟩
      · exact hh.len.toExact
      · rw [hc]; exact (assigned_len (hd slot)).toExact
    cases q.hasAlpha
    · simp [List.dropLast_eq_take, hlen]
    · simp [← hlen]
  · obtain ⟨st2, e2, h2, _⟩ := ensureF_inv hk hd h1 slot
    rw [if_neg hq, Color.get, if_neg (show ¬ isDirect s q (colors slot) = true from hq)]
    exact ⟨st2, by rw [e2, Option.bind_some], h2⟩

/-- One operation. -/
theorem step_inv {s : Scheme α φ} {k : Nat} {dflt : Slot → Arg α φ} {st : State α φ} {colors : Slot → Color α φ} (hk : 0 < k)
    (hs : Laws s) (hd : ∀ slot, ArgOk k (dflt slot))
    (hw : ∀ slot l, defaults s dflt slot = .exact l → (defaults s dflt slot).isSolid s = true →
      s.fromFloat false (s.toFloat true l).dropLast ++ [s.max] = l)
    (h : Inv s k dflt st colors) (op : Op α φ) (ho : OpOk k op) :
    ∃ st', step s k dflt op st = some (st', result s op colors) ∧ Inv s k dflt st' (after s op colors) := by
  cases op with
  | set slot arg opacity =>
    obtain ⟨st', e, h1, _⟩ := doSet_inv hk h slot (opacity := opacity) (show ArgOk k arg from ho)
    exact ⟨st', by simp [step, e, result], h1⟩
  | get slot q =>
    obtain ⟨st', e, h1⟩ := getColor_inv hk hd h slot q
    exact ⟨st', by simp [step, e, result], h1⟩
  | neutral slot =>
    obtain ⟨st', e, h1, _⟩ := ensureF_inv hk hd h slot
    exact ⟨st', by simp [step, e, result], h1⟩
  | restricted slot =>
    obtain ⟨st', e, h1⟩ := ensureR_inv hk hs hd hw h slot
    exact ⟨st', by simp [step, e, result], h1⟩
  | unrestricted slot =>
    obtain ⟨st', e, h1⟩ := ensureU_inv hk hd h slot
    exact ⟨st', by simp [step, e, result], h1⟩
  | solid slot =>
    obtain ⟨st', e, h1⟩ := isSolid_inv hk hd h slot
    exact ⟨st', by simp [step, e, result], h1⟩

/-- A sequence of operations. -/
theorem run_inv {s : Scheme α φ} {k : Nat} {dflt : Slot → Arg α φ} (hk : 0 < k) (hs : Laws s) (hd : ∀ slot, ArgOk k (dflt slot))
    (hw : ∀ slot l, defaults s dflt slot = .exact l → (defaults s dflt slot).isSolid s = true →
      s.fromFloat false (s.toFloat true l).dropLast ++ [s.max] = l) :
    ∀ (ops : List (Op α φ)) (st : State α φ) (colors : Slot → Color α φ), (∀ op ∈ ops, OpOk k op) → Inv s k dflt st colors →
      ∃ st', run s k dflt ops st = some (st', results s ops colors) ∧ Inv s k dflt st' (final s ops colors) := by
  intro ops
  induction ops with
  | nil => intro st colors _ h; exact ⟨st, rfl, h⟩
  | cons op ops ih =>
    intro st colors ho h
    obtain ⟨st1, e1, h1⟩ := step_inv hk hs hd hw h op (ho op (by simp))
    obtain ⟨st2, e2, h2⟩ := ih st1 _ (fun op' h' => ho op' (by simp [h'])) h1
    exact ⟨st2, by simp [run, e1, e2, results], h2⟩

theorem init_inv (s : Scheme α φ) (k : Nat) (dflt : Slot → Arg α φ) : Inv s k dflt init (defaults s dflt) :=
  ⟨room_none k, room_none k, room_none k, fun _ => .inr ⟨⟨rfl, rfl, rfl⟩, rfl⟩⟩

end Verif.ColorSlot
