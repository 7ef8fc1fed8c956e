import Verif.TextFile.Lemmas

/-! # Buffered implementation, and text files -/

namespace Verif.TextFile

variable {α σ : Type} [Inhabited α]

/-! ## Buffered implementation -/

/-- What the buffered implementation looks like from the outside. -/
def Buffered.view (view : σ → View α) (s : Buffered α σ) : View α :=
  if s.writing then
    ⟨overwrite (view s.sub).content (view s.sub).pos (s.data.drop s.start), (view s.sub).pos + (s.data.length - s.start), 0, .writing⟩
  else ⟨(view s.sub).content, (view s.sub).pos - s.offset + s.start, s.curr - s.start, modeOf s.reading false⟩

/-- The invariant while writing. -/
structure Buffered.OkW (view : σ → View α) (ok : σ → Prop) (s : Buffered α σ) : Prop where
  sub : ok s.sub
  size : 0 < s.size
  fits : s.data.length ≤ s.size
  reading : s.reading = false
  writing : s.writing = true
  offset : s.offset = 0
  curr : s.curr = 0
  start : s.start ≤ s.data.length
  mode : (view s.sub).mode ≠ .reading

/-- The invariant while not writing. -/
structure Buffered.OkR (view : σ → View α) (ok : σ → Prop) (s : Buffered α σ) : Prop where
  sub : ok s.sub
  size : 0 < s.size
  fits : s.data.length ≤ s.size
  writing : s.writing = false
  offset : s.offset ≤ s.start
  start : s.start ≤ s.curr
  curr : s.curr ≤ s.data.length
  pos : s.offset ≤ (view s.sub).pos
  ahead : (view s.sub).ahead = s.data.length - s.offset
  mode : (view s.sub).mode ≠ .writing
  data : s.data <+: (view s.sub).content.drop ((view s.sub).pos - s.offset)
  neutral : s.reading = false → s.data = [] ∧ (view s.sub).mode = .neutral

/-- The invariant of the buffered implementation. -/
def Buffered.Ok (view : σ → View α) (ok : σ → Prop) (s : Buffered α σ) : Prop := s.OkW view ok ∨ s.OkR view ok

section
variable {I : Impl α σ} {view : σ → View α} {disk : σ → List α} {ok : σ → Prop} {grow : ℕ → ℕ}

theorem okW_of {s : Buffered α σ} (h : s.Ok view ok) (hm : (s.view view).mode = .writing) : s.OkW view ok := by
  rcases h with h | h
  · exact h
  · simp only [Buffered.view, h.writing] at hm
    cases hr : s.reading <;> simp [hr, modeOf] at hm

theorem okR_of {s : Buffered α σ} (h : s.Ok view ok) (hm : (s.view view).mode ≠ .writing) : s.OkR view ok := by
  rcases h with h | h
  · exact absurd (by simp [Buffered.view, h.writing]) hm
  · exact h

/-- From neutral mode to writing mode. -/
theorem okW_start {s : Buffered α σ} (h : s.Ok view ok) (hm : (s.view view).mode ≠ .reading) :
    s.reading = false ∧ ({ s with writing := true } : Buffered α σ).OkW view ok ∧
    ({ s with writing := true } : Buffered α σ).view view = { s.view view with mode := .writing } := by
  rcases h with h | h
  · refine ⟨h.reading, ⟨h.sub, h.size, h.fits, h.reading, rfl, h.offset, h.curr, h.start, h.mode⟩, ?_⟩
    simp [Buffered.view, h.writing]
  · have hr : s.reading = false := by
      cases hr : s.reading
      · rfl
      · exact absurd (by simp [Buffered.view, h.writing, hr, modeOf]) hm
    obtain ⟨hd, hmn⟩ := h.neutral hr
    have h1 := h.offset
    have h2 := h.start
    have h3 := h.curr
    have h4 : s.data.length = 0 := by simp [hd]
    refine ⟨hr, ⟨h.sub, h.size, h.fits, hr, rfl, ?_, ?_, ?_, ?_⟩, ?_⟩
    · show s.offset = 0; omega
    · show s.curr = 0; omega
    · show s.start ≤ s.data.length; omega
    · show (view s.sub).mode ≠ .reading; rw [hmn]; simp
    · have e1 : s.offset = 0 := by omega
      have e2 : s.curr = 0 := by omega
      have e3 : s.start = 0 := by omega
      simp [Buffered.view, h.writing, hd, overwrite_nil, e1, e2, e3]

theorem shallowFlush_spec (hI : Conforms I view disk ok) {s : Buffered α σ} (h : s.OkW view ok) :
    ∃ b s', s.shallowFlush I.toWriteOps = some (b, s') ∧ s'.OkW view ok ∧ s'.view view = s.view view ∧ (view s'.sub).mode = .writing ∧
      s'.size = s.size ∧ (b = true → s'.data = [] ∧ s'.start = 0) := by
  obtain ⟨b, n, sub', e, hok, hv, h1, h2⟩ := hI.write s.sub 0 (s.data.drop s.start) h.sub h.mode
  have hst := h.start
  cases b with
  | true =>
    refine ⟨true, { s with sub := sub', data := [], start := 0 }, ?_, ⟨hok, h.size, ?_, h.reading, h.writing, h.offset, h.curr, ?_, ?_⟩,
      ?_, ?_, rfl, fun _ => ⟨rfl, rfl⟩⟩
    · simp [Buffered.shallowFlush, h.reading, Nat.not_lt.2 hst, e]
    · simp
    · simp
    · simp [hv]
    · have := h1 rfl
      simp only [List.length_drop] at this
      simp only [Buffered.view, h.writing, hv, if_true, List.drop_nil, List.length_nil, overwrite_nil, this]
      rw [List.take_of_length_le (by simp)]
      simp
    · simp [hv]
  | false =>
    have hn : n ≤ s.data.length - s.start := by
      rcases h2 rfl with h | ⟨h, h'⟩
      · simp at h; omega
      · omega
    refine ⟨false, { s with sub := sub', start := s.start + n }, ?_,
      ⟨hok, h.size, h.fits, h.reading, h.writing, h.offset, h.curr, ?_, ?_⟩, ?_, ?_, rfl, by simp⟩
    · simp [Buffered.shallowFlush, h.reading, Nat.not_lt.2 hst, e]
    · show s.start + n ≤ s.data.length; omega
    · simp [hv]
    · simp only [Buffered.view, h.writing, hv, if_true]
      have hl : ((s.data.drop s.start).take n).length = n := by simp; omega
      have := overwrite_append (view s.sub).content (view s.sub).pos ((s.data.drop s.start).take n) (s.data.drop (s.start + n))
      rw [hl] at this
      rw [this, ← List.drop_drop, List.take_append_drop]
      congr 1
      omega
    · simp [hv]

theorem bufWriteLoop_spec (hI : Conforms I view disk ok) : ∀ (fuel total : ℕ) (s : Buffered α σ) (data : List α), s.OkW view ok →
    data.length ≤ total → (data.length < fuel ∧ s.data = [] ∨ data.length + 1 < fuel) →
    ∃ b n s', Buffered.writeLoop I.toWriteOps fuel total s data = some (b, total - data.length + n, s') ∧ s'.OkW view ok ∧
      s'.view view = ⟨overwrite (s.view view).content (s.view view).pos (data.take n), (s.view view).pos + n, 0, .writing⟩ ∧
      (b = true → n = data.length) ∧ (b = false → n < data.length) := by
  intro fuel
  induction fuel with
  | zero => intro total s data _ _ h; omega
  | succ k ih =>
    intro total s data h ht hf
    have hst := h.start
    have hfit := h.fits
    have hsz := h.size
    -- Effect of adding characters to the buffer
    have key : ∀ n, n ≤ data.length → n ≤ s.size - s.data.length →
        ({ s with data := s.data ++ data.take n } : Buffered α σ).OkW view ok ∧
        ({ s with data := s.data ++ data.take n } : Buffered α σ).view view =
          ⟨overwrite (s.view view).content (s.view view).pos (data.take n), (s.view view).pos + n, 0, .writing⟩ := by
      intro n hn1 hn2
      refine ⟨⟨h.sub, h.size, ?_, h.reading, h.writing, h.offset, h.curr, ?_, h.mode⟩, ?_⟩
      · simp; omega
      · simp; omega
      · simp only [Buffered.view, h.writing, if_true]
        have hl : (s.data.drop s.start).length = s.data.length - s.start := by simp
        have := overwrite_append (view s.sub).content (view s.sub).pos (s.data.drop s.start) (data.take n)
        rw [hl] at this
        rw [this, List.drop_append_of_le_length hst]
        congr 1
        simp; omega
    unfold Buffered.writeLoop
    by_cases hc : data.length ≤ s.size - s.data.length
    · obtain ⟨k1, k2⟩ := key data.length (Nat.le_refl _) hc
      refine ⟨true, data.length, _, ?_, k1, k2, fun _ => rfl, by simp⟩
      simp only [Nat.min_eq_left hc, if_pos hc]
      simp [Nat.sub_add_cancel ht]
    · have hmin : min data.length (s.size - s.data.length) = s.size - s.data.length := by omega
      obtain ⟨k1, k2⟩ := key (s.size - s.data.length) (by omega) (Nat.le_refl _)
      obtain ⟨b, s', e, h1, h2, h3, h4, h5⟩ := shallowFlush_spec hI k1
      simp only [hmin, if_neg hc, e]
      cases b with
      | false =>
        refine ⟨false, s.size - s.data.length, s', ?_, h1, by rw [h2, k2], by simp, fun _ => by omega⟩
        simp; omega
      | true =>
        obtain ⟨hd, hs0⟩ := h5 rfl
        obtain ⟨b, n, s'', e', g1, g2, g3, g4⟩ := ih total s' (data.drop (s.size - s.data.length)) h1 (by simp; omega) (by
          left
          refine ⟨?_, hd⟩
          rcases hf with ⟨hf, hd⟩ | hf
          · have : s.data.length = 0 := by simp [hd]
            simp; omega
          · simp; omega)
        refine ⟨b, s.size - s.data.length + n, s'', ?_, g1, ?_, fun hb => ?_, fun hb => ?_⟩
        · simp only [hd, List.length_nil, Option.bind_eq_bind, Option.bind_some, if_true]
          rw [e']
          simp only [List.length_drop]
          congr 3
          omega
        · rw [g2, h2, k2]
          have hl : (data.take (s.size - s.data.length)).length = s.size - s.data.length := by simp; omega
          have := overwrite_append (s.view view).content (s.view view).pos (data.take (s.size - s.data.length))
            ((data.drop (s.size - s.data.length)).take n)
          rw [hl] at this
          simp only
          rw [this, List.take_add, Nat.add_assoc]
        · have := g3 hb; simp at this; omega
        · have := g4 hb; simp at this; omega

/-- Advancing the position of the underlying implementation does not affect how a buffered implementation looks. -/
theorem sync_spec (hI : Conforms I view disk ok) {s : Buffered α σ} (h : s.OkR view ok) :
    ∃ sub, I.advance s.sub (s.start - s.offset) = some sub ∧ ok sub ∧
      view sub = { view s.sub with pos := (view s.sub).pos - s.offset + s.start, ahead := s.data.length - s.start } := by
  have h1 := h.offset
  have h2 := h.start
  have h3 := h.curr
  have h4 := h.pos
  obtain ⟨sub, e, hok, hv⟩ := hI.advance s.sub (s.start - s.offset) h.sub h.mode (by rw [h.ahead]; omega)
  refine ⟨sub, e, hok, ?_⟩
  rw [hv, h.ahead]
  simp only [View.mk.injEq, true_and, and_true]
  constructor <;> omega

theorem prefix_drop {a b : List α} (h : a <+: b) (n : ℕ) : a.drop n <+: b.drop n := by
  obtain ⟨t, rfl⟩ := h
  by_cases hn : n ≤ a.length
  · rw [List.drop_append_of_le_length hn]; exact List.prefix_append _ _
  · rw [List.drop_of_length_le (by omega)]; exact List.nil_prefix

theorem prefix_append_of {a l c : List α} (h1 : a <+: c) (h2 : l <+: c.drop a.length) : a ++ l <+: c := by
  obtain ⟨t, rfl⟩ := h1
  rw [List.drop_left' rfl] at h2
  obtain ⟨u, rfl⟩ := h2
  exact ⟨u, by simp⟩

/-- Copying characters out of the buffer. -/
theorem copyOut_spec {s : Buffered α σ} (h : s.OkR view ok) (hr : s.reading = true) {size : ℕ} (hs : 0 < size)
    (hc : s.curr < s.data.length) : ∃ l s', s.copyOut size = some (some l, s') ∧ s'.OkR view ok ∧
    s'.view view = { s.view view with ahead := (s.view view).ahead + l.length, mode := .reading } ∧
    l <+: (s.view view).content.drop ((s.view view).pos + (s.view view).ahead) ∧ l.length ≤ size ∧ l ≠ [] := by
  have h1 := h.offset
  have h2 := h.start
  have h3 := h.curr
  have h4 := h.pos
  have hl : ((s.data.drop s.curr).take (min size (s.data.length - s.curr))).length = min size (s.data.length - s.curr) := by simp
  refine ⟨(s.data.drop s.curr).take (min size (s.data.length - s.curr)), { s with curr := s.curr + min size (s.data.length - s.curr) }, ?_,
    ⟨h.sub, h.size, h.fits, h.writing, h.offset, ?_, ?_, h.pos, h.ahead, h.mode, h.data, h.neutral⟩, ?_, ?_, ?_, ?_⟩
  · simp only [Buffered.copyOut]
    rw [if_neg (by omega)]
  · show s.start ≤ s.curr + _; omega
  · show s.curr + _ ≤ s.data.length; omega
  · rw [hl]
    simp [Buffered.view, h.writing, hr, modeOf]
    omega
  · simp only [Buffered.view, h.writing]
    have := prefix_drop h.data s.curr
    rw [List.drop_drop] at this
    refine (List.take_prefix _ _).trans ?_
    have e : (view s.sub).pos - s.offset + s.start + (s.curr - s.start) = (view s.sub).pos - s.offset + s.curr := by omega
    simp only [Bool.false_eq_true, if_false]
    rw [e]
    exact this
  · rw [hl]; omega
  · intro h0
    have := congrArg List.length h0
    rw [hl] at this
    simp at this
    omega

theorem buffered_conforms (hI : Conforms I view disk ok) (hg : ∀ n, n < grow n) :
    Conforms (buffered I grow) (Buffered.view view) (fun s => disk s.sub) (Buffered.Ok view ok) where
  ahead s h hm := by
    rcases h with h | h
    · simp [Buffered.view, h.writing]
    · have hr : s.reading = false := by
        cases hr : s.reading
        · rfl
        · exact absurd (by simp [Buffered.view, h.writing, hr, modeOf]) hm
      have := (h.neutral hr).1
      have h1 : s.data.length = 0 := by simp [this]
      have h3 := h.curr
      simp only [Buffered.view, h.writing]
      simp
      omega
  disk s h hm := by
    have h := okR_of h hm
    show disk s.sub = _
    rw [hI.disk s.sub h.sub h.mode]
    simp [Buffered.view, h.writing]
  write s n₀ data h hm := by
    obtain ⟨hr, h1, h2⟩ := okW_start h hm
    obtain ⟨b, n, s', e, g1, g2, g3, g4⟩ := bufWriteLoop_spec hI (data.length + 2) data.length _ data h1 (Nat.le_refl _) (by omega)
    refine ⟨b, n, s', ?_, Or.inl g1, by rw [g2, h2], g3, fun hb => Or.inl (g4 hb)⟩
    have hsz : s.size ≠ 0 := by have := h1.size; simp at this; omega
    show Buffered.write I.toWriteOps s data = _
    unfold Buffered.write
    rw [if_neg (by simp [hr, hsz]), e]
    simp
  flush s h hm := by
    have h := okW_of h hm
    obtain ⟨b, s', e, h1, h2, h3, h4, h5⟩ := shallowFlush_spec hI h
    obtain ⟨b', sub', e', g1, g2⟩ := hI.flush s'.sub h1.sub h3
    have hcond : ¬ (s.offset ≠ 0 ∨ s.curr ≠ 0) := by simp [h.offset, h.curr]
    -- A failed flush leaves the appearance unchanged
    have keep : ({ s' with sub := sub' } : Buffered α σ).OkW view ok ∧ ({ s' with sub := sub' } : Buffered α σ).view view = s.view view := by
      refine ⟨⟨g1, h1.size, h1.fits, h1.reading, h1.writing, h1.offset, h1.curr, h1.start, ?_⟩, ?_⟩
      · show (view sub').mode ≠ _
        rw [g2]; cases b' <;> simp
      · rw [← h2]; simp [Buffered.view, h1.writing, g2]
    have hmv : s.view view = { s.view view with mode := .writing } := by simp [Buffered.view, h.writing]
    cases b with
    | false =>
      refine ⟨false, { s' with sub := sub' }, ?_, Or.inl keep.1, ?_⟩
      · simp [buffered, Buffered.flush, h.offset, h.curr, e, e']
      · rw [keep.2]; exact hmv
    | true =>
      obtain ⟨hd, hs0⟩ := h5 rfl
      cases b' with
      | false =>
        refine ⟨false, { s' with sub := sub' }, ?_, Or.inl keep.1, ?_⟩
        · simp [buffered, Buffered.flush, h.offset, h.curr, e, e']
        · rw [keep.2]; exact hmv
      | true =>
        simp only [if_true] at g2
        have ha : (view s'.sub).ahead = 0 := hI.ahead _ h1.sub (by rw [h3]; simp)
        refine ⟨true, { s' with sub := sub', writing := false }, ?_, Or.inr ⟨g1, h1.size, h1.fits, rfl, ?_, ?_, ?_, ?_, ?_, ?_, ?_, ?_⟩, ?_⟩
        · simp [buffered, Buffered.flush, h.offset, h.curr, e, e']
        · show s'.offset ≤ s'.start; rw [h1.offset]; omega
        · show s'.start ≤ s'.curr; rw [hs0]; omega
        · show s'.curr ≤ s'.data.length; rw [h1.curr]; omega
        · show s'.offset ≤ _; rw [h1.offset]; omega
        · show (view sub').ahead = s'.data.length - s'.offset
          rw [g2, ha, hd]; simp
        · show (view sub').mode ≠ _; rw [g2]; simp
        · show s'.data <+: _; rw [hd]; exact List.nil_prefix
        · intro _; exact ⟨hd, by show (view sub').mode = _; rw [g2]⟩
        · rw [← h2]
          simp [Buffered.view, h1.writing, g2, h1.offset, hs0, hd, h1.curr, h1.reading, modeOf, overwrite_nil]
  tellWrite s h hm := by
    obtain ⟨hr, h1, h2⟩ := okW_start h hm
    by_cases h0 : s.start = s.data.length
    · have hmode : (view s.sub).mode ≠ .reading := h1.mode
      obtain ⟨r, sub', e, g1, g2, g3⟩ := hI.tellWrite s.sub (by exact h1.sub) hmode
      refine ⟨r, { s with sub := sub' }, ?_, ?_, ?_, ?_⟩
      · simp [buffered, Buffered.tellWrite, hr, h0, e]
      · rcases h with h | h
        · left
          exact ⟨g1, h.size, h.fits, h.reading, h.writing, h.offset, h.curr, h.start, by show (view sub').mode ≠ _; rw [g2]; exact h.mode⟩
        · right
          refine ⟨g1, h.size, h.fits, h.writing, h.offset, h.start, h.curr, ?_, ?_, ?_, ?_, fun hr => ⟨(h.neutral hr).1, ?_⟩⟩
          · show _ ≤ (view sub').pos; rw [g2]; exact h.pos
          · show (view sub').ahead = _; rw [g2]; exact h.ahead
          · show (view sub').mode ≠ _; rw [g2]; exact h.mode
          · show _ <+: (view sub').content.drop ((view sub').pos - s.offset); rw [g2]; exact h.data
          · show (view sub').mode = _; rw [g2]; exact (h.neutral hr).2
      · simp [Buffered.view, g2]
      · intro pos hp
        rw [g3 pos hp]
        have hoff : s.offset = 0 := h1.offset
        have := congrArg View.pos h2
        simp only at this
        rw [← this]
        simp [Buffered.view, h0]
    · have hw : s.OkW view ok := by
        rcases h with h | h
        · exact h
        · exfalso
          have hd := (h.neutral hr).1
          have := h.start
          have := h.curr
          have hl : s.data.length = 0 := by simp [hd]
          omega
      obtain ⟨b, s', e, k1, k2, k3, k4, k5⟩ := shallowFlush_spec hI hw
      cases b with
      | false => exact ⟨none, s', by simp [buffered, Buffered.tellWrite, hr, h0, e], Or.inl k1, k2, by simp⟩
      | true =>
        obtain ⟨hd, hs0⟩ := k5 rfl
        obtain ⟨r, sub', e', g1, g2, g3⟩ := hI.tellWrite s'.sub k1.sub k1.mode
        refine ⟨r, { s' with sub := sub' }, by simp [buffered, Buffered.tellWrite, hr, h0, e, e'], Or.inl
          ⟨g1, k1.size, k1.fits, k1.reading, k1.writing, k1.offset, k1.curr, k1.start, by show (view sub').mode ≠ _; rw [g2]; exact k1.mode⟩,
          ?_, ?_⟩
        · rw [← k2]; simp [Buffered.view, g2]
        · intro pos hp
          rw [g3 pos hp, ← k2]
          simp [Buffered.view, k1.writing, hd]
  reopen s file h := by
    have hsub : ok s.sub := by rcases h with h | h <;> exact h.sub
    have hsz : 0 < s.size := by rcases h with h | h <;> exact h.size
    obtain ⟨g1, g2⟩ := hI.reopen s.sub file hsub
    refine ⟨Or.inr ⟨g1, hsz, by simp [buffered, Buffered.reopen], rfl, Nat.le_refl _, Nat.le_refl _, Nat.zero_le _, Nat.zero_le _, ?_, ?_, ?_,
      ?_⟩, ?_⟩
    · simp [buffered, Buffered.reopen, g2]
    · simp [buffered, Buffered.reopen, g2]
    · simp [buffered, Buffered.reopen]
    · intro _; simp [buffered, Buffered.reopen, g2]
    · simp [Buffered.view, buffered, Buffered.reopen, g2, modeOf]
  readAhead s size h hm := by
    have h := okR_of h hm
    have h1 := h.offset
    have h2 := h.start
    have h3 := h.curr
    have h4 := h.pos
    -- Reading mode
    have hR : ({ s with reading := true } : Buffered α σ).OkR view ok :=
      ⟨h.sub, h.size, h.fits, h.writing, h.offset, h.start, h.curr, h.pos, h.ahead, h.mode, h.data, by simp⟩
    have hV : ({ s with reading := true } : Buffered α σ).view view = { s.view view with mode := .reading } := by
      simp [Buffered.view, h.writing, modeOf]
    by_cases hs : size > 0
    · by_cases hc : s.curr < s.data.length
      · obtain ⟨l, s', e, g1, g2, g3, g4, g5⟩ := copyOut_spec hR rfl hs hc
        refine ⟨some l, s', ?_, Or.inr g1, ?_, ?_⟩
        · rw [← e]
          show Buffered.readAhead I grow s size = _
          unfold Buffered.readAhead
          rw [if_neg (by simp [h.writing]), if_pos hs, if_pos hc]
        · rw [g2, hV]; rfl
        · intro l' hl'
          cases hl'
          rw [hV] at g3
          exact ⟨g3, g4, fun h0 => absurd h0 g5⟩
      · obtain ⟨sub, e1, k1, k2⟩ := sync_spec hI h
        have hfit := h.fits
        have hsz := h.size
        have hcd : s.curr = s.data.length := by omega
        -- After compaction
        have hdl : (s.data.drop s.start).length = s.data.length - s.start := by simp
        obtain ⟨size', hsize'⟩ : ∃ size', size' = if (s.data.drop s.start).length = s.size then grow s.size else s.size := ⟨_, rfl⟩
        have hlt : s.data.length - s.start < size' := by
          rw [hsize', hdl]
          by_cases hq : s.data.length - s.start = s.size
          · rw [if_pos hq, hq]; exact hg _
          · rw [if_neg hq]; omega
        have hdata : s.data.drop s.start <+: (view sub).content.drop (view sub).pos := by
          have := prefix_drop h.data s.start
          rw [List.drop_drop] at this
          rw [k2]
          exact this
        obtain ⟨r, sub', e2, m1, m2, m3⟩ := hI.readAhead sub (size' - (s.data.length - s.start)) k1 (by rw [k2]; exact h.mode)
        have hahead : (view sub).ahead = s.data.length - s.start := by rw [k2]
        -- The state when nothing was added
        have hT : r.getD [] = [] →
            (⟨sub', s.data.drop s.start, size', 0, 0, s.curr - s.start, true, s.writing⟩ : Buffered α σ).OkR view ok ∧
            (⟨sub', s.data.drop s.start, size', 0, 0, s.curr - s.start, true, s.writing⟩ : Buffered α σ).view view =
              { s.view view with mode := .reading } := by
          intro h0
          rw [h0] at m2
          refine ⟨⟨m1, by show 0 < size'; omega, by show (s.data.drop s.start).length ≤ size'; omega, h.writing, Nat.le_refl _, Nat.zero_le _,
            ?_, Nat.zero_le _, ?_, ?_, ?_, by simp⟩, ?_⟩
          · show s.curr - s.start ≤ (s.data.drop s.start).length; omega
          · show (view sub').ahead = (s.data.drop s.start).length - 0
            rw [m2, hdl]; simpa using hahead
          · show (view sub').mode ≠ _; rw [m2]; simp
          · show s.data.drop s.start <+: (view sub').content.drop ((view sub').pos - 0)
            rw [m2]; exact hdata
          · simp [Buffered.view, h.writing, m2, k2, modeOf]
        have hview : (s.view view).pos + (s.view view).ahead = (view sub).pos + (view sub).ahead := by
          rw [k2]; simp [Buffered.view, h.writing]; omega
        have hcont : (s.view view).content = (view sub).content := by rw [k2]; simp [Buffered.view, h.writing]
        cases r with
        | none =>
          obtain ⟨g1, g2⟩ := hT rfl
          refine ⟨none, _, ?_, Or.inr g1, by rw [g2]; simp, by simp⟩
          show Buffered.readAhead I grow s size = _
          unfold Buffered.readAhead
          rw [if_neg (by simp [h.writing]), if_pos hs, if_neg hc, if_neg (by simp; omega), e1]
          simp only [Option.bind_eq_bind, Option.bind_some, ← hsize']
          rw [hdl, e2]
          rfl
        | some l =>
          obtain ⟨p1, p2, p3⟩ := m3 l rfl
          cases l with
          | nil =>
            obtain ⟨g1, g2⟩ := hT rfl
            refine ⟨some [], _, ?_, Or.inr g1, by rw [g2]; simp, ?_⟩
            · show Buffered.readAhead I grow s size = _
              unfold Buffered.readAhead
              rw [if_neg (by simp [h.writing]), if_pos hs, if_neg hc, if_neg (by simp; omega), e1]
              simp only [Option.bind_eq_bind, Option.bind_some, ← hsize']
              rw [hdl, e2]
              rfl
            · intro l' hl'
              cases hl'
              refine ⟨List.nil_prefix, by simp, fun _ => Or.inr ?_⟩
              rw [hview, hcont]
              rcases p3 rfl with h0 | h0
              · omega
              · exact h0
          | cons x xs =>
            have hS : (⟨sub', s.data.drop s.start ++ (x :: xs), size', 0, 0, s.curr - s.start, true, s.writing⟩ : Buffered α σ).OkR view ok := by
              refine ⟨m1, by show 0 < size'; omega, ?_, h.writing, Nat.le_refl _, Nat.zero_le _, ?_, Nat.zero_le _, ?_, ?_, ?_, by simp⟩
              · show (s.data.drop s.start ++ (x :: xs)).length ≤ size'
                rw [List.length_append, hdl]; omega
              · show s.curr - s.start ≤ (s.data.drop s.start ++ (x :: xs)).length
                rw [List.length_append, hdl]; omega
              · show (view sub').ahead = (s.data.drop s.start ++ (x :: xs)).length - 0
                rw [m2, List.length_append, hdl, ← hahead]; rfl
              · show (view sub').mode ≠ _; rw [m2]; simp
              · show s.data.drop s.start ++ (x :: xs) <+: (view sub').content.drop ((view sub').pos - 0)
                rw [m2]
                refine prefix_append_of hdata ?_
                rw [List.drop_drop, hdl, ← hahead]
                exact p1
            have hSV : (⟨sub', s.data.drop s.start ++ (x :: xs), size', 0, 0, s.curr - s.start, true, s.writing⟩ : Buffered α σ).view view =
                { s.view view with mode := .reading } := by
              simp [Buffered.view, h.writing, m2, k2, modeOf]
            obtain ⟨l, s', e, g1, g2, g3, g4, g5⟩ := copyOut_spec hS rfl hs (by
              show s.curr - s.start < (s.data.drop s.start ++ (x :: xs)).length
              rw [List.length_append, hdl, List.length_cons]; omega)
            refine ⟨some l, s', ?_, Or.inr g1, by rw [g2, hSV]; rfl, ?_⟩
            · rw [← e]
              show Buffered.readAhead I grow s size = _
              unfold Buffered.readAhead
              rw [if_neg (by simp [h.writing]), if_pos hs, if_neg hc, if_neg (by simp; omega), e1]
              simp only [Option.bind_eq_bind, Option.bind_some, ← hsize']
              rw [hdl, e2]
              rfl
            · intro l' hl'
              cases hl'
              rw [hSV] at g3
              exact ⟨g3, g4, fun h0 => absurd h0 g5⟩
    · refine ⟨some [], { s with reading := true }, ?_, Or.inr hR, by rw [hV]; simp, ?_⟩
      · simp [buffered, Buffered.readAhead, h.writing, hs]
      · intro l hl
        cases hl
        exact ⟨List.nil_prefix, by simp, fun _ => Or.inl (by omega)⟩
  advance s n h hm hn := by
    have h := okR_of h hm
    have h1 := h.offset
    have h2 := h.start
    have hn : n ≤ s.curr - s.start := by simpa [Buffered.view, h.writing] using hn
    refine ⟨{ s with start := s.start + n }, ?_, Or.inr ⟨h.sub, h.size, h.fits, h.writing, ?_, ?_, h.curr, h.pos, h.ahead, h.mode, h.data,
      h.neutral⟩, ?_⟩
    · simp [buffered, Buffered.advance, h.writing]; omega
    · show s.offset ≤ s.start + n; omega
    · show s.start + n ≤ s.curr; omega
    · simp only [Buffered.view, h.writing]
      simp; omega
  advanceAll s h hm := by
    have h := okR_of h hm
    have h1 := h.offset
    have h2 := h.start
    refine ⟨{ s with start := s.curr }, ?_, Or.inr ⟨h.sub, h.size, h.fits, h.writing, ?_, ?_, h.curr, h.pos, h.ahead, h.mode, h.data,
      h.neutral⟩, ?_⟩
    · simp [buffered, Buffered.advanceAll, h.writing]; omega
    · show s.offset ≤ s.curr; omega
    · show s.curr ≤ s.curr; omega
    · simp only [Buffered.view, h.writing]
      simp; omega
  discard s h hm := by
    have h := okR_of h hm
    have h1 := h.offset
    have h2 := h.start
    have h3 := h.curr
    have h4 := h.pos
    obtain ⟨sub, e1, k1, k2⟩ := sync_spec hI h
    obtain ⟨b, sub', e2, m1, m2⟩ := hI.discard sub k1 (by rw [k2]; exact h.mode)
    cases b with
    | true =>
      simp only [if_true] at m2
      refine ⟨true, { s with sub := sub', data := [], start := 0, offset := 0, curr := 0, reading := false }, ?_,
        Or.inr ⟨m1, h.size, by simp, h.writing, Nat.le_refl _, Nat.le_refl _, Nat.zero_le _, Nat.zero_le _, ?_, ?_, by simp, ?_⟩, ?_⟩
      · simp [buffered, Buffered.discard, h.writing, h1, e1, e2]
      · simp [m2]
      · simp [m2]
      · simp [m2]
      · simp [Buffered.view, h.writing, m2, k2, modeOf]
    | false =>
      simp only [Bool.false_eq_true, if_false] at m2
      have m2 := m2.trans k2
      refine ⟨false, { s with sub := sub', offset := s.start }, ?_,
        Or.inr ⟨m1, h.size, h.fits, h.writing, Nat.le_refl _, h.start, h.curr, ?_, ?_, ?_, ?_, fun hr => ⟨(h.neutral hr).1, ?_⟩⟩, ?_⟩
      · simp [buffered, Buffered.discard, h.writing, h1, e1, e2]
      · show s.start ≤ (view sub').pos; rw [m2]; simp
      · show (view sub').ahead = s.data.length - s.start; rw [m2]
      · show (view sub').mode ≠ _; rw [m2]; exact h.mode
      · show s.data <+: (view sub').content.drop ((view sub').pos - s.start); rw [m2]; simpa using h.data
      · show (view sub').mode = _; rw [m2]; exact (h.neutral hr).2
      · simp [Buffered.view, h.writing, m2]
  tellRead s h hm := by
    have h := okR_of h hm
    have h1 := h.offset
    obtain ⟨sub, e1, k1, k2⟩ := sync_spec hI h
    obtain ⟨r, sub', e2, m1, m2, m3⟩ := hI.tellRead sub k1 (by rw [k2]; exact h.mode)
    have m2 := m2.trans k2
    refine ⟨r, { s with sub := sub', offset := s.start }, ?_,
      Or.inr ⟨m1, h.size, h.fits, h.writing, Nat.le_refl _, h.start, h.curr, ?_, ?_, ?_, ?_, fun hr => ⟨(h.neutral hr).1, ?_⟩⟩, ?_, ?_⟩
    · simp [buffered, Buffered.tellRead, h.writing, h1, e1, e2]
    · show s.start ≤ (view sub').pos; rw [m2]; simp
    · show (view sub').ahead = s.data.length - s.start; rw [m2]
    · show (view sub').mode ≠ _; rw [m2]; exact h.mode
    · show s.data <+: (view sub').content.drop ((view sub').pos - s.start); rw [m2]; simpa using h.data
    · show (view sub').mode = _; rw [m2]; exact (h.neutral hr).2
    · simp [Buffered.view, h.writing, m2]
    · intro pos hp
      rw [m3 pos hp, k2]
      simp [Buffered.view, h.writing]
  seek s pos h hm := by
    have h := okR_of h hm
    obtain ⟨b, sub', e2, m1, m2⟩ := hI.seek s.sub pos h.sub h.mode
    cases b with
    | true =>
      simp only [if_true] at m2
      refine ⟨true, { s with sub := sub', data := [], start := 0, offset := 0, curr := 0, reading := false }, ?_,
        Or.inr ⟨m1, h.size, by simp, h.writing, Nat.le_refl _, Nat.le_refl _, Nat.zero_le _, Nat.zero_le _, ?_, ?_, by simp, ?_⟩, ?_⟩
      · simp [buffered, Buffered.seek, h.writing, e2]
      · simp [m2]
      · simp [m2]
      · simp [m2]
      · simp [Buffered.view, h.writing, m2, modeOf]
    | false =>
      simp only [Bool.false_eq_true, if_false] at m2
      refine ⟨false, { s with sub := sub' }, ?_,
        Or.inr ⟨m1, h.size, h.fits, h.writing, h.offset, h.start, h.curr, ?_, ?_, ?_, ?_, fun hr => ⟨(h.neutral hr).1, ?_⟩⟩, ?_⟩
      · simp [buffered, Buffered.seek, h.writing, e2]
      · show s.offset ≤ (view sub').pos; rw [m2]; exact h.pos
      · show (view sub').ahead = _; rw [m2]; exact h.ahead
      · show (view sub').mode ≠ _; rw [m2]; exact h.mode
      · show s.data <+: (view sub').content.drop ((view sub').pos - s.offset); rw [m2]; exact h.data
      · show (view sub').mode = _; rw [m2]; exact (h.neutral hr).2
      · simp [Buffered.view, h.writing, m2]

end

end Verif.TextFile
