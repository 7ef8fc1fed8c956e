import Verif.TextFile.Main

/-! # Text files on top of an arbitrary implementation -/

namespace Verif.TextFile

variable {α σ : Type} [Inhabited α] {I : Impl α σ} {view : σ → View α} {disk : σ → List α} {ok : σ → Prop}

theorem Text.Ok.notWriting {s : Text σ} (h : s.Ok view ok) (hw : s.writing = false) : (view s.impl).mode ≠ .writing := by
  intro hm
  have := h.writing.1 hm
  simp [hw] at this

theorem Text.Ok.notReading {s : Text σ} (h : s.Ok view ok) (hr : s.reading = false) : (view s.impl).mode ≠ .reading := by
  intro hm
  have := h.reading hm
  simp [hr] at this

theorem Text.Ok.excl_r {s : Text σ} (h : s.Ok view ok) (hr : s.reading = true) : s.writing = false := by
  cases hw : s.writing
  · rfl
  · exact absurd ⟨hr, hw⟩ h.excl

theorem Text.Ok.excl_w {s : Text σ} (h : s.Ok view ok) (hw : s.writing = true) : s.reading = false := by
  cases hr : s.reading
  · rfl
  · exact absurd ⟨hr, hw⟩ h.excl

theorem stopWriting_spec (hI : Conforms I view disk ok) {s : Text σ} (h : s.Ok view ok) (hw : s.writing = true) :
    ∃ b s', s.stopWriting I.toWriteOps = some (b, s') ∧ s'.Ok view ok ∧ s'.ideal view = s.ideal view ∧ s'.reading = false ∧
      (b = true → s'.writing = false) := by
  have hr := h.excl_w hw
  have hm := h.writing.2 hw
  obtain ⟨b, impl, e, g1, g2⟩ := hI.flush s.impl h.impl hm
  cases b with
  | true =>
    refine ⟨true, { s with impl := impl, writing := false }, ?_, ⟨g1, by simp, ?_, ?_⟩, ?_, hr, fun _ => rfl⟩
    · simp [Text.stopWriting, hr, hw, e]
    · simp [g2]
    · simp [g2]
    · simp [Text.ideal, g2]
  | false =>
    refine ⟨false, { s with impl := impl }, ?_, ⟨g1, by simp [hr], ?_, ?_⟩, ?_, hr, by simp⟩
    · simp [Text.stopWriting, hr, hw, e]
    · simp [g2]
    · simp [g2, hw]
    · simp [Text.ideal, g2]

theorem stopReading_spec (hI : Conforms I view disk ok) {s : Text σ} (h : s.Ok view ok) (hr : s.reading = true) :
    ∃ b s', s.stopReading I = some (b, s') ∧ s'.Ok view ok ∧ s'.ideal view = s.ideal view ∧ s'.writing = false ∧
      (b = true → s'.reading = false) := by
  have hw := h.excl_r hr
  have hm := h.notWriting hw
  obtain ⟨i1, e1, g1, g2⟩ := hI.advanceAll s.impl h.impl hm
  have hm1 : (view i1).mode ≠ .writing := by rw [g2]; exact hm
  obtain ⟨b, i2, e2, k1, k2⟩ := hI.discard i1 g1 hm1
  cases b with
  | true =>
    simp only [if_true] at k2
    refine ⟨true, { s with impl := i2, reading := false }, ?_, ⟨k1, by simp, ?_, ?_⟩, ?_, hw, fun _ => rfl⟩
    · simp [Text.stopReading, hr, hw, e1, e2]
    · simp [k2]
    · simp [k2, hw]
    · simp [Text.ideal, k2, g2]
  | false =>
    simp only [Bool.false_eq_true, if_false] at k2
    refine ⟨false, { s with impl := i2 }, ?_, ⟨k1, by simp [hw], fun _ => hr, ?_⟩, ?_, hw, by simp⟩
    · simp [Text.stopReading, hr, hw, e1, e2]
    · simp only [k2, hw]; simp [hm1]
    · simp [Text.ideal, k2, g2]

theorem doReadSome_spec (hI : Conforms I view disk ok) {s : Text σ} (h : s.Ok view ok) (hr : s.reading = true) (size : ℕ) :
    ∃ r s', s.doReadSome I size = some (r, s') ∧ s'.Ok view ok ∧ s'.reading = true ∧
      s'.ideal view = ⟨(s.ideal view).content, (s.ideal view).pos + (r.getD []).length⟩ ∧
      ∀ l, r = some l → l <+: (s.ideal view).content.drop (s.ideal view).pos ∧ l.length ≤ size ∧
        (l = [] → size = 0 ∨ (s.ideal view).content.length ≤ (s.ideal view).pos) := by
  have hw := h.excl_r hr
  have hm := h.notWriting hw
  obtain ⟨i1, e1, g1, g2⟩ := hI.advanceAll s.impl h.impl hm
  have hm1 : (view i1).mode ≠ .writing := by rw [g2]; exact hm
  obtain ⟨r, i2, e2, k1, k2, k3⟩ := hI.readAhead i1 size g1 hm1
  refine ⟨r, { s with impl := i2 }, ?_, ⟨k1, by simp [hw], fun _ => hr, ?_⟩, hr, ?_, ?_⟩
  · simp [Text.doReadSome, hw, e1, e2]
  · simp [k2, hw]
  · simp [Text.ideal, k2, g2]
  · intro l hl
    have := k3 l hl
    rw [g2] at this
    simpa [Text.ideal] using this

theorem take_of_prefix {l c : List α} {n : ℕ} (h : l <+: c) (hn : l.length = n) : l = c.take n := by
  subst hn
  exact List.prefix_iff_eq_take.1 h

theorem prefix_take {l c : List α} {n : ℕ} (h : l <+: c) (hn : l.length ≤ n) : l ++ (c.drop l.length).take (n - l.length) = c.take n := by
  obtain ⟨t, rfl⟩ := h
  rw [List.drop_left' rfl, List.take_append, List.take_of_length_le hn]

theorem readLoop_spec (hI : Conforms I view disk ok) : ∀ (fuel : ℕ) (s : Text σ) (size : ℕ) (acc : List α), s.Ok view ok →
    s.reading = true → size < fuel → ∃ b l s', Text.readLoop I fuel s size acc = some (b, acc ++ l, s') ∧ s'.Ok view ok ∧ s'.reading = true ∧
      s'.ideal view = ⟨(s.ideal view).content, (s.ideal view).pos + l.length⟩ ∧ l <+: (s.ideal view).content.drop (s.ideal view).pos ∧
      l.length ≤ size ∧ (b = true → l = ((s.ideal view).content.drop (s.ideal view).pos).take size) := by
  intro fuel
  induction fuel with
  | zero => intro s size acc _ _ h; omega
  | succ k ih =>
    intro s size acc h hr hf
    obtain ⟨r, s1, e, g1, g2, g3, g4⟩ := doReadSome_spec hI h hr size
    unfold Text.readLoop
    rw [e]
    cases r with
    | none => exact ⟨false, [], s1, by simp, g1, g2, by simpa using g3, List.nil_prefix, by simp, by simp⟩
    | some l =>
      obtain ⟨p1, p2, p3⟩ := g4 l rfl
      simp only [Option.getD_some] at g3
      simp only [Option.bind_eq_bind, Option.bind_some]
      rw [if_neg (by omega)]
      by_cases hc : l.length > 0 ∧ l.length < size
      · rw [if_pos hc]
        obtain ⟨b, l', s2, e', k1, k2, k3, k4, k5, k6⟩ := ih s1 (size - l.length) (acc ++ l) g1 g2 (by omega)
        rw [g3] at k3 k4 k6
        have hd : ((s.ideal view).content.drop (s.ideal view).pos).drop l.length =
            (s.ideal view).content.drop ((s.ideal view).pos + l.length) := List.drop_drop
        refine ⟨b, l ++ l', s2, by rw [e', List.append_assoc], k1, k2, ?_, ?_, by simp; omega, fun hb => ?_⟩
        · rw [k3, List.length_append, Nat.add_assoc]
        · exact prefix_append_of p1 (by rw [hd]; exact k4)
        · rw [k6 hb]
          simp only
          rw [← hd]
          exact prefix_take p1 p2
      · rw [if_neg hc]
        refine ⟨true, l, s1, rfl, g1, g2, g3, p1, p2, fun _ => ?_⟩
        by_cases h0 : l = []
        · subst h0
          rcases p3 rfl with h0 | h0
          · simp [h0]
          · rw [List.drop_of_length_le h0]; simp
        · have : 0 < l.length := List.length_pos_iff.2 h0
          exact take_of_prefix p1 (by omega)

/-- From neutral mode to reading mode. -/
theorem startReading {s : Text σ} (h : s.Ok view ok) (hw : s.writing = false) :
    ({ s with reading := true } : Text σ).Ok view ok ∧ ({ s with reading := true } : Text σ).ideal view = s.ideal view :=
  ⟨⟨h.impl, by simp [hw], fun _ => rfl, h.writing⟩, rfl⟩

theorem tryRead_spec (hI : Conforms I view disk ok) {s : Text σ} (h : s.Ok view ok) (size : ℕ) :
    ∃ b l s', s.tryRead I size = some (b, l, s') ∧ s'.Ok view ok ∧
      s'.ideal view = ⟨(s.ideal view).content, (s.ideal view).pos + l.length⟩ ∧ l <+: (s.ideal view).content.drop (s.ideal view).pos ∧
      l.length ≤ size ∧ (b = true → l = ((s.ideal view).content.drop (s.ideal view).pos).take size) := by
  have read : ∀ t : Text σ, t.Ok view ok → t.writing = false → t.ideal view = s.ideal view →
      ∃ b l s', Text.readLoop I (size + 1) { t with reading := true } size [] = some (b, l, s') ∧ s'.Ok view ok ∧
      s'.ideal view = ⟨(s.ideal view).content, (s.ideal view).pos + l.length⟩ ∧ l <+: (s.ideal view).content.drop (s.ideal view).pos ∧
      l.length ≤ size ∧ (b = true → l = ((s.ideal view).content.drop (s.ideal view).pos).take size) := by
    intro t ht htw hti
    obtain ⟨q1, q2⟩ := startReading ht htw
    obtain ⟨b, l, s', e, k1, _, k3, k4, k5, k6⟩ := readLoop_spec hI (size + 1) _ size [] q1 rfl (by omega)
    rw [q2, hti] at k3 k4 k6
    exact ⟨b, l, s', by simpa using e, k1, k3, k4, k5, k6⟩
  by_cases hw : s.writing = true
  · obtain ⟨b, s1, e, g1, g2, g3, g4⟩ := stopWriting_spec hI h hw
    cases b with
    | true =>
      obtain ⟨b, l, s', e', k⟩ := read s1 g1 (g4 rfl) g2
      exact ⟨b, l, s', by simp [Text.tryRead, hw, e, e'], k⟩
    | false => exact ⟨false, [], s1, by simp [Text.tryRead, hw, e], g1, by simpa using g2, List.nil_prefix, by simp, by simp⟩
  · have hw : s.writing = false := by simpa using hw
    obtain ⟨b, l, s', e', k⟩ := read s h hw rfl
    refine ⟨b, l, s', ?_, k⟩
    unfold Text.tryRead
    rw [if_pos (by simp [hw])]
    exact e'

theorem tryWrite_spec (hI : Conforms I view disk ok) {s : Text σ} (h : s.Ok view ok) (n₀ : ℕ) (data : List α) :
    ∃ b n s', s.tryWrite I n₀ data = some (b, n, s') ∧ s'.Ok view ok ∧
      s'.ideal view = ⟨overwrite (s.ideal view).content (s.ideal view).pos (data.take n), (s.ideal view).pos + n⟩ ∧
      (b = true → n = data.length) ∧ (b = false → n < data.length ∨ data = []) := by
  have write : ∀ t : Text σ, t.Ok view ok → t.reading = false → t.ideal view = s.ideal view →
      ∃ b n impl, I.write t.impl n₀ data = some (b, n, impl) ∧ ({ t with impl := impl, writing := true } : Text σ).Ok view ok ∧
      ({ t with impl := impl, writing := true } : Text σ).ideal view =
        ⟨overwrite (s.ideal view).content (s.ideal view).pos (data.take n), (s.ideal view).pos + n⟩ ∧
      (b = true → n = data.length) ∧ (b = false → n < data.length ∨ data = []) := by
    intro t ht htr hti
    have hm := ht.notReading htr
    have ha := hI.ahead t.impl ht.impl hm
    obtain ⟨b, n, impl, e, g1, g2, g3, g4⟩ := hI.write t.impl n₀ data ht.impl hm
    refine ⟨b, n, impl, e, ⟨g1, by simp [htr], by simp [g2], by simp [g2]⟩, ?_, g3, fun hb => ?_⟩
    · rw [← hti]
      simp [Text.ideal, g2, ha]
    · rcases g4 hb with h | h
      · exact Or.inl h
      · exact Or.inr h.1
  by_cases hr : s.reading = true
  · obtain ⟨b, s1, e, g1, g2, g3, g4⟩ := stopReading_spec hI h hr
    cases b with
    | true =>
      obtain ⟨b, n, impl, e', k⟩ := write s1 g1 (g4 rfl) g2
      exact ⟨b, n, _, by simp [Text.tryWrite, hr, e, e'], k⟩
    | false =>
      refine ⟨false, 0, s1, by simp [Text.tryWrite, hr, e], g1, by simpa [overwrite_nil] using g2, by simp, fun _ => ?_⟩
      cases data with
      | nil => exact Or.inr rfl
      | cons => left; simp
  · have hr : s.reading = false := by simpa using hr
    obtain ⟨b, n, impl, e', k⟩ := write s h hr rfl
    refine ⟨b, n, _, ?_, k⟩
    unfold Text.tryWrite
    rw [if_pos (by simp [hr])]
    simp [e']

theorem tryReadSome_spec (hI : Conforms I view disk ok) {s : Text σ} (h : s.Ok view ok) (size : ℕ) :
    ∃ r s', s.tryReadSome I size = some (r, s') ∧ s'.Ok view ok ∧
      s'.ideal view = ⟨(s.ideal view).content, (s.ideal view).pos + (r.getD []).length⟩ ∧
      ∀ l, r = some l → l <+: (s.ideal view).content.drop (s.ideal view).pos ∧ l.length ≤ size ∧
        (l = [] → size = 0 ∨ (s.ideal view).content.length ≤ (s.ideal view).pos) := by
  have read : ∀ t : Text σ, t.Ok view ok → t.writing = false → t.ideal view = s.ideal view →
      ∃ r s', ({ t with reading := true } : Text σ).doReadSome I size = some (r, s') ∧ s'.Ok view ok ∧
      s'.ideal view = ⟨(s.ideal view).content, (s.ideal view).pos + (r.getD []).length⟩ ∧
      ∀ l, r = some l → l <+: (s.ideal view).content.drop (s.ideal view).pos ∧ l.length ≤ size ∧
        (l = [] → size = 0 ∨ (s.ideal view).content.length ≤ (s.ideal view).pos) := by
    intro t ht htw hti
    obtain ⟨q1, q2⟩ := startReading ht htw
    obtain ⟨r, s', e, k1, _, k3, k4⟩ := doReadSome_spec hI q1 rfl size
    rw [q2, hti] at k3 k4
    exact ⟨r, s', e, k1, k3, k4⟩
  by_cases hw : s.writing = true
  · obtain ⟨b, s1, e, g1, g2, g3, g4⟩ := stopWriting_spec hI h hw
    cases b with
    | true =>
      obtain ⟨r, s', e', k⟩ := read s1 g1 (g4 rfl) g2
      exact ⟨r, s', by simp [Text.tryReadSome, hw, e, e'], k⟩
    | false => exact ⟨none, s1, by simp [Text.tryReadSome, hw, e], g1, by simpa using g2, by simp⟩
  · have hw : s.writing = false := by simpa using hw
    obtain ⟨r, s', e', k⟩ := read s h hw rfl
    refine ⟨r, s', ?_, k⟩
    unfold Text.tryReadSome
    rw [if_pos (by simp [hw])]
    exact e'

theorem tryFlush_spec (hI : Conforms I view disk ok) {s : Text σ} (h : s.Ok view ok) :
    ∃ b s', s.tryFlush I.toWriteOps = some (b, s') ∧ s'.Ok view ok ∧ s'.ideal view = s.ideal view ∧
      (b = true → disk s'.impl = (s.ideal view).content) := by
  have hdisk : ∀ t : Text σ, t.Ok view ok → t.writing = false → t.ideal view = s.ideal view → disk t.impl = (s.ideal view).content := by
    intro t ht htw hti
    rw [← hti]
    exact hI.disk t.impl ht.impl (ht.notWriting htw)
  by_cases hw : s.writing = true
  · obtain ⟨b, s1, e, g1, g2, g3, g4⟩ := stopWriting_spec hI h hw
    exact ⟨b, s1, by simp [Text.tryFlush, hw, e], g1, g2, fun hb => hdisk s1 g1 (g4 hb) g2⟩
  · have hw : s.writing = false := by simpa using hw
    exact ⟨true, s, by simp [Text.tryFlush, hw], h, rfl, fun _ => hdisk s h hw rfl⟩

theorem tryTell_spec (hI : Conforms I view disk ok) {s : Text σ} (h : s.Ok view ok) :
    ∃ r s', s.tryTell I = some (r, s') ∧ s'.Ok view ok ∧ s'.ideal view = s.ideal view ∧ ∀ pos, r = some pos → pos = (s.ideal view).pos := by
  by_cases hr : s.reading = true
  · have hw := h.excl_r hr
    have hm := h.notWriting hw
    obtain ⟨i1, e1, g1, g2⟩ := hI.advanceAll s.impl h.impl hm
    have hm1 : (view i1).mode ≠ .writing := by rw [g2]; exact hm
    obtain ⟨r, i2, e2, k1, k2, k3⟩ := hI.tellRead i1 g1 hm1
    refine ⟨r, { s with impl := i2 }, by simp [Text.tryTell, hr, e1, e2], ⟨k1, by simp [hw], fun _ => hr, ?_⟩, ?_, ?_⟩
    · rw [k2, g2]; exact h.writing
    · simp [Text.ideal, k2, g2]
    · intro pos hp
      rw [k3 pos hp, g2]
      rfl
  · have hr : s.reading = false := by simpa using hr
    have hm := h.notReading hr
    obtain ⟨r, i2, e2, k1, k2, k3⟩ := hI.tellWrite s.impl h.impl hm
    refine ⟨r, { s with impl := i2 }, ?_, ⟨k1, h.excl, ?_, ?_⟩, ?_, ?_⟩
    · unfold Text.tryTell
      rw [if_pos (by simp [hr]), e2]
      rfl
    · rw [k2]; exact h.reading
    · rw [k2]; exact h.writing
    · simp [Text.ideal, k2]
    · intro pos hp
      rw [k3 pos hp]
      simp [Text.ideal, hI.ahead _ h.impl hm]

theorem trySeek_spec (hI : Conforms I view disk ok) {s : Text σ} (h : s.Ok view ok) (pos : ℕ) :
    ∃ b s', s.trySeek I pos = some (b, s') ∧ s'.Ok view ok ∧ s'.ideal view = if b then ⟨(s.ideal view).content, pos⟩ else s.ideal view := by
  have seek : ∀ t : Text σ, t.Ok view ok → t.writing = false → t.ideal view = s.ideal view →
      ∃ b s', (do
        let (ok, impl) ← I.seek t.impl pos
        if ok then some (true, { t with impl, reading := false }) else some (false, { t with impl })) = some (b, s') ∧
        s'.Ok view ok ∧ s'.ideal view = if b then ⟨(s.ideal view).content, pos⟩ else s.ideal view := by
    intro t ht htw hti
    obtain ⟨b, i, e, g1, g2⟩ := hI.seek t.impl pos ht.impl (ht.notWriting htw)
    cases b with
    | true =>
      simp only [if_true] at g2
      refine ⟨true, { t with impl := i, reading := false }, by simp [e], ⟨g1, by simp, by simp [g2], by simp [g2, htw]⟩, ?_⟩
      rw [← hti]
      simp [Text.ideal, g2]
    | false =>
      simp only [Bool.false_eq_true, if_false] at g2
      refine ⟨false, { t with impl := i }, by simp [e], ⟨g1, ht.excl, by rw [g2]; exact ht.reading, by rw [g2]; exact ht.writing⟩, ?_⟩
      simp only [Bool.false_eq_true, if_false]
      rw [← hti]
      simp [Text.ideal, g2]
  by_cases hw : s.writing = true
  · obtain ⟨b, s1, e, g1, g2, g3, g4⟩ := stopWriting_spec hI h hw
    cases b with
    | true =>
      obtain ⟨b, s', e', k⟩ := seek s1 g1 (g4 rfl) g2
      refine ⟨b, s', ?_, k⟩
      unfold Text.trySeek
      rw [if_pos hw, e]
      exact e'
    | false => exact ⟨false, s1, by simp [Text.trySeek, hw, e], g1, g2⟩
  · obtain ⟨b, s', e', k⟩ := seek s h (by simpa using hw) rfl
    refine ⟨b, s', ?_, k⟩
    unfold Text.trySeek
    rw [if_neg hw]
    exact e'

theorem run_spec (hI : Conforms I view disk ok) {s : Text σ} (h : s.Ok view ok) (op : Op α) :
    ∃ o s', s.run I op = some (o, s') ∧ s'.Ok view ok ∧ Allowed (s.ideal view) op o (s'.ideal view) := by
  cases op with
  | read size =>
    obtain ⟨b, l, s', e, g1, g2⟩ := tryRead_spec hI h size
    exact ⟨.read b l, s', by simp [Text.run, e], g1, g2⟩
  | readSome size =>
    obtain ⟨r, s', e, g1, g2, g3⟩ := tryReadSome_spec hI h size
    refine ⟨.readSome r, s', by simp [Text.run, e], g1, ?_⟩
    cases r with
    | none => simpa [Allowed] using g2
    | some l => exact ⟨g2, g3 l rfl⟩
  | write data =>
    obtain ⟨b, n, s', e, g1, g2⟩ := tryWrite_spec hI h 0 data
    exact ⟨.write b n, s', by simp [Text.run, e], g1, g2⟩
  | flush =>
    obtain ⟨b, s', e, g1, g2, _⟩ := tryFlush_spec hI h
    exact ⟨.flush b, s', by simp [Text.run, e], g1, g2⟩
  | tell =>
    obtain ⟨r, s', e, g1, g2⟩ := tryTell_spec hI h
    exact ⟨.tell r, s', by simp [Text.run, e], g1, g2⟩
  | seek pos =>
    obtain ⟨b, s', e, g1, g2⟩ := trySeek_spec hI h pos
    exact ⟨.seek b, s', by simp [Text.run, e], g1, g2⟩

theorem runAll_spec (hI : Conforms I view disk ok) : ∀ (ops : List (Op α)) (s : Text σ), s.Ok view ok →
    ∃ os s', s.runAll I ops = some (os, s') ∧ s'.Ok view ok ∧ AllowedAll (s.ideal view) ops os (s'.ideal view)
  | [], s, h => ⟨[], s, rfl, h, rfl⟩
  | op :: ops, s, h => by
    obtain ⟨o, s1, e, g1, g2⟩ := run_spec hI h op
    obtain ⟨os, s2, e', k1, k2⟩ := runAll_spec hI ops s1 g1
    exact ⟨o :: os, s2, by simp [Text.runAll, e, e'], k1, s1.ideal view, g2, k2⟩

/-- Reading everything. -/
theorem tryReadAll_spec (hI : Conforms I view disk ok) {space : List α → ℕ} (hsp : ∀ acc, 0 < space acc) : ∀ (fuel : ℕ) (s : Text σ)
    (acc : List α), s.Ok view ok → ((s.ideal view).content.drop (s.ideal view).pos).length < fuel →
    ∃ b l s', Text.tryReadAll I space fuel s acc = some (b, acc ++ l, s') ∧ s'.Ok view ok ∧
      s'.ideal view = ⟨(s.ideal view).content, (s.ideal view).pos + l.length⟩ ∧ l <+: (s.ideal view).content.drop (s.ideal view).pos ∧
      (b = true → l = (s.ideal view).content.drop (s.ideal view).pos) := by
  intro fuel
  induction fuel with
  | zero => intro s acc _ h; omega
  | succ k ih =>
    intro s acc h hf
    obtain ⟨b, l, s1, e, g1, g2, g3, g4, g5⟩ := tryRead_spec hI h (space acc)
    unfold Text.tryReadAll
    rw [e]
    cases b with
    | false => exact ⟨false, l, s1, rfl, g1, g2, g3, by simp⟩
    | true =>
      simp only [Option.bind_eq_bind, Option.bind_some, if_true]
      have hl := g5 rfl
      by_cases h0 : l.length > 0
      · rw [if_pos h0]
        have hd : ((s.ideal view).content.drop (s.ideal view).pos).drop l.length =
            (s.ideal view).content.drop ((s.ideal view).pos + l.length) := List.drop_drop
        obtain ⟨b, l', s2, e', k1, k2, k3, k4⟩ := ih s1 (acc ++ l) g1 (by
          rw [g2]
          simp only
          have := g3.length_le
          rw [← hd, List.length_drop]
          omega)
        rw [g2] at k2 k3 k4
        simp only at k2 k3 k4
        rw [← hd] at k3 k4
        refine ⟨b, l ++ l', s2, by rw [e', List.append_assoc], k1, ?_, prefix_append_of g3 k3, fun hb => ?_⟩
        · rw [k2, List.length_append, Nat.add_assoc]
        · rw [k4 hb]
          conv_lhs => rw [take_of_prefix g3 rfl]
          rw [List.length_take]
          have hle := g3.length_le
          rw [Nat.min_eq_left hle]
          exact List.take_append_drop _ _
      · rw [if_neg h0]
        refine ⟨true, l, s1, rfl, g1, g2, g3, fun _ => ?_⟩
        have hl0 : l = [] := List.length_eq_zero_iff.1 (by omega)
        rw [hl0] at hl
        have := congrArg List.length hl
        have hp := hsp acc
        rw [List.length_take, List.length_nil] at this
        rw [hl0]
        exact (List.length_eq_zero_iff.1 (by omega)).symm

end Verif.TextFile
