import Verif.Streams.Spec
import Verif.TextFile.Lemmas

namespace Verif.Streams

open Verif.TextFile (File overwrite)

variable {α σ : Type}

theorem fileSource_conforms [Inhabited α] : Conforms (fileSource : Reader α (File α)) (fun f => f.content.drop f.pos) (fun _ => True) := by
  intro f size _
  obtain ⟨r, plan, e, h⟩ := Verif.TextFile.readSome_spec f size
  refine ⟨r, { f with pos := f.pos + (r.getD []).length, plan := plan }, by simp [fileSource, e], trivial, ?_, ?_⟩
  · cases r with
    | none => simp
    | some l =>
      obtain ⟨⟨t, ht⟩, _, _⟩ := h l rfl
      simp only [Option.getD_some]
      rw [← List.drop_drop, ← ht, List.drop_left' rfl]
  · intro l hl
    obtain ⟨_, h2, h3⟩ := h l hl
    refine ⟨h2, fun e => (h3 e).imp id (fun h => ?_)⟩
    exact List.drop_of_length_le h

theorem bufSource_conforms [Inhabited α] : Conforms (bufSource : Reader α (BufSource α)) (fun s => s.data.drop s.start ++ s.file.content.drop s.file.pos)
    (fun s => s.start ≤ s.data.length ∧ 0 < s.size) := by
  have copy : ∀ (k : ℕ) (s : BufSource α) (size : ℕ), s.start < s.data.length → 0 < s.size →
      ∃ r s', BufSource.loop (k + 1) s size = some (r, s') ∧ (s'.start ≤ s'.data.length ∧ 0 < s'.size) ∧
      s.data.drop s.start ++ s.file.content.drop s.file.pos =
        r.getD [] ++ (s'.data.drop s'.start ++ s'.file.content.drop s'.file.pos) ∧
      ∀ l, r = some l → l.length ≤ size ∧ (l = [] → size = 0) := by
    intro k s size h1 h2
    refine ⟨some ((s.data.drop s.start).take (min (s.data.length - s.start) size)),
      { s with start := s.start + min (s.data.length - s.start) size }, ?_, ⟨?_, h2⟩, ?_, ?_⟩
    · simp only [BufSource.loop]; rw [if_pos (by omega)]
    · simp only; omega
    · simp only [Option.getD_some]
      rw [← List.drop_drop, ← List.append_assoc, List.take_append_drop]
    · intro l hl
      cases hl
      refine ⟨by simp; omega, fun h => ?_⟩
      have := congrArg List.length h
      simp at this
      omega
  intro s size ⟨h1, h2⟩
  by_cases ha : s.start < s.data.length
  · obtain ⟨r, s', e, a, b, c⟩ := copy 1 s size ha h2
    exact ⟨r, s', e, a, b, fun l hl => ⟨(c l hl).1, fun h => Or.inl ((c l hl).2 h)⟩⟩
  · have hd : s.data.drop s.start = [] := List.drop_of_length_le (by omega)
    obtain ⟨r, plan, e, h⟩ := Verif.TextFile.readSome_spec s.file s.size
    cases r with
    | none =>
      refine ⟨none, { s with file := { s.file with plan := plan } }, ?_, ⟨h1, h2⟩, by simp, by simp⟩
      simp only [bufSource, BufSource.loop]
      rw [if_neg (by omega), e]
      simp
    | some l =>
      obtain ⟨⟨t, ht⟩, hl, hz⟩ := h l rfl
      by_cases hl0 : l = []
      · subst hl0
        refine ⟨some [], { s with file := { s.file with plan := plan } }, ?_, ⟨h1, h2⟩, by simp, ?_⟩
        · simp only [bufSource, BufSource.loop]
          rw [if_neg (by omega), e]
          simp
        · intro l' hl'
          cases hl'
          refine ⟨by simp, fun _ => Or.inr ?_⟩
          rcases hz rfl with h | h
          · omega
          · simp [hd, h]
      · have hlp : 0 < l.length := List.length_pos_iff.2 hl0
        obtain ⟨r, s', e', a, b, c⟩ := copy 0
          { s with file := { s.file with pos := s.file.pos + l.length, plan := plan }, data := l, start := 0 } size hlp h2
        refine ⟨r, s', ?_, a, ?_, fun l hl => ⟨(c l hl).1, fun h => Or.inl ((c l hl).2 h)⟩⟩
        · rw [← e']
          simp only [bufSource]
          conv => lhs; unfold BufSource.loop
          simp only
          rw [if_neg (by omega), e]
          simp only [Option.getD_some]
          rw [if_pos hlp]
        · simp only at b
          dsimp only
          rw [← b, hd, List.drop_zero, ← List.drop_drop, ← ht, List.drop_left' rfl, List.nil_append]

theorem tryRead_spec {R : Reader α σ} {rest : σ → List α} {ok : σ → Prop} (hR : Conforms R rest ok) (s : σ) (size : ℕ) (h : ok s) :
    ∃ b l s', tryRead R s size = some (b, l, s') ∧ ok s' ∧ rest s = l ++ rest s' ∧ l.length ≤ size ∧
      (b = true → l = (rest s).take size) := by
  have key : ∀ (fuel : ℕ) (done : List α) (s : σ) (size : ℕ), ok s → size < fuel →
      ∃ b l s', readLoop R fuel done s size = some (b, done ++ l, s') ∧ ok s' ∧ rest s = l ++ rest s' ∧ l.length ≤ size ∧
      (b = true → l = (rest s).take size) := by
    intro fuel
    induction fuel with
    | zero => intro _ _ _ _ h; omega
    | succ k ih =>
      intro done s size h hf
      obtain ⟨r, s', e, h', hr, hl⟩ := hR s size h
      unfold readLoop
      rw [e]
      simp only [Option.bind_eq_bind, Option.bind_some]
      cases r with
      | none => exact ⟨false, [], s', by simp, h', by simpa using hr, by simp, by simp⟩
      | some l =>
        obtain ⟨h1, h2⟩ := hl l rfl
        simp only [Option.getD_some] at hr
        dsimp only
        rw [if_neg (by omega)]
        by_cases hc : l.length ≠ 0 ∧ l.length < size
        · rw [if_pos hc]
          obtain ⟨b, l', s'', e'', i1, i2, i3, i4⟩ := ih (done ++ l) s' (size - l.length) h' (by omega)
          refine ⟨b, l ++ l', s'', by rw [e'', List.append_assoc], i1, by rw [hr, i2, List.append_assoc], by simp; omega, fun hb => ?_⟩
          rw [hr, List.take_append, List.take_of_length_le (by omega), i4 hb]
        · rw [if_neg hc]
          refine ⟨true, l, s', rfl, h', hr, h1, fun _ => ?_⟩
          by_cases h0 : l = []
          · subst h0
            rcases h2 rfl with h | h
            · subst h; simp
            · rw [h]; simp
          · have : l.length ≠ 0 := by simpa using h0
            rw [hr, List.take_append_of_le_length (by omega), List.take_of_length_le (by omega)]
  simpa [tryRead] using key (size + 1) [] s size h (by omega)

theorem ask_spec {R : Reader α σ} {rest : σ → List α} {ok : σ → Prop} (hR : Conforms R rest ok) (s : σ) (q : Req) (h : ok s) :
    ∃ o s', ask R s q = some (o, s') ∧ ok s' ∧ Allowed (rest s) q o (rest s') := by
  unfold ask
  cases hq : q.all with
  | true =>
    obtain ⟨b, l, s', e, h', h1, h2, h3⟩ := tryRead_spec hR s q.size h
    refine ⟨⟨b, l⟩, s', by simp [e], h', h1, h2, fun hb _ => h3 hb, fun hb h0 => ?_, fun _ h => by rw [hq] at h; cases h⟩
    simp only at hb h0
    rw [h3 hb, List.take_eq_nil_iff] at h0
    exact h0
  | false =>
    obtain ⟨r, s', e, h', h1, h2⟩ := hR s q.size h
    refine ⟨⟨r.isSome, r.getD []⟩, s', by simp [e], h', h1, ?_, fun _ h => (by rw [hq] at h; cases h), ?_, ?_⟩
    · cases r with
      | none => simp
      | some l => exact (h2 l rfl).1
    · cases r with
      | none => simp
      | some l => exact fun _ => (h2 l rfl).2
    · cases r <;> simp

theorem askAll_spec {R : Reader α σ} {rest : σ → List α} {ok : σ → Prop} (hR : Conforms R rest ok) : ∀ (qs : List Req) (s : σ), ok s →
    ∃ os s', askAll R s qs = some (os, s') ∧ ok s' ∧ AllowedAll (rest s) qs os (rest s')
  | [], s, h => ⟨[], s, rfl, h, rfl⟩
  | q :: qs, s, h => by
    obtain ⟨o, s', e, h', a⟩ := ask_spec hR s q h
    obtain ⟨os, s'', e', h'', a'⟩ := askAll_spec hR qs s' h'
    exact ⟨o :: os, s'', by simp [askAll, e, e'], h'', rest s', a, a'⟩

/-! ## Rewindable sources -/

/-- What remains to be read. -/
def Rewindable.rest (rest : σ → List α) (s : Rewindable α σ) : List α := s.data.drop s.offset ++ rest s.sub

/-- `t` is what there is to read from the very beginning. -/
structure Rewindable.Is (rest : σ → List α) (ok : σ → Prop) (t : Tape α) (s : Rewindable α σ) : Prop where
  sub : ok s.sub
  offset : s.offset ≤ s.data.length
  released : s.released = t.released
  drop : s.rest rest = t.all.drop t.pos
  all : s.released = false → s.data ++ rest s.sub = t.all ∧ s.offset = t.pos
  pos : t.pos ≤ t.all.length

theorem rewindable_step {R : Reader α σ} {rest : σ → List α} {ok : σ → Prop} {grow : ℕ → ℕ} (hR : Conforms R rest ok)
    (hg : ∀ n, n < grow n) {t : Tape α} {s : Rewindable α σ} (h : s.Is rest ok t) (size : ℕ) :
    ∃ r s', rewindable R grow s size = some (r, s') ∧ s'.Is rest ok { t with pos := t.pos + (r.getD []).length } ∧
      s.rest rest = r.getD [] ++ s'.rest rest ∧ (∀ l, r = some l → l.length ≤ size ∧ (l = [] → size = 0 ∨ s.rest rest = [])) ∧
      (s.released = true → s'.data = s.data) := by
  -- position after
  have hpos : ∀ l x : List α, s.rest rest = l ++ x → t.pos + l.length ≤ t.all.length := by
    intro l x hx
    have h1 := congrArg List.length (hx.symm.trans h.drop)
    simp only [List.length_append, List.length_drop] at h1
    have := h.pos
    omega
  have hdrop : ∀ l x : List α, s.rest rest = l ++ x → x = t.all.drop (t.pos + l.length) := by
    intro l x hx
    rw [← List.drop_drop, ← h.drop, hx, List.drop_left' rfl]
  have buf : ∀ (sub : σ) (data : List α), ok sub → s.offset < data.length → data.drop s.offset ++ rest sub = s.rest rest →
      (s.released = false → data ++ rest sub = t.all) →
      ∃ r s', ({ s with sub := sub, data := data } : Rewindable α σ).fromBuffer size = (r, s') ∧
        s'.Is rest ok { t with pos := t.pos + (r.getD []).length } ∧
        s.rest rest = r.getD [] ++ s'.rest rest ∧ (∀ l, r = some l → l.length ≤ size ∧ (l = [] → size = 0 ∨ s.rest rest = [])) ∧
        s'.data = data := by
    intro sub data hs ho hd ha
    have hlen : ((data.drop s.offset).take (min (data.length - s.offset) size)).length = min (data.length - s.offset) size := by simp
    have hsp : s.rest rest = (data.drop s.offset).take (min (data.length - s.offset) size) ++
        (data.drop (s.offset + min (data.length - s.offset) size) ++ rest sub) := by
      rw [← hd, ← List.drop_drop, ← List.append_assoc, List.take_append_drop]
    refine ⟨some ((data.drop s.offset).take (min (data.length - s.offset) size)),
      { s with sub := sub, data := data, offset := s.offset + min (data.length - s.offset) size }, rfl,
      ⟨hs, ?_, h.released, hdrop _ _ hsp, fun hr => ⟨ha hr, ?_⟩, hpos _ _ hsp⟩, hsp, ?_, rfl⟩
    · simp only; omega
    · simp only [Option.getD_some]
      rw [hlen, (h.all hr).2]
    · intro l hl
      cases hl
      refine ⟨by omega, fun h0 => Or.inl ?_⟩
      rw [h0] at hlen
      simp at hlen
      omega
  unfold rewindable
  by_cases ho : s.offset = s.data.length
  · rw [if_pos ho]
    have hre : s.rest rest = rest s.sub := by simp [Rewindable.rest, ho]
    by_cases hrel : s.released = true
    · rw [if_pos hrel]
      obtain ⟨r, sub, e, hs, h1, h2⟩ := hR s.sub size h.sub
      have hsp : s.rest rest = r.getD [] ++ ({ s with sub := sub } : Rewindable α σ).rest rest := by
        rw [hre, h1]; simp [Rewindable.rest, ho]
      refine ⟨r, { s with sub := sub }, by simp [e], ⟨hs, h.offset, h.released, hdrop _ _ hsp, fun hr => ?_, hpos _ _ hsp⟩, hsp, ?_,
        fun _ => rfl⟩
      · simp only at hr; rw [hrel] at hr; cases hr
      · rw [hre]; exact h2
    · rw [if_neg hrel]
      simp only [Bool.not_eq_true] at hrel
      have hgr := hg s.data.length
      obtain ⟨ha, hp⟩ := h.all hrel
      obtain ⟨r, sub, e, hs, h1, h2⟩ := hR s.sub (grow s.data.length - s.data.length) h.sub
      rw [e]
      simp only [Option.map_some]
      cases r with
      | none =>
        simp only [Option.getD_none, List.nil_append] at h1
        have hsp : s.rest rest = [] ++ ({ s with sub := sub } : Rewindable α σ).rest rest := by
          rw [hre, h1]; simp [Rewindable.rest, ho]
        refine ⟨none, { s with sub := sub }, rfl, ⟨hs, h.offset, h.released, hdrop [] _ hsp, fun _ => ⟨by rw [← ha, h1], by simpa using hp⟩,
          by simpa using h.pos⟩, hsp, by simp, by simp [hrel]⟩
      | some l =>
        simp only [Option.getD_some] at h1
        by_cases hl : l.length > 0
        · simp only [hl, if_true]
          obtain ⟨r, s', e', a, b, c, _⟩ := buf sub (s.data ++ l) hs (by simp; omega)
            (by rw [hre, h1, ho, List.drop_left' rfl])
            (fun _ => by rw [List.append_assoc, ← h1, ha])
          exact ⟨r, s', by rw [← e'], a, b, c, by simp [hrel]⟩
        · have hl0 : l = [] := by simpa using hl
          subst hl0
          have hrest : rest s.sub = [] := by
            rcases (h2 [] rfl).2 rfl with h | h
            · omega
            · exact h
          have hrest' : rest sub = [] := by simpa [hrest] using h1
          have hsp : s.rest rest = [] ++ ({ s with sub := sub } : Rewindable α σ).rest rest := by
            rw [hre, hrest]; simp [Rewindable.rest, ho, hrest']
          refine ⟨some [], { s with sub := sub }, by simp, ⟨hs, h.offset, h.released, hdrop [] _ hsp,
            fun _ => ⟨by rw [← ha, hrest, hrest'], by simpa using hp⟩, by simpa using h.pos⟩, hsp, ?_, by simp [hrel]⟩
          intro l' hl'
          cases hl'
          exact ⟨by simp, fun _ => Or.inr (by rw [hre, hrest])⟩
  · rw [if_neg ho]
    have := h.offset
    obtain ⟨r, s', e, a, b, c, d⟩ := buf s.sub s.data h.sub (by omega) rfl (fun hr => (h.all hr).1)
    exact ⟨r, s', by rw [← e], a, b, c, fun _ => d⟩

/-- A rewindable source is a source. -/
theorem rewindable_conforms {R : Reader α σ} {rest : σ → List α} {ok : σ → Prop} {grow : ℕ → ℕ} (hR : Conforms R rest ok)
    (hg : ∀ n, n < grow n) (all : List α) (released : Bool) :
    Conforms (rewindable R grow) (Rewindable.rest rest) (fun s => ∃ pos, s.Is rest ok ⟨all, pos, released⟩) := by
  intro s size ⟨pos, h⟩
  obtain ⟨r, s', e, a, b, c, _⟩ := rewindable_step hR hg h size
  exact ⟨r, s', e, ⟨_, a⟩, b, c⟩

theorem run_spec {R : Reader α σ} {rest : σ → List α} {ok : σ → Prop} {grow : ℕ → ℕ} (hR : Conforms R rest ok)
    (hg : ∀ n, n < grow n) {t : Tape α} {s : Rewindable α σ} (h : s.Is rest ok t) (op : Op)
    (hop : op = .rewind → t.released = false) :
    ∃ o s' t', s.run R grow op = some (o, s') ∧ s'.Is rest ok t' ∧ AllowedOp t op o t' := by
  cases op with
  | read q =>
    obtain ⟨o, s', e, ⟨pos, h'⟩, a⟩ := ask_spec (rewindable_conforms hR hg t.all t.released) s q ⟨t.pos, h⟩
    have hd := a.data
    rw [h.drop, h'.drop] at hd
    have hl := congrArg List.length hd
    simp only [List.length_append, List.length_drop] at hl
    have hp1 := h.pos
    have hp2 := h'.pos
    simp only at hp2
    obtain rfl : pos = t.pos + o.data.length := by omega
    refine ⟨some o, s', ⟨t.all, t.pos + o.data.length, t.released⟩, by simp [Rewindable.run, e], h', rfl, ?_⟩
    rw [h.drop, h'.drop] at a
    exact a
  | rewind =>
    have hr := hop rfl
    have hrs : s.released = false := by rw [h.released]; exact hr
    refine ⟨none, { s with offset := 0 }, { t with pos := 0 }, by simp [Rewindable.run, Rewindable.rewind, hrs],
      ⟨h.sub, by simp, h.released, ?_, fun _ => ⟨(h.all hrs).1, rfl⟩, by simp⟩, hr, rfl⟩
    simp [Rewindable.rest, (h.all hrs).1]
  | release =>
    exact ⟨none, s.release, { t with released := true }, rfl, ⟨h.sub, h.offset, rfl, h.drop, by simp [Rewindable.release], h.pos⟩, rfl⟩

theorem runAll_spec {R : Reader α σ} {rest : σ → List α} {ok : σ → Prop} {grow : ℕ → ℕ} (hR : Conforms R rest ok)
    (hg : ∀ n, n < grow n) : ∀ (ops : List Op) (t : Tape α) (s : Rewindable α σ), s.Is rest ok t → Proper t.released ops →
    ∃ os s' t', s.runAll R grow ops = some (os, s') ∧ s'.Is rest ok t' ∧ AllowedOps t ops os t'
  | [], t, s, h, _ => ⟨[], s, t, rfl, h, rfl⟩
  | op :: ops, t, s, h, hp => by
    obtain ⟨o, s', t', e, h', a⟩ := run_spec hR hg h op (by rintro rfl; exact hp.1)
    have hp' : Proper t'.released ops := by
      cases op with
      | read q =>
        cases o with
        | none => exact a.elim
        | some o => rw [a.1]; exact hp
      | rewind =>
        cases o with
        | none => rw [a.2]; exact hp.2
        | some o => exact a.elim
      | release =>
        cases o with
        | none => rw [show t' = _ from a]; exact hp
        | some o => exact a.elim
    obtain ⟨os, s'', t'', e', h'', a'⟩ := runAll_spec hR hg ops t' s' h' hp'
    exact ⟨o :: os, s'', t'', by simp [Rewindable.runAll, e, e'], h'', t', a, a'⟩

/-! ## Sinks -/

/-- `acc` is what was accepted. A part of it has been written, and the rest is pending. -/
structure BufSink.Is [Inhabited α] (f : File α) (acc : List α) (s : BufSink α) (k : ℕ) : Prop where
  done : k ≤ acc.length
  content : s.file.content = overwrite f.content f.pos (acc.take k)
  pos : s.file.pos = f.pos + k
  pending : s.data.drop s.start = acc.drop k
  start : s.start ≤ s.data.length
  fits : s.data.length ≤ s.size
  size : 0 < s.size

theorem tryFlush_spec [Inhabited α] {f : File α} {acc : List α} {s : BufSink α} {k : ℕ} (h : s.Is f acc k) :
    ∃ b s' k', s.tryFlush = some (b, s') ∧ s'.Is f acc k' ∧ s'.size = s.size ∧ (b = true → s'.data = [] ∧ k' = acc.length) := by
  obtain ⟨b, n, plan, e, h1, h2⟩ := Verif.TextFile.file_write_spec s.file (s.data.drop s.start)
  have hst := h.start
  have hk := h.done
  have hlen := congrArg List.length h.pending
  simp only [List.length_drop] at hlen
  have hn : n ≤ acc.length - k := by
    cases b with
    | true => rw [h1 rfl]; simp; omega
    | false =>
      rcases h2 rfl with h | ⟨_, h⟩
      · simp at h; omega
      · omega
  have hc : overwrite s.file.content s.file.pos ((s.data.drop s.start).take n) = overwrite f.content f.pos (acc.take (k + n)) := by
    have hl : (acc.take k).length = k := by simp; omega
    have := Verif.TextFile.overwrite_append f.content f.pos (acc.take k) ((acc.drop k).take n)
    rw [hl] at this
    rw [h.content, h.pos, h.pending, this, List.take_add]
  unfold BufSink.tryFlush
  rw [if_neg (by omega), e]
  simp only [Option.bind_eq_bind, Option.bind_some]
  cases b with
  | true =>
    have hn' := h1 rfl
    simp only [List.length_drop] at hn'
    refine ⟨true, _, k + n, rfl, ⟨by omega, hc, ?_, ?_, by simp, by simp, h.size⟩, rfl, fun _ => ⟨rfl, by omega⟩⟩
    · simp only; rw [h.pos]; omega
    · simp; omega
  | false =>
    refine ⟨false, _, k + n, rfl, ⟨by omega, hc, ?_, ?_, ?_, h.fits, h.size⟩, rfl, by simp⟩
    · simp only; rw [h.pos]; omega
    · simp only; rw [← List.drop_drop, h.pending, List.drop_drop]
    · simp only; omega

theorem loop_spec [Inhabited α] {f : File α} : ∀ (fuel total : ℕ) (acc : List α) (s : BufSink α) (k : ℕ) (data : List α), s.Is f acc k →
    data.length ≤ total → (data.length < fuel ∧ s.data = [] ∨ data.length + 1 < fuel) →
    ∃ b n s' k', BufSink.loop fuel total s data = some (b, total - data.length + n, s') ∧ s'.Is f (acc ++ data.take n) k' ∧
      (if b then n = data.length else n < data.length) := by
  intro fuel
  induction fuel with
  | zero => intro total acc s k data _ _ h; omega
  | succ j ih =>
    intro total acc s k data h ht hf
    have hfit := h.fits
    have hsz := h.size
    have hk := h.done
    have hst := h.start
    have hs1 : ∀ m, m ≤ s.size - s.data.length → m ≤ data.length →
        ({ s with data := s.data ++ data.take m } : BufSink α).Is f (acc ++ data.take m) k := by
      intro m hm hm'
      refine ⟨by simp; omega, ?_, h.pos, ?_, ?_, ?_, hsz⟩
      · simp only; rw [h.content, List.take_append_of_le_length hk]
      · simp only
        rw [List.drop_append_of_le_length hst, h.pending, List.drop_append_of_le_length hk]
      · simp; omega
      · simp; omega
    unfold BufSink.loop
    simp only
    by_cases hc : data.length ≤ s.size - s.data.length
    · rw [if_pos hc]
      refine ⟨true, data.length, _, k, by rw [Nat.sub_add_cancel ht], ?_, by simp⟩
      rw [Nat.min_eq_left hc]
      exact hs1 data.length hc (Nat.le_refl _)
    · rw [if_neg hc]
      have hm : min data.length (s.size - s.data.length) = s.size - s.data.length := by omega
      rw [hm]
      obtain ⟨b, s', k', e, h', hsz', hb⟩ := tryFlush_spec (hs1 (s.size - s.data.length) (Nat.le_refl _) (by omega))
      rw [e]
      simp only [Option.bind_eq_bind, Option.bind_some, List.length_drop]
      cases b with
      | true =>
        obtain ⟨hb1, hb2⟩ := hb rfl
        simp only [if_true, hb1, List.length_nil]
        have hprog : (data.drop (s.size - s.data.length)).length < j ∧ s'.data = [] ∨
            (data.drop (s.size - s.data.length)).length + 1 < j := by
          rcases hf with ⟨h1, h2⟩ | h1
          · left; refine ⟨?_, hb1⟩; rw [h2]; simp only [List.length_drop, List.length_nil]; omega
          · left; refine ⟨?_, hb1⟩; simp only [List.length_drop]; omega
        obtain ⟨b', n, s'', k'', e', h'', hn⟩ := ih total _ s' k' (data.drop (s.size - s.data.length)) h' (by simp; omega) hprog
        refine ⟨b', s.size - s.data.length + n, s'', k'', ?_, ?_, ?_⟩
        · rw [e']
          simp only [List.length_drop, Option.some.injEq, Prod.mk.injEq, true_and, and_true]
          omega
        · rw [List.take_add, ← List.append_assoc]; exact h''
        · cases b' <;> simp at hn ⊢ <;> omega
      | false =>
        refine ⟨false, s.size - s.data.length, s', k', ?_, h', by simp; omega⟩
        simp only [Bool.false_eq_true, if_false, Option.some.injEq, Prod.mk.injEq, true_and, and_true]
        omega

theorem sink_runAll_spec [Inhabited α] {f : File α} : ∀ (ops : List (SinkOp α)) (acc : List α) (s : BufSink α) (k : ℕ), s.Is f acc k →
    ∃ os s' acc' k', s.runAll ops = some (os, s') ∧ Accepts acc ops os acc' ∧ s'.Is f acc' k' ∧
      (os.getLast? = some (.flush true) → k' = acc'.length)
  | [], acc, s, k, h => ⟨[], s, acc, k, rfl, rfl, h, by simp⟩
  | op :: ops, acc, s, k, h => by
    have step : ∃ o s' acc' k', s.run op = some (o, s') ∧ (∀ os acc'', Accepts acc' ops os acc'' → Accepts acc (op :: ops) (o :: os) acc'') ∧
        s'.Is f acc' k' ∧ (o = .flush true → k' = acc'.length) := by
      cases op with
      | write data =>
        obtain ⟨b, n, s', k', e, h', hn⟩ := loop_spec (data.length + 2) data.length acc s k data h (Nat.le_refl _) (Or.inr (by omega))
        rw [Nat.sub_self, Nat.zero_add] at e
        exact ⟨.write b n, s', acc ++ data.take n, k', by simp [BufSink.run, BufSink.tryWrite, e], fun os acc'' h => ⟨hn, h⟩, h', by simp⟩
      | flush =>
        obtain ⟨b, s', k', e, h', _, hb⟩ := tryFlush_spec h
        refine ⟨.flush b, s', acc, k', by simp [BufSink.run, e], fun os acc'' h => h, h', ?_⟩
        intro he
        cases he
        exact (hb rfl).2
    obtain ⟨o, s', acc', k', e, ha, h', hfl⟩ := step
    obtain ⟨os, s'', acc'', k'', e', ha', h'', hfl'⟩ := sink_runAll_spec ops acc' s' k' h'
    refine ⟨o :: os, s'', acc'', k'', by simp [BufSink.runAll, e, e'], ha os acc'' ha', h'', ?_⟩
    intro hl
    cases os with
    | nil =>
      cases ops with
      | nil =>
        simp only [BufSink.runAll, Option.some.injEq, Prod.mk.injEq, true_and] at e'
        subst e'
        have hacc : acc'' = acc' := ha'
        subst hacc
        simp at hl
        -- both describe the same state
        have h1 := hfl hl
        have p1 := h'.pos
        have p2 := h''.pos
        omega
      | cons op' ops' => cases op' <;> exact ha'.elim
    | cons o' os' => exact hfl' (by simpa using hl)

end Verif.Streams
