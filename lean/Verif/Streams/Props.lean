import Verif.Streams.Lemmas

/-!
# Properties of byte streams (C157, C158, C159)
-/

namespace Verif.Streams

open Verif.TextFile (File overwrite)

variable {α σ : Type}

/-! ## C157 -/

/-- Every sequence of `try_read()` and `try_read_some()` on an unbuffered file source delivers the contents of the file, in order, from the
current position, no matter how much the individual system calls deliver, and no matter which of them fail. When `try_read()` succeeds, it
delivers everything that was asked for, or everything there is. -/
theorem C157_file_source [Inhabited α] (f : File α) (qs : List Req) :
    ∃ os f', askAll fileSource f qs = some (os, f') ∧ AllowedAll (f.content.drop f.pos) qs os (f'.content.drop f'.pos) := by
  obtain ⟨os, f', e, _, h⟩ := askAll_spec fileSource_conforms qs f trivial
  exact ⟨os, f', e, h⟩

/-- The same for a buffered file source with a buffer of any nonzero size. -/
theorem C157_buffered_file_source [Inhabited α] (f : File α) (size : ℕ) (hs : 0 < size) (qs : List Req) :
    ∃ os s' rest, askAll bufSource { file := f, size := size } qs = some (os, s') ∧ AllowedAll (f.content.drop f.pos) qs os rest := by
  obtain ⟨os, s', e, _, h⟩ := askAll_spec bufSource_conforms qs { file := f, size := size } ⟨by simp, hs⟩
  exact ⟨os, s', _, e, by simpa using h⟩

/-- For any source, `try_read()` delivers everything that was asked for, or everything there is. If it fails, what was delivered so far is not
lost, because it is reported. -/
theorem C157_try_read {R : Reader α σ} {rest : σ → List α} {ok : σ → Prop} (hR : Conforms R rest ok) (s : σ) (size : ℕ) (h : ok s) :
    ∃ b l s', tryRead R s size = some (b, l, s') ∧ ok s' ∧ rest s = l ++ rest s' ∧ l.length ≤ size ∧ (b = true → l = (rest s).take size) :=
  tryRead_spec hR s size h

/-- A buffered file source, and an unbuffered one, deliver the same when all reading is done with `try_read()`, and nothing fails. -/
theorem C157_same [Inhabited α] (f : File α) (bufsize : ℕ) (hs : 0 < bufsize) (size : ℕ) (l l' : List α) (f' : File α) (s' : BufSource α)
    (h : tryRead fileSource f size = some (true, l, f')) (h' : tryRead bufSource { file := f, size := bufsize } size = some (true, l', s')) :
    l = l' := by
  obtain ⟨b, k, t, e, _, _, _, h1⟩ := tryRead_spec fileSource_conforms f size trivial
  obtain ⟨b', k', t', e', _, _, _, h1'⟩ := tryRead_spec bufSource_conforms ({ file := f, size := bufsize } : BufSource α) size ⟨by simp, hs⟩
  rw [e] at h
  rw [e'] at h'
  simp only [Option.some.injEq, Prod.mk.injEq] at h h'
  obtain ⟨hb, hk, _⟩ := h
  obtain ⟨hb', hk', _⟩ := h'
  rw [← hk, ← hk', h1 hb, h1' hb']
  simp

/-- A file where system calls deliver 2, 1, then fail, and then deliver 3 elements. -/
def tricky : File ℕ := ⟨[1, 2, 3, 4, 5, 6, 7, 8], 1, true, false, [some 1, some 0, none, some 2]⟩

example : (tryRead fileSource tricky 5).map (fun r => (r.1, r.2.1)) = some (false, [2, 3, 4]) := by decide
example : (askAll fileSource tricky [⟨true, 5⟩, ⟨true, 5⟩, ⟨false, 3⟩]).map (fun r => r.1.map (fun o => (o.success, o.data))) =
    some [(false, [2, 3, 4]), (true, [5, 6, 7, 8]), (true, [])] := by decide
example : (askAll bufSource { file := tricky, size := 4 } [⟨false, 1⟩, ⟨true, 5⟩, ⟨false, 2⟩, ⟨true, 9⟩]).map
    (fun r => r.1.map (fun o => (o.success, o.data))) =
    some [(true, [2]), (false, [3, 4]), (true, [5, 6]), (true, [7, 8])] := by decide

/-! ## C158 -/

/-- For any source, any sequence of reading, rewinding, and releasing, where there is no rewinding after releasing, delivers what the
underlying source would have delivered, starting over from the beginning after each rewinding. -/
theorem C158_rewind {R : Reader α σ} {rest : σ → List α} {ok : σ → Prop} {grow : ℕ → ℕ} (hR : Conforms R rest ok) (hg : ∀ n, n < grow n)
    (s : σ) (h : ok s) (ops : List Op) (hp : Proper false ops) :
    ∃ os s' t', Rewindable.runAll R grow { sub := s } ops = some (os, s') ∧ AllowedOps ⟨rest s, 0, false⟩ ops os t' := by
  obtain ⟨os, s', t', e, _, a⟩ := runAll_spec hR hg ops ⟨rest s, 0, false⟩ { sub := s }
    ⟨h, by simp, rfl, by simp [Rewindable.rest], fun _ => ⟨by simp, rfl⟩, by simp⟩ hp
  exact ⟨os, s', t', e, a⟩

/-- The same when the underlying source is a file. -/
theorem C158_rewind_file [Inhabited α] {grow : ℕ → ℕ} (hg : ∀ n, n < grow n) (f : File α) (ops : List Op) (hp : Proper false ops) :
    ∃ os s' t', Rewindable.runAll fileSource grow { sub := f } ops = some (os, s') ∧
      AllowedOps ⟨f.content.drop f.pos, 0, false⟩ ops os t' :=
  C158_rewind fileSource_conforms hg f trivial ops hp

/-- The same when the underlying source is a buffered file. -/
theorem C158_rewind_buffered_file [Inhabited α] {grow : ℕ → ℕ} (hg : ∀ n, n < grow n) (f : File α) (size : ℕ) (hs : 0 < size)
    (ops : List Op) (hp : Proper false ops) :
    ∃ os s' t', Rewindable.runAll bufSource grow { sub := ({ file := f, size := size } : BufSource α) } ops = some (os, s') ∧
      AllowedOps ⟨f.content.drop f.pos, 0, false⟩ ops os t' := by
  obtain ⟨os, s', t', e, a⟩ := C158_rewind bufSource_conforms hg ({ file := f, size := size } : BufSource α) ⟨by simp, hs⟩ ops hp
  exact ⟨os, s', t', e, by simpa using a⟩

/-- After being released, a rewindable source stores nothing more, no matter what the underlying source does. -/
theorem C158_release (R : Reader α σ) (grow : ℕ → ℕ) (s s' : Rewindable α σ) (size : ℕ) (r : Option (List α)) (hr : s.released = true)
    (h : rewindable R grow s size = some (r, s')) : s'.data = s.data ∧ s'.released = true := by
  unfold rewindable at h
  by_cases ho : s.offset = s.data.length
  · rw [if_pos ho, if_pos hr] at h
    cases e : R s.sub size with
    | none => simp [e] at h
    | some p =>
      simp only [e, Option.map_some, Option.some.injEq, Prod.mk.injEq] at h
      rw [← h.2]
      exact ⟨rfl, hr⟩
  · rw [if_neg ho] at h
    simp only [Rewindable.fromBuffer, Option.some.injEq, Prod.mk.injEq] at h
    rw [← h.2]
    exact ⟨rfl, hr⟩

/-- What was stored is read without involving the underlying source. -/
theorem C158_reread (R : Reader α σ) (grow : ℕ → ℕ) (s : Rewindable α σ) (size : ℕ) (h : s.offset < s.data.length) :
    rewindable R grow s size = some (some ((s.data.drop s.offset).take size), { s with offset := s.offset + min (s.data.length - s.offset) size }) := by
  unfold rewindable
  rw [if_neg (by omega)]
  simp only [Rewindable.fromBuffer, Option.some.injEq, Prod.mk.injEq, and_true]
  rw [← List.length_drop, Nat.min_comm, ← List.take_take, List.take_of_length_le (i := (s.data.drop s.offset).length) (Nat.le_refl _)]

/-- Rewinding after releasing is caught. -/
theorem C158_rewind_after_release (R : Reader α σ) (grow : ℕ → ℕ) (s : Rewindable α σ) : (s.release.run R grow .rewind) = none := by
  simp [Rewindable.run, Rewindable.rewind, Rewindable.release]

example : (Rewindable.runAll fileSource (· + 4) { sub := tricky }
    [.read ⟨true, 2⟩, .rewind, .read ⟨true, 6⟩, .rewind, .read ⟨false, 9⟩, .read ⟨true, 2⟩, .rewind, .release, .read ⟨true, 9⟩]).map
    (fun r => (r.1.map (fun o => o.map (fun o => (o.success, o.data))), r.2.data)) =
    some ([some (true, [2, 3]), none, some (false, [2, 3, 4]), none, some (true, [2, 3, 4]), some (true, [5, 6]), none, none,
      some (true, [2, 3, 4, 5, 6, 7, 8])], [2, 3, 4, 5, 6, 7]) := by decide

/-! ## C159 -/

/-- Every sequence of writing and flushing on a buffered file sink, with a buffer of any nonzero size, over a file where system calls transfer
arbitrary amounts, or fail: success means that all data was accepted, failure means that the reported amount, which is less than everything,
was accepted. What has been written is always a beginning of what was accepted, and it is all of what was accepted if the last thing that
happened was successful flushing. Nothing is lost, repeated, or reordered, also when writing and flushing is resumed after failures. -/
theorem C159_buffered_file_sink [Inhabited α] (f : File α) (size : ℕ) (hs : 0 < size) (ops : List (SinkOp α)) :
    ∃ os s' acc k, BufSink.runAll { file := f, size := size } ops = some (os, s') ∧ Accepts [] ops os acc ∧ k ≤ acc.length ∧
      s'.file.content = overwrite f.content f.pos (acc.take k) ∧ s'.file.pos = f.pos + k ∧
      (os.getLast? = some (.flush true) → k = acc.length) := by
  obtain ⟨os, s', acc, k, e, a, h, hl⟩ := sink_runAll_spec (f := f) ops [] ({ file := f, size := size } : BufSink α) 0
    ⟨by simp, by simp [Verif.TextFile.overwrite_nil], by simp, by simp, by simp, by simp, hs⟩
  exact ⟨os, s', acc, k, e, a, h.done, h.content, h.pos, hl⟩

/-- Unbuffered: what was reported as written, is what was written. -/
theorem C159_file_sink [Inhabited α] (f : File α) (data : List α) :
    ∃ b n f', fileSink f data = some (b, n, f') ∧ f'.content = overwrite f.content f.pos (data.take n) ∧ f'.pos = f.pos + n ∧
      (b = true → n = data.length) := by
  obtain ⟨b, n, plan, e, h, _⟩ := Verif.TextFile.file_write_spec f data
  exact ⟨b, n, _, e, rfl, rfl, h⟩

/-- A file where system calls transfer 1 and then fail. -/
def trickyOut : File ℕ := ⟨[9, 9], 1, false, true, [some 0, none, none]⟩

example : (BufSink.runAll { file := trickyOut, size := 3 } [.write [1, 2], .write [3, 4, 5], .flush, .write [6, 7], .flush]).map
    (fun r => (r.1.map (fun o => match o with | .write b n => (b, n) | .flush b => (b, 100)), r.2.file.content)) =
    some ([(true, 2), (false, 1), (false, 100), (true, 2), (true, 100)], [9, 1, 2, 3, 6, 7]) := by decide

end Verif.Streams
