import Verif.TextFile.Model

/-!
# Model of byte streams

Model of `/repo/src/archon/core/source.cpp` (`Source`), `/repo/src/archon/core/file_source.cpp` (`FileSource`, `BufferedFileSource`),
`/repo/src/archon/core/rewindable_source.hpp` and `.cpp` (`RewindableSource`), and `/repo/src/archon/core/file_sink.cpp` (`FileSink`,
`BufferedFileSink`), on top of the model of a file in `Verif.TextFile`. The result of an operation is `none` when an assertion fails, or when
the bound on the number of iterations is reached. Error codes are not modelled, only success and failure. Sizes are unbounded.
-/

namespace Verif.Streams

open Verif.TextFile (File)

variable {α σ : Type}

/-! ## Sources -/

/-- What can be done with a source, namely `Source::try_read_some()` (`/repo/src/archon/core/source.hpp:106`). The result is `none` when the
operation fails. -/
abbrev Reader (α σ : Type) := σ → ℕ → Option (Option (List α) × σ)

/-- The loop in `Source::try_read()` (`/repo/src/archon/core/source.cpp:35-51`). The first number is a bound on the number of iterations, and
the list is what was read so far. -/
def readLoop (R : Reader α σ) : ℕ → List α → σ → ℕ → Option (Bool × List α × σ)
  | 0, _, _, _ => none
  | fuel + 1, done, s, size => do
    let (r, s) ← R s size
    match r with
    | some l =>
      if size < l.length then none
      else if l.length ≠ 0 ∧ l.length < size then readLoop R fuel (done ++ l) s (size - l.length)
      else some (true, done ++ l, s)
    | none => some (false, done, s)

/-- `Source::try_read()` (`/repo/src/archon/core/source.cpp:35-51`). -/
def tryRead (R : Reader α σ) (s : σ) (size : ℕ) : Option (Bool × List α × σ) := readLoop R (size + 1) [] s size

/-- `FileSource::do_try_read_some()` (`/repo/src/archon/core/file_source.cpp:34-37`). -/
def fileSource : Reader α (File α) := fun f size => some (f.readSome size)

/-- `BufferedFileSource` (`/repo/src/archon/core/file_source.hpp:63-82`). `data` is the contents of the buffer from the beginning until
`m_end`, `start` is `m_begin`, and `size` is the size of the buffer. -/
structure BufSource (α : Type) where
  file : File α
  data : List α := []
  start : ℕ := 0
  size : ℕ

/-- The loop in `BufferedFileSource::do_try_read_some()` (`/repo/src/archon/core/file_source.cpp:40-63`). The first argument is a bound on the
number of iterations. -/
def BufSource.loop : ℕ → BufSource α → ℕ → Option (Option (List α) × BufSource α)
  | 0, _, _ => none
  | fuel + 1, s, size =>
    let avail := s.data.length - s.start
    if avail > 0 then
      let n := min avail size
      some (some ((s.data.drop s.start).take n), { s with start := s.start + n })
    else match s.file.readSome s.size with
      | (some l, file) => if l.length > 0 then loop fuel { s with file, data := l, start := 0 } size else some (some [], { s with file })
      | (none, file) => some (none, { s with file })

/-- `BufferedFileSource::do_try_read_some()` (`/repo/src/archon/core/file_source.cpp:40-63`). -/
def bufSource : Reader α (BufSource α) := BufSource.loop 2

/-- `RewindableSource` (`/repo/src/archon/core/rewindable_source.hpp:64-102`). `data` is the contents of the buffer from the beginning until
`m_size`. -/
structure Rewindable (α σ : Type) where
  sub : σ
  data : List α := []
  offset : ℕ := 0
  released : Bool := false

/-- The end of `RewindableSource::do_try_read_some()`, from `read_from_buffer` (`/repo/src/archon/core/rewindable_source.cpp:52-58`). -/
def Rewindable.fromBuffer (s : Rewindable α σ) (size : ℕ) : Option (List α) × Rewindable α σ :=
  let avail := s.data.length - s.offset
  let n := min avail size
  (some ((s.data.drop s.offset).take n), { s with offset := s.offset + n })

/-- `RewindableSource::do_try_read_some()` (`/repo/src/archon/core/rewindable_source.cpp:34-59`). `grow` is the size of the buffer after
`Buffer::reserve_extra(1, m_size)` as a function of `m_size`. -/
def rewindable (R : Reader α σ) (grow : ℕ → ℕ) : Reader α (Rewindable α σ) := fun s size =>
  if s.offset = s.data.length then
    if s.released then (R s.sub size).map (fun r => (r.1, { s with sub := r.2 }))
    else (R s.sub (grow s.data.length - s.data.length)).map (fun r =>
      match r.1 with
      | some l =>
        if l.length > 0 then ({ s with sub := r.2, data := s.data ++ l } : Rewindable α σ).fromBuffer size
        else (some [], { s with sub := r.2 })
      | none => (none, { s with sub := r.2 }))
  else some (s.fromBuffer size)

/-- `RewindableSource::rewind()` (`/repo/src/archon/core/rewindable_source.hpp:121-125`). -/
def Rewindable.rewind (s : Rewindable α σ) : Option (Rewindable α σ) := if s.released then none else some { s with offset := 0 }

/-- `RewindableSource::release()` (`/repo/src/archon/core/rewindable_source.hpp:128-131`). -/
def Rewindable.release (s : Rewindable α σ) : Rewindable α σ := { s with released := true }

/-! ## Sinks -/

/-- `FileSink::do_try_write()` (`/repo/src/archon/core/file_sink.cpp:35-38`). -/
def fileSink [Inhabited α] (f : File α) (data : List α) : Option (Bool × ℕ × File α) := f.write data

/-- `BufferedFileSink` (`/repo/src/archon/core/file_sink.hpp:64-104`). `data` is the contents of the buffer from the beginning until `m_end`,
`start` is `m_begin`, and `size` is the size of the buffer. -/
structure BufSink (α : Type) where
  file : File α
  data : List α := []
  start : ℕ := 0
  size : ℕ

/-- `BufferedFileSink::try_flush()` (`/repo/src/archon/core/file_sink.cpp:64-77`). -/
def BufSink.tryFlush [Inhabited α] (s : BufSink α) : Option (Bool × BufSink α) :=
  if s.data.length < s.start then none
  else do
    let (ok, n, file) ← s.file.write (s.data.drop s.start)
    if ok then some (true, { s with file, data := [], start := 0 }) else some (false, { s with file, start := s.start + n })

/-- The loop in `BufferedFileSink::do_try_write()` (`/repo/src/archon/core/file_sink.cpp:41-61`). The first number is a bound on the number of
iterations, and the second one is the size of the original data. -/
def BufSink.loop [Inhabited α] : ℕ → ℕ → BufSink α → List α → Option (Bool × ℕ × BufSink α)
  | 0, _, _, _ => none
  | fuel + 1, total, s, data =>
    let capacity := s.size - s.data.length
    let n := min data.length capacity
    let s := { s with data := s.data ++ data.take n }
    if data.length ≤ capacity then some (true, total, s)
    else do
      let data := data.drop n
      let (ok, s) ← s.tryFlush
      if ok then if s.data.length = 0 then loop fuel total s data else none
      else some (false, total - data.length, s)

/-- `BufferedFileSink::do_try_write()` (`/repo/src/archon/core/file_sink.cpp:41-61`). -/
def BufSink.tryWrite [Inhabited α] (s : BufSink α) (data : List α) : Option (Bool × ℕ × BufSink α) :=
  BufSink.loop (data.length + 2) data.length s data

end Verif.Streams
