import Mathlib.Order.Defs.LinearOrder
import Mathlib.Data.List.Basic
import Mathlib.Data.Nat.Basic

/-!
# Model of text files

Model of `/repo/src/archon/core/text_file.hpp` (`GenericTextFile`), `/repo/src/archon/core/impl/buffered_text_file_impl.hpp`
(`BufferedTextFileImpl`), `/repo/src/archon/core/impl/prim_text_file_impl.hpp` and `.cpp` (`PrimPosixTextFileImpl`), and parts of
`/repo/src/archon/core/impl/text_file_impl.hpp` (`TextFileImpl2`), on top of a model of a file in a POSIX file system. The flags that exist
only in debug mode, and the assertions, are part of the model. The result of an operation is `none` when an assertion fails, or when the
bound on the number of iterations is reached. Error codes are not modelled, only success and failure. Sizes and positions are unbounded.
-/

namespace Verif.TextFile

variable {α σ : Type}

/-! ## Files -/

/-- An open file. `plan` is about the upcoming system calls. An element is `none` if the system call will fail. Otherwise, it is a limit on
how much will be transferred (less one). After the last element, system calls succeed and transfer as much as possible. -/
structure File (α : Type) where
  content : List α
  pos : ℕ
  readable : Bool
  writable : Bool
  plan : List (Option ℕ)

/-- Make one system call that may transfer the specified amount. -/
def File.grant (f : File α) (size : ℕ) : Option ℕ × File α :=
  match f.plan with
  | [] => (some size, f)
  | none :: rest => (none, { f with plan := rest })
  | some k :: rest => (some (min (k + 1) size), { f with plan := rest })

/-- The effect of writing at a particular position. A gap is filled. -/
def overwrite [Inhabited α] (content : List α) (pos : ℕ) (data : List α) : List α :=
  if data = [] then content
  else (content ++ List.replicate (pos - content.length) default).take pos ++ data ++ content.drop (pos + data.length)

/-- `File::try_read_some()` (`/repo/src/archon/core/file.cpp:129-170`, `/repo/src/archon/core/file.hpp:919-928`). -/
def File.readSome (f : File α) (size : ℕ) : Option (List α) × File α :=
  if f.readable then
    match f.grant size with
    | (none, f) => (none, f)
    | (some n, f) => let l := (f.content.drop f.pos).take n; (some l, { f with pos := f.pos + l.length })
  else (none, f)

/-- `File::try_write_some()` (`/repo/src/archon/core/file.cpp:174-218`, `/repo/src/archon/core/file.hpp:931-940`). -/
def File.writeSome [Inhabited α] (f : File α) (data : List α) : Option ℕ × File α :=
  if f.writable then
    match f.grant data.length with
    | (none, f) => (none, f)
    | (some n, f) => (some n, { f with content := overwrite f.content f.pos (data.take n), pos := f.pos + n })
  else (none, f)

/-- `File::try_write()` (`/repo/src/archon/core/file.cpp:109-125`). The first number is a bound on the number of iterations, and the second
one is the amount that was written so far. -/
def File.writeLoop [Inhabited α] : ℕ → ℕ → File α → List α → Option (Bool × ℕ × File α)
  | 0, _, _, _ => none
  | fuel + 1, done, f, data =>
    match f.writeSome data with
    | (some n, f) => if n < data.length then writeLoop fuel (done + n) f (data.drop n) else some (true, done + data.length, f)
    | (none, f) => some (false, done, f)

/-- `File::try_write()` (`/repo/src/archon/core/file.cpp:109-125`). -/
def File.write [Inhabited α] (f : File α) (data : List α) : Option (Bool × ℕ × File α) := f.writeLoop (data.length + 1) 0 data

/-- `File::try_seek()` with `Whence::set` (`/repo/src/archon/core/file.cpp:222-290`). -/
def File.seekSet (f : File α) (pos : ℕ) : Bool × File α :=
  match f.grant 0 with
  | (none, f) => (false, f)
  | (some _, f) => (true, { f with pos := pos })

/-- `File::try_seek()` with `Whence::cur` and a nonpositive offset (`/repo/src/archon/core/file.cpp:222-290`). It fails if the resulting
position would be negative. -/
def File.seekBack (f : File α) (n : ℕ) : Option ℕ × File α :=
  match f.grant 0 with
  | (none, f) => (none, f)
  | (some _, f) => if n ≤ f.pos then (some (f.pos - n), { f with pos := f.pos - n }) else (none, f)

/-! ## Implementations of text files -/

/-- The operations of a text file implementation that are used for writing
(`/repo/src/archon/core/text_file_impl_concept.hpp:79-127`). The second argument of `write` is the initial value of the variable that
receives the number of characters written. -/
structure WriteOps (α σ : Type) where
  write : σ → ℕ → List α → Option (Bool × ℕ × σ)
  flush : σ → Option (Bool × σ)
  tellWrite : σ → Option (Option ℕ × σ)

/-- The operations of a text file implementation (`/repo/src/archon/core/text_file_impl_concept.hpp:79-127`). `unshift()` has no effect for
the implementations that are considered. -/
structure Impl (α σ : Type) extends WriteOps α σ where
  reopen : σ → File α → σ
  readAhead : σ → ℕ → Option (Option (List α) × σ)
  advance : σ → ℕ → Option σ
  advanceAll : σ → Option σ
  discard : σ → Option (Bool × σ)
  tellRead : σ → Option (Option ℕ × σ)
  seek : σ → ℕ → Option (Bool × σ)

/-- `PrimPosixTextFileImpl` (`/repo/src/archon/core/impl/prim_text_file_impl.hpp:52-89`). -/
structure Prim (α : Type) where
  file : File α
  retain : ℕ := 0
  reading : Bool := false
  writing : Bool := false

/-- `PrimPosixTextFileImpl::write()` (`/repo/src/archon/core/impl/prim_text_file_impl.hpp:180-188`). -/
def Prim.write [Inhabited α] (s : Prim α) (data : List α) : Option (Bool × ℕ × Prim α) :=
  if s.reading then none
  else do
    let (ok, n, file) ← s.file.write data
    some (ok, n, { s with file, writing := true })

/-- `PrimPosixTextFileImpl::flush()` (`/repo/src/archon/core/impl/prim_text_file_impl.hpp:212-219`). -/
def Prim.flush (s : Prim α) : Option (Bool × Prim α) := if s.reading then none else some (true, { s with writing := false })

/-- `PrimPosixTextFileImpl::tell_write()` (`/repo/src/archon/core/impl/prim_text_file_impl.hpp:243-250`). -/
def Prim.tellWrite (s : Prim α) : Option (Option ℕ × Prim α) :=
  if s.reading then none else let r := s.file.seekBack 0; some (r.1, { s with file := r.2 })

/-- `PrimPosixTextFileImpl::reset()` (`/repo/src/archon/core/impl/prim_text_file_impl.hpp:169-177`) after the file was replaced. -/
def Prim.reopen (_ : Prim α) (file : File α) : Prim α := ⟨file, 0, false, false⟩

/-- `PrimPosixTextFileImpl::read_ahead()` (`/repo/src/archon/core/impl/prim_text_file_impl.cpp:46-66`). -/
def Prim.readAhead (s : Prim α) (size : ℕ) : Option (Option (List α) × Prim α) :=
  if s.writing then none
  else match s.file.readSome size with
    | (some l, file) => some (some l, { s with file, retain := s.retain + l.length, reading := true })
    | (none, file) => some (none, { s with file, reading := true })

/-- `PrimPosixTextFileImpl::advance()` with an argument (`/repo/src/archon/core/impl/prim_text_file_impl.hpp:201-209`). -/
def Prim.advance (s : Prim α) (n : ℕ) : Option (Prim α) := if s.writing || decide (s.retain < n) then none else some { s with retain := s.retain - n }

/-- `PrimPosixTextFileImpl::advance()` (`/repo/src/archon/core/impl/prim_text_file_impl.hpp:191-198`). -/
def Prim.advanceAll (s : Prim α) : Option (Prim α) := if s.writing then none else some { s with retain := 0 }

/-- `PrimPosixTextFileImpl::discard()` (`/repo/src/archon/core/impl/prim_text_file_impl.cpp:69-93`). -/
def Prim.discard (s : Prim α) : Option (Bool × Prim α) :=
  if s.writing then none
  else if s.retain > 0 then
    match s.file.seekBack s.retain with
    | (some _, file) => some (true, { s with file, retain := 0, reading := false })
    | (none, file) => some (false, { s with file })
  else some (true, { s with reading := false })

/-- `PrimPosixTextFileImpl::tell_read()` (`/repo/src/archon/core/impl/prim_text_file_impl.hpp:222-240`). -/
def Prim.tellRead (s : Prim α) : Option (Option ℕ × Prim α) :=
  if s.writing then none
  else match s.file.seekBack 0 with
    | (some pos, file) => some (some (if s.retain ≤ pos then pos - s.retain else 0), { s with file })
    | (none, file) => some (none, { s with file })

/-- `PrimPosixTextFileImpl::seek()` (`/repo/src/archon/core/impl/prim_text_file_impl.hpp:253-268`). -/
def Prim.seek (s : Prim α) (pos : ℕ) : Option (Bool × Prim α) :=
  if s.writing then none
  else match s.file.seekSet pos with
    | (true, file) => some (true, { s with file, retain := 0, reading := false })
    | (false, file) => some (false, { s with file })

/-- `TextFileImpl1` on top of `PrimPosixTextFileImpl` (`/repo/src/archon/core/impl/text_file_impl.hpp:46-88` and `246-346`), i.e., the case of
a degenerate character codec, where all operations are forwarded. -/
def prim [Inhabited α] : Impl α (Prim α) where
  write s _ data := s.write data
  flush := Prim.flush
  tellWrite := Prim.tellWrite
  reopen := Prim.reopen
  readAhead := Prim.readAhead
  advance := Prim.advance
  advanceAll := Prim.advanceAll
  discard := Prim.discard
  tellRead := Prim.tellRead
  seek := Prim.seek

/-! ## Buffering -/

/-- `BufferedTextFileImpl` (`/repo/src/archon/core/impl/buffered_text_file_impl.hpp:41-134`). `data` is the contents of the buffer from the
beginning until `m_end`, `size` is the size of the buffer, and `start` is `m_begin`. -/
structure Buffered (α σ : Type) where
  sub : σ
  data : List α := []
  size : ℕ
  start : ℕ := 0
  offset : ℕ := 0
  curr : ℕ := 0
  reading : Bool := false
  writing : Bool := false

/-- `BufferedTextFileImpl::BufferedTextFileImpl()` (`/repo/src/archon/core/impl/buffered_text_file_impl.hpp:145-152`). -/
def Buffered.new (sub : σ) (size : ℕ) : Buffered α σ := { sub, size := max size 1 }

/-- `BufferedTextFileImpl::shallow_flush()` (`/repo/src/archon/core/impl/buffered_text_file_impl.hpp:448-465`). -/
def Buffered.shallowFlush (W : WriteOps α σ) (s : Buffered α σ) : Option (Bool × Buffered α σ) :=
  if s.reading || decide (s.data.length < s.start) then none
  else do
    let (ok, n, sub) ← W.write s.sub 0 (s.data.drop s.start)
    if ok then some (true, { s with sub, data := [], start := 0 }) else some (false, { s with sub, start := s.start + n })

/-- The loop in `BufferedTextFileImpl::write()` (`/repo/src/archon/core/impl/buffered_text_file_impl.hpp:267-294`). The first number is a
bound on the number of iterations, and the second one is the size of the original data. -/
def Buffered.writeLoop (W : WriteOps α σ) : ℕ → ℕ → Buffered α σ → List α → Option (Bool × ℕ × Buffered α σ)
  | 0, _, _, _ => none
  | fuel + 1, total, s, data =>
    let capacity := s.size - s.data.length
    let n := min data.length capacity
    let s := { s with data := s.data ++ data.take n }
    if data.length ≤ capacity then some (true, total, s)
    else do
      let data := data.drop n
      let (ok, s) ← s.shallowFlush W
      if ok then if s.data.length = 0 then writeLoop W fuel total s data else none
      else some (false, total - data.length, s)

/-- `BufferedTextFileImpl::write()` (`/repo/src/archon/core/impl/buffered_text_file_impl.hpp:267-294`). -/
def Buffered.write (W : WriteOps α σ) (s : Buffered α σ) (data : List α) : Option (Bool × ℕ × Buffered α σ) :=
  if s.reading || decide (s.size = 0) then none else Buffered.writeLoop W (data.length + 2) data.length { s with writing := true } data

/-- `BufferedTextFileImpl::flush()` (`/repo/src/archon/core/impl/buffered_text_file_impl.hpp:363-384`). -/
def Buffered.flush (W : WriteOps α σ) (s : Buffered α σ) : Option (Bool × Buffered α σ) :=
  if s.offset ≠ 0 ∨ s.curr ≠ 0 then none
  else do
    let (ok, s) ← s.shallowFlush W
    if ok then do
      let (ok, sub) ← W.flush s.sub
      if ok then some (true, { s with sub, writing := false }) else some (false, { s with sub })
    else do
      let (_, sub) ← W.flush s.sub
      some (false, { s with sub })

/-- `BufferedTextFileImpl::tell_write()` (`/repo/src/archon/core/impl/buffered_text_file_impl.hpp:401-412`). -/
def Buffered.tellWrite (W : WriteOps α σ) (s : Buffered α σ) : Option (Option ℕ × Buffered α σ) :=
  if s.reading then none
  else do
    let (ok, s) ← if s.start = s.data.length then some (true, s) else s.shallowFlush W
    if ok then do
      let (pos, sub) ← W.tellWrite s.sub
      some (pos, { s with sub })
    else some (none, s)

/-- `BufferedTextFileImpl::reset()` (`/repo/src/archon/core/impl/buffered_text_file_impl.hpp:155-169`) after the file was replaced. -/
def Buffered.reopen (I : Impl α σ) (s : Buffered α σ) (file : File α) : Buffered α σ := { sub := I.reopen s.sub file, size := s.size }

/-- Copying of characters in `BufferedTextFileImpl::read_ahead()`
(`/repo/src/archon/core/impl/buffered_text_file_impl.hpp:172-219`). -/
def Buffered.copyOut (s : Buffered α σ) (size : ℕ) : Option (Option (List α) × Buffered α σ) :=
  let n := min size (s.data.length - s.curr)
  if n = 0 then none else some (some ((s.data.drop s.curr).take n), { s with curr := s.curr + n })

/-- `BufferedTextFileImpl::read_ahead()` (`/repo/src/archon/core/impl/buffered_text_file_impl.hpp:172-219`). `grow` is the size of the buffer
after expansion. -/
def Buffered.readAhead (I : Impl α σ) (grow : ℕ → ℕ) (s : Buffered α σ) (size : ℕ) : Option (Option (List α) × Buffered α σ) :=
  if s.writing then none
  else
    let s := { s with reading := true }
    if size > 0 then
      if s.curr < s.data.length then s.copyOut size
      else if s.start < s.offset then none
      else do
        let sub ← I.advance s.sub (s.start - s.offset)
        let data := s.data.drop s.start
        let size' := if data.length = s.size then grow s.size else s.size
        let s := { s with sub, data, size := size', start := 0, offset := 0, curr := s.curr - s.start }
        let (r, sub) ← I.readAhead s.sub (s.size - s.data.length)
        let s := { s with sub }
        match r with
        | none => some (none, s)
        | some [] => some (some [], s)
        | some l => ({ s with data := s.data ++ l } : Buffered α σ).copyOut size
    else some (some [], s)

/-- `BufferedTextFileImpl::advance()` with an argument (`/repo/src/archon/core/impl/buffered_text_file_impl.hpp:325-335`). -/
def Buffered.advance (s : Buffered α σ) (n : ℕ) : Option (Buffered α σ) :=
  if s.writing || decide (s.curr < s.start) || decide (s.curr - s.start < n) then none else some { s with start := s.start + n }

/-- `BufferedTextFileImpl::advance()` (`/repo/src/archon/core/impl/buffered_text_file_impl.hpp:313-322`). -/
def Buffered.advanceAll (s : Buffered α σ) : Option (Buffered α σ) :=
  if s.writing || decide (s.curr < s.start) then none else some { s with start := s.curr }

/-- `BufferedTextFileImpl::discard()` (`/repo/src/archon/core/impl/buffered_text_file_impl.hpp:338-360`). -/
def Buffered.discard (I : Impl α σ) (s : Buffered α σ) : Option (Bool × Buffered α σ) :=
  if s.writing || decide (s.start < s.offset) then none
  else do
    let sub ← I.advance s.sub (s.start - s.offset)
    let (ok, sub) ← I.discard sub
    if ok then some (true, { s with sub, data := [], start := 0, offset := 0, curr := 0, reading := false })
    else some (false, { s with sub, offset := s.start })

/-- `BufferedTextFileImpl::tell_read()` (`/repo/src/archon/core/impl/buffered_text_file_impl.hpp:387-398`). -/
def Buffered.tellRead (I : Impl α σ) (s : Buffered α σ) : Option (Option ℕ × Buffered α σ) :=
  if s.writing || decide (s.start < s.offset) then none
  else do
    let sub ← I.advance s.sub (s.start - s.offset)
    let (pos, sub) ← I.tellRead sub
    some (pos, { s with sub, offset := s.start })

/-- `BufferedTextFileImpl::seek()` (`/repo/src/archon/core/impl/buffered_text_file_impl.hpp:415-433`). -/
def Buffered.seek (I : Impl α σ) (s : Buffered α σ) (pos : ℕ) : Option (Bool × Buffered α σ) :=
  if s.writing then none
  else do
    let (ok, sub) ← I.seek s.sub pos
    if ok then some (true, { s with sub, data := [], start := 0, offset := 0, curr := 0, reading := false })
    else some (false, { s with sub })

/-- The operations of `BufferedTextFileImpl` on top of another implementation. -/
def buffered (I : Impl α σ) (grow : ℕ → ℕ) : Impl α (Buffered α σ) where
  write s _ data := s.write I.toWriteOps data
  flush := Buffered.flush I.toWriteOps
  tellWrite := Buffered.tellWrite I.toWriteOps
  reopen := Buffered.reopen I
  readAhead := Buffered.readAhead I grow
  advance := Buffered.advance
  advanceAll := Buffered.advanceAll
  discard := Buffered.discard I
  tellRead := Buffered.tellRead I
  seek := Buffered.seek I

/-! ## Text files -/

/-- `GenericTextFile` (`/repo/src/archon/core/text_file.hpp:73-244`). -/
structure Text (σ : Type) where
  impl : σ
  reading : Bool := false
  writing : Bool := false

/-- `GenericTextFile::stop_reading()` (`/repo/src/archon/core/text_file.hpp:731-742`). -/
def Text.stopReading (I : Impl α σ) (s : Text σ) : Option (Bool × Text σ) :=
  if !s.reading || s.writing then none
  else do
    let impl ← I.advanceAll s.impl
    let (ok, impl) ← I.discard impl
    if ok then some (true, { s with impl, reading := false }) else some (false, { s with impl })

/-- `GenericTextFile::stop_writing()` (`/repo/src/archon/core/text_file.hpp:745-770`) for an implementation where `unshift()` has no
effect. -/
def Text.stopWriting (W : WriteOps α σ) (s : Text σ) : Option (Bool × Text σ) :=
  if s.reading || !s.writing then none
  else do
    let (ok, impl) ← W.flush s.impl
    if ok then some (true, { s with impl, writing := false }) else some (false, { s with impl })

/-- `GenericTextFile::do_read_some()` (`/repo/src/archon/core/text_file.hpp:773-779`). -/
def Text.doReadSome (I : Impl α σ) (s : Text σ) (size : ℕ) : Option (Option (List α) × Text σ) :=
  if s.writing then none
  else do
    let impl ← I.advanceAll s.impl
    let (r, impl) ← I.readAhead impl size
    some (r, { s with impl })

/-- The loop in `GenericTextFile::try_read()` (`/repo/src/archon/core/text_file.hpp:525-549`). The last argument is what was read so far. -/
def Text.readLoop (I : Impl α σ) : ℕ → Text σ → ℕ → List α → Option (Bool × List α × Text σ)
  | 0, _, _, _ => none
  | fuel + 1, s, size, acc => do
    let (r, s) ← s.doReadSome I size
    match r with
    | some l =>
      if size < l.length then none
      else if l.length > 0 ∧ l.length < size then Text.readLoop I fuel s (size - l.length) (acc ++ l)
      else some (true, acc ++ l, s)
    | none => some (false, acc, s)

/-- `GenericTextFile::try_read()` (`/repo/src/archon/core/text_file.hpp:525-549`). -/
def Text.tryRead (I : Impl α σ) (s : Text σ) (size : ℕ) : Option (Bool × List α × Text σ) :=
  if !s.writing then Text.readLoop I (size + 1) { s with reading := true } size []
  else do
    let (ok, s) ← s.stopWriting I.toWriteOps
    if ok then Text.readLoop I (size + 1) { s with reading := true } size [] else some (false, [], s)

/-- `GenericTextFile::try_write()` (`/repo/src/archon/core/text_file.hpp:552-564`). -/
def Text.tryWrite (I : Impl α σ) (s : Text σ) (n : ℕ) (data : List α) : Option (Bool × ℕ × Text σ) := do
  let (ok, s) ← if !s.reading then some (true, s) else s.stopReading I
  if ok then do
    let (ok, n, impl) ← I.write s.impl n data
    some (ok, n, { s with impl, writing := true })
  else some (false, 0, s)

/-- `GenericTextFile::try_read_some()` (`/repo/src/archon/core/text_file.hpp:567-578`). -/
def Text.tryReadSome (I : Impl α σ) (s : Text σ) (size : ℕ) : Option (Option (List α) × Text σ) :=
  if !s.writing then ({ s with reading := true } : Text σ).doReadSome I size
  else do
    let (ok, s) ← s.stopWriting I.toWriteOps
    if ok then ({ s with reading := true } : Text σ).doReadSome I size else some (none, s)

/-- `GenericTextFile::try_read_all()` (`/repo/src/archon/core/text_file.hpp:581-597`). The size of the buffer after expansion depends on
what it contains. The first number is a bound on the number of iterations. -/
def Text.tryReadAll (I : Impl α σ) (space : List α → ℕ) : ℕ → Text σ → List α → Option (Bool × List α × Text σ)
  | 0, _, _ => none
  | fuel + 1, s, acc => do
    let (ok, l, s) ← s.tryRead I (space acc)
    if ok then if l.length > 0 then Text.tryReadAll I space fuel s (acc ++ l) else some (true, acc ++ l, s)
    else some (false, acc ++ l, s)

/-- `GenericTextFile::try_flush()` (`/repo/src/archon/core/text_file.hpp:614-620`). -/
def Text.tryFlush (W : WriteOps α σ) (s : Text σ) : Option (Bool × Text σ) := if s.writing then s.stopWriting W else some (true, s)

/-- `GenericTextFile::try_tell()` (`/repo/src/archon/core/text_file.hpp:623-630`). -/
def Text.tryTell (I : Impl α σ) (s : Text σ) : Option (Option ℕ × Text σ) :=
  if !s.reading then do
    let (r, impl) ← I.tellWrite s.impl
    some (r, { s with impl })
  else do
    let impl ← I.advanceAll s.impl
    let (r, impl) ← I.tellRead impl
    some (r, { s with impl })

/-- `GenericTextFile::try_seek()` (`/repo/src/archon/core/text_file.hpp:633-647`). -/
def Text.trySeek (I : Impl α σ) (s : Text σ) (pos : ℕ) : Option (Bool × Text σ) := do
  let (ok, s) ← if s.writing then s.stopWriting I.toWriteOps else some (true, s)
  if ok then do
    let (ok, impl) ← I.seek s.impl pos
    if ok then some (true, { s with impl, reading := false }) else some (false, { s with impl })
  else some (false, s)

/-- `GenericTextFile::open()` and `GenericTextFile::try_open()` (`/repo/src/archon/core/text_file.hpp:385-390` and `500-522`) when the file
was opened successfully. -/
def Text.open (I : Impl α σ) (s : Text σ) (file : File α) : Text σ := { s with impl := I.reopen s.impl file }

/-! ## Character codecs -/

/-- The part of `TextFileImpl2` that is relevant for writing (`/repo/src/archon/core/impl/text_file_impl.hpp:93-220`), for the case of a
codec without shift states. `data` is the contents of the buffer until `m_end`. -/
structure Coded (β σ : Type) where
  prim : σ
  data : List β := []
  size : ℕ
  start : ℕ := 0

/-- `encode()` of a character codec without shift states and without encoding errors
(`/repo/src/archon/core/char_codec_concept.hpp:180-230`): as many characters are encoded as there is room for. The result is the buffer, and
the remaining characters. -/
def encode {β : Type} (enc : α → List β) (size : ℕ) : List β → List α → List β × List α
  | data, [] => (data, [])
  | data, c :: rest => if data.length + (enc c).length ≤ size then encode enc size (data ++ enc c) rest else (data, c :: rest)

/-- `TextFileImpl2::shallow_flush()` (`/repo/src/archon/core/impl/text_file_impl.hpp:681-698`). -/
def Coded.shallowFlush {β : Type} (W : WriteOps β σ) (s : Coded β σ) : Option (Bool × Coded β σ) :=
  if s.data.length < s.start then none
  else do
    let (ok, n, prim) ← W.write s.prim 0 (s.data.drop s.start)
    if ok then some (true, { s with prim, data := [], start := 0 }) else some (false, { s with prim, start := s.start + n })

/-- The loop in `TextFileImpl2::write()` (`/repo/src/archon/core/impl/text_file_impl.hpp:439-469`). The first number is a bound on the number
of iterations, the second is the initial value of `n`, and the third is the size of the original data. -/
def Coded.writeLoop {β : Type} (W : WriteOps β σ) (enc : α → List β) (grow : ℕ → ℕ) :
    ℕ → ℕ → ℕ → Coded β σ → List α → Option (Bool × ℕ × Coded β σ)
  | 0, _, _, _, _ => none
  | fuel + 1, n, total, s, data =>
    let (buf, data) := encode enc s.size s.data data
    let s := { s with data := buf }
    if data = [] then some (true, total, s)
    else if s.data.length > 0 then do
      let (ok, s) ← s.shallowFlush W
      if ok then Coded.writeLoop W enc grow fuel n total s data else some (false, n, s)
    else Coded.writeLoop W enc grow fuel n total { s with size := grow s.size } data

/-- `TextFileImpl2::flush()` (`/repo/src/archon/core/impl/text_file_impl.hpp:556-578`). -/
def Coded.flush {β : Type} (W : WriteOps β σ) (s : Coded β σ) : Option (Bool × Coded β σ) := do
  let (ok, s) ← s.shallowFlush W
  let (ok', prim) ← W.flush s.prim
  some (ok && ok', { s with prim })

/-- The operations of `TextFileImpl2` that are used for writing. The number is a bound on the number of iterations. Telling the position is
not modelled. -/
def coded {β : Type} (W : WriteOps β σ) (enc : α → List β) (grow : ℕ → ℕ) (fuel : ℕ) : WriteOps α (Coded β σ) where
  write s n data := Coded.writeLoop W enc grow fuel n data.length s data
  flush := Coded.flush W
  tellWrite s := some (none, s)

end Verif.TextFile
