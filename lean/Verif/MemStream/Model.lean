import Verif.Buffer.Model

/-!
# Model of stream buffers that read from, and write to memory

Source: `/repo/src/archon/core/memory_output_stream.hpp`, `/repo/src/archon/core/memory_input_stream.hpp`,
and `/repo/src/archon/core/seed_memory_output_stream.hpp`.

Simplifications.

* The character type is an arbitrary type `α`. The pointers that delimit the put and get areas are
  represented by offsets into the memory.
* The functions of `std::basic_streambuf` that are not overridden are modelled as the C++ standard
  defines them (C++20 [streambuf]): `sputc()`, `sputn()`, `sgetc()`, `sbumpc()`, `sgetn()`,
  `sputbackc()`, and `sungetc()`.
* The stream objects, with their error states, are not modelled, only the stream buffers.
* A stream position (`pos_type`) is an offset and a conversion state, and all that matters about the
  latter is whether it is the initial one.
* The checked arithmetic functions of `integer.hpp` are represented by their meaning (see
  `Verif.Integer`).
-/

namespace Verif.MemStream

variable {α : Type}

/-- Limits: `M` is the greatest value of `std::size_t`, `O` is the greatest value of `off_type` (which
is signed), and `I` is the greatest value of `int`. -/
structure Limits where
  M : Nat
  O : Nat
  I : Nat

/-- The way in which `reset()` and the constructors fail. -/
inductive ResetErr where
  | assertion
  | bufferSize
  deriving DecidableEq

/-- Direction of seek (`std::ios_base::seekdir`). -/
inductive Dir where
  | beg
  | cur
  | «end»
  deriving DecidableEq

/-- Argument of type `std::ios_base::openmode`. -/
structure Which where
  input : Bool
  output : Bool
  other : Bool
  deriving DecidableEq

/-- `std::ios_base::in` -/
def Which.in : Which := ⟨true, false, false⟩

/-- `std::ios_base::out` -/
def Which.out : Which := ⟨false, true, false⟩

/-- `core::try_int_add(pos, off)` where `pos` is of type `std::size_t`, and `off` is of type `off_type`
(`/repo/src/archon/core/memory_output_stream.hpp:366`). -/
def tryIntAdd (L : Limits) (pos : Nat) (off : Int) : Option Nat :=
  let r := (pos : Int) + off
  if 0 ≤ r ∧ r ≤ L.M then some r.toNat else none

/-- `core::try_int_cast(off, pos)` where `off` is of type `off_type` and `pos` is of type
`std::size_t` (`/repo/src/archon/core/memory_output_stream.hpp:378`). -/
def tryIntCast (L : Limits) (off : Int) : Option Nat :=
  if 0 ≤ off ∧ off ≤ L.M then some off.toNat else none

/-! ### Output to memory of fixed size -/

/-- State of `BasicMemoryOutputStreambuf`: The memory, the offset of the put pointer (`get_pos()`), and
`m_size_x` (`/repo/src/archon/core/memory_output_stream.hpp:186`). The put area is all of the memory. -/
structure OutBuf (α : Type) where
  mem : List α
  pos : Nat
  sizeX : Nat

/-- `BasicMemoryOutputStreambuf()` (`/repo/src/archon/core/memory_output_stream.hpp:282-285`). -/
def OutBuf.default : OutBuf α := ⟨[], 0, 0⟩

/-- `BasicMemoryOutputStreambuf::reset()` and the constructor that takes the same arguments
(`/repo/src/archon/core/memory_output_stream.hpp:289-311`). When it fails, the previous state of the
stream buffer is left as it was. -/
def OutBuf.reset (L : Limits) (memory : List α) (size : Nat) : Except ResetErr (OutBuf α) :=
  let capacity := memory.length
  if ¬ capacity ≥ size then .error .assertion
  else if capacity > L.O then .error .bufferSize
  else .ok ⟨memory, 0, if size > capacity then capacity else size⟩

/-- `get_size()` (`/repo/src/archon/core/memory_output_stream.hpp:336-340`). -/
def OutBuf.getSize (b : OutBuf α) : Nat := max b.sizeX b.pos

/-- `view()` (`/repo/src/archon/core/memory_output_stream.hpp:344-347`). -/
def OutBuf.view (b : OutBuf α) : List α := b.mem.take b.getSize

/-- The arguments that the first part of `set_pos()` passes to `pbump()` when the put pointer must be
moved by `n` in either direction (`/repo/src/archon/core/memory_output_stream.hpp:416-438`). The first
argument is fuel. -/
def bumpsGe (I : Nat) : Nat → Nat → List Nat
  | 0, _ => []
  | fuel + 1, n => if n ≥ I then I :: bumpsGe I fuel (n - I) else [n]

/-- `set_pos()` (`/repo/src/archon/core/memory_output_stream.hpp:413-440`). The result is the new offset
of the put pointer. -/
def OutBuf.setPos (L : Limits) (b : OutBuf α) (pos : Nat) : Nat :=
  if pos ≥ b.pos then
    (bumpsGe L.I (pos - b.pos + 1) (pos - b.pos)).foldl (· + ·) b.pos
  else
    (bumpsGe L.I (b.pos - pos + 1) (b.pos - pos)).foldl (· - ·) b.pos

/-- `seek()` (`/repo/src/archon/core/memory_output_stream.hpp:386-409`) with `update_and_get_size_x()`
(lines 444-453). The result is the new position, or `none` if the seek fails. `zero` is `C()`. -/
def OutBuf.seek (L : Limits) (zero : α) (b : OutBuf α) (pos : Nat) : Option Nat × OutBuf α :=
  let capacity := b.mem.length
  if pos ≤ capacity then
    let size := if b.pos > b.sizeX then b.pos else b.sizeX
    let b := { b with sizeX := size }
    let b :=
      if pos ≥ size then
        { b with mem := b.mem.take size ++ List.replicate (pos - size) zero ++ b.mem.drop pos }
      else
        b
    (some pos, { b with pos := b.setPos L pos })
  else
    (none, b)

/-- `seekoff()` (`/repo/src/archon/core/memory_output_stream.hpp:351-370`). -/
def OutBuf.seekoff (L : Limits) (zero : α) (b : OutBuf α) (off : Int) (dir : Dir) (which : Which) :
    Option Nat × OutBuf α :=
  if which = Which.out then
    let pos := match dir with
      | .end => b.getSize
      | .cur => b.pos
      | .beg => 0
    match tryIntAdd L pos off with
    | some pos => b.seek L zero pos
    | none => (none, b)
  else
    (none, b)

/-- `seekpos()` (`/repo/src/archon/core/memory_output_stream.hpp:374-382`). -/
def OutBuf.seekpos (L : Limits) (zero : α) (b : OutBuf α) (off : Int) (initState : Bool)
    (which : Which) : Option Nat × OutBuf α :=
  if initState ∧ which = Which.out then
    match tryIntCast L off with
    | some pos => b.seek L zero pos
    | none => (none, b)
  else
    (none, b)

/-- `std::basic_streambuf::sputc()`. The function `overflow()` is not overridden, so it fails. The result
is whether the character was written. -/
def OutBuf.sputc (b : OutBuf α) (ch : α) : Bool × OutBuf α :=
  if b.pos < b.mem.length then
    (true, { b with mem := b.mem.set b.pos ch, pos := b.pos + 1 })
  else
    (false, b)

/-- `std::basic_streambuf::sputn()`, which writes characters until `overflow()` fails. The result is the
number of characters written. -/
def OutBuf.sputn (b : OutBuf α) : List α → Nat × OutBuf α
  | [] => (0, b)
  | ch :: s =>
    match b.sputc ch with
    | (true, b) => let r := b.sputn s; (r.1 + 1, r.2)
    | (false, b) => (0, b)

/-! ### Input from memory -/

/-- State of `BasicMemoryInputStreambuf`: The memory, and the offset of the get pointer. -/
structure InBuf (α : Type) where
  mem : List α
  pos : Nat

/-- `BasicMemoryInputStreambuf()` (`/repo/src/archon/core/memory_input_stream.hpp:213-216`). -/
def InBuf.default : InBuf α := ⟨[], 0⟩

/-- `BasicMemoryInputStreambuf::reset()` and the constructor that takes the same argument
(`/repo/src/archon/core/memory_input_stream.hpp:220-240`). -/
def InBuf.reset (L : Limits) (memory : List α) : Except ResetErr (InBuf α) :=
  if memory.length > L.O then .error .bufferSize else .ok ⟨memory, 0⟩

/-- `view()` (`/repo/src/archon/core/memory_input_stream.hpp:244-247`). -/
def InBuf.view (b : InBuf α) : List α := b.mem

/-- `seek()` (`/repo/src/archon/core/memory_input_stream.hpp:293-310`). -/
def InBuf.seek (b : InBuf α) (pos : Nat) : Option Nat × InBuf α :=
  let size := b.mem.length
  if pos ≤ size then (some pos, { b with pos := pos }) else (none, b)

/-- `seekoff()` (`/repo/src/archon/core/memory_input_stream.hpp:258-277`). -/
def InBuf.seekoff (L : Limits) (b : InBuf α) (off : Int) (dir : Dir) (which : Which) :
    Option Nat × InBuf α :=
  if which = Which.in then
    let pos := match dir with
      | .end => b.mem.length
      | .cur => b.pos
      | .beg => 0
    match tryIntAdd L pos off with
    | some pos => b.seek pos
    | none => (none, b)
  else
    (none, b)

/-- `seekpos()` (`/repo/src/archon/core/memory_input_stream.hpp:281-289`). -/
def InBuf.seekpos (L : Limits) (b : InBuf α) (off : Int) (initState : Bool) (which : Which) :
    Option Nat × InBuf α :=
  if initState ∧ which = Which.in then
    match tryIntCast L off with
    | some pos => b.seek pos
    | none => (none, b)
  else
    (none, b)

/-- `std::basic_streambuf::sbumpc()`. The function `underflow()` is not overridden, so it fails. -/
def InBuf.sbumpc (b : InBuf α) : Option α × InBuf α :=
  match b.mem[b.pos]? with
  | some ch => (some ch, { b with pos := b.pos + 1 })
  | none => (none, b)

/-- `std::basic_streambuf::sgetc()`. -/
def InBuf.sgetc (b : InBuf α) : Option α := b.mem[b.pos]?

/-- `std::basic_streambuf::sgetn()`, which reads characters until `uflow()` fails. -/
def InBuf.sgetn (b : InBuf α) : Nat → List α × InBuf α
  | 0 => ([], b)
  | n + 1 =>
    match b.sbumpc with
    | (some ch, b) => let r := b.sgetn n; (ch :: r.1, r.2)
    | (none, b) => ([], b)

/-- `std::basic_streambuf::sputbackc()`. The function `pbackfail()` is not overridden, so it fails. -/
def InBuf.sputbackc [DecidableEq α] (b : InBuf α) (ch : α) : Bool × InBuf α :=
  if b.pos > 0 ∧ b.mem[b.pos - 1]? = some ch then
    (true, { b with pos := b.pos - 1 })
  else
    (false, b)

/-- `std::basic_streambuf::sungetc()`. -/
def InBuf.sungetc (b : InBuf α) : Bool × InBuf α :=
  if b.pos > 0 then (true, { b with pos := b.pos - 1 }) else (false, b)

/-! ### Output to expanding memory -/

/-- State of `BasicSeedMemoryStreambuf`: The memory that is currently in use, where an element is `none`
when it has not been initialized, the offset of the put pointer (`size()`), whether the memory in use is
other than the seed memory (`m_memory != m_seed_memory`), and the number of memory blocks that have been
allocated, but not yet deallocated. The end of the put area is the end of the memory. -/
structure SeedBuf (α : Type) where
  mem : List (Option α)
  used : Nat
  owned : Bool
  live : Nat

/-- Ways in which an operation can fail. Except in case of undefined behavior, operations fail before
they change anything. -/
inductive SeedErr where
  | badAlloc
  | lengthError
  | ub
  deriving DecidableEq

/-- `BasicSeedMemoryStreambuf(seed_memory)`
(`/repo/src/archon/core/seed_memory_output_stream.hpp:204-224`). -/
def SeedBuf.create (seed : List (Option α)) : SeedBuf α := ⟨seed, 0, false, 0⟩

/-- `view()` (`/repo/src/archon/core/seed_memory_output_stream.hpp:249-252`). -/
def SeedBuf.view (b : SeedBuf α) : List (Option α) := b.mem.take b.used

/-- `dealloc()` (`/repo/src/archon/core/seed_memory_output_stream.hpp:342-348`). -/
def SeedBuf.dealloc (b : SeedBuf α) : SeedBuf α :=
  if ¬ b.owned then b else { b with live := b.live - 1 }

/-- `do_reserve_extra()` (`/repo/src/archon/core/seed_memory_output_stream.hpp:323-338`). `alloc` says
whether allocation of memory of a particular size succeeds. The suggestion of a buffer size is that of
`Verif.Buffer`. -/
def SeedBuf.doReserveExtra (L : Limits) (alloc : Nat → Bool) (b : SeedBuf α) (minExtra : Nat) :
    Except SeedErr (SeedBuf α) :=
  let capacity := b.mem.length
  let usedSize := b.used
  if usedSize + minExtra ≤ L.M then
    let minCapacity := usedSize + minExtra
    match Buffer.suggestNewBufferSize capacity minCapacity L.M with
    | .error _ => .error .ub
    | .ok newCapacity =>
      if alloc newCapacity then
        if usedSize ≤ newCapacity ∧ usedSize ≤ b.mem.length then
          let newMem := b.mem.take usedSize ++ List.replicate (newCapacity - usedSize) none
          let b := { b with live := b.live + 1 }
          let b := b.dealloc
          .ok { b with mem := newMem, owned := true }
        else
          .error .ub
      else
        .error .badAlloc
  else
    .error .lengthError

/-- `reserve_extra()` (`/repo/src/archon/core/seed_memory_output_stream.hpp:256-262`). -/
def SeedBuf.reserveExtra (L : Limits) (alloc : Nat → Bool) (b : SeedBuf α) (minExtra : Nat) :
    Except SeedErr (SeedBuf α) :=
  let extra := b.mem.length - b.used
  if extra ≥ minExtra then .ok b else b.doReserveExtra L alloc minExtra

/-- The arguments that `bump_put_ptr()` passes to `pbump()`
(`/repo/src/archon/core/seed_memory_output_stream.hpp:352-365`). The first argument is fuel. -/
def bumpsGt (I : Nat) : Nat → Nat → List Nat
  | 0, _ => []
  | fuel + 1, n => if n > I then I :: bumpsGt I fuel (n - I) else [n]

/-- Placement of characters at the put pointer, and advancement of the put pointer past them by
`bump_put_ptr()` (`/repo/src/archon/core/seed_memory_output_stream.hpp:269-270`, `278-279`). -/
def SeedBuf.place (L : Limits) (b : SeedBuf α) (s : List (Option α)) : Except SeedErr (SeedBuf α) :=
  if b.used + s.length ≤ b.mem.length then
    .ok { b with
      mem := b.mem.take b.used ++ s ++ b.mem.drop (b.used + s.length)
      used := (bumpsGt L.I (s.length + 1) s.length).foldl (· + ·) b.used }
  else
    .error .ub

/-- `append(data, size)` (`/repo/src/archon/core/seed_memory_output_stream.hpp:266-271`). The data must
not be in the memory of the stream buffer. -/
def SeedBuf.append (L : Limits) (alloc : Nat → Bool) (b : SeedBuf α) (s : List α) :
    Except SeedErr (SeedBuf α) := do
  let b ← b.reserveExtra L alloc s.length
  b.place L (s.map some)

/-- `append(size, value)` (`/repo/src/archon/core/seed_memory_output_stream.hpp:275-280`). -/
def SeedBuf.appendFill (L : Limits) (alloc : Nat → Bool) (b : SeedBuf α) (size : Nat) (value : α) :
    Except SeedErr (SeedBuf α) := do
  let b ← b.reserveExtra L alloc size
  b.place L (List.replicate size (some value))

/-- `clear_contents()` (`/repo/src/archon/core/seed_memory_output_stream.hpp:284-288`). -/
def SeedBuf.clearContents (b : SeedBuf α) : SeedBuf α := { b with used := 0 }

/-- `sputn()` by way of `xsputn()` (`/repo/src/archon/core/seed_memory_output_stream.hpp:292-308`), when
the number of characters is less than the greatest value of `std::size_t`, as it is if `std::streamsize`
is no wider than `std::size_t`. -/
def SeedBuf.sputn (L : Limits) (alloc : Nat → Bool) (b : SeedBuf α) (s : List α) :
    Except SeedErr (SeedBuf α) :=
  b.append L alloc s

/-- `overflow()` (`/repo/src/archon/core/seed_memory_output_stream.hpp:312-319`). `none` is the end of
file indicator. -/
def SeedBuf.overflow (L : Limits) (alloc : Nat → Bool) (b : SeedBuf α) (ch : Option α) :
    Except SeedErr (SeedBuf α) := do
  let b ← b.reserveExtra L alloc 1
  if b.used < b.mem.length then
    let b := match ch with
      | some ch => { b with mem := b.mem.set b.used (some ch) }
      | none => b
    .ok { b with used := b.used + 1 }
  else
    .error .ub

/-- `std::basic_streambuf::sputc()`. -/
def SeedBuf.sputc (L : Limits) (alloc : Nat → Bool) (b : SeedBuf α) (ch : α) :
    Except SeedErr (SeedBuf α) :=
  if b.used < b.mem.length then
    .ok { b with mem := b.mem.set b.used (some ch), used := b.used + 1 }
  else
    b.overflow L alloc (some ch)

/-- `~BasicSeedMemoryStreambuf()` (`/repo/src/archon/core/seed_memory_output_stream.hpp:211-214`). The
result is the number of memory blocks that have been allocated, but not deallocated. -/
def SeedBuf.destroy (b : SeedBuf α) : Nat := b.dealloc.live

end Verif.MemStream
