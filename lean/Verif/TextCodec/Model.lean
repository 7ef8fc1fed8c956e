import Verif.Newline.Model
/-!
Model of the encoders and decoders of text codecs: /repo/src/archon/core/impl/text_codec_impl.hpp.

A text codec combines a character codec with translation of newline characters. The character codec is a parameter. Loops are given a bound on
the number of rounds (`fuel`), and the result is `none` when the bound is reached.

A buffer is its contents up to the buffer offset, and its size. `grow` is the size after `Buffer::expand()` for a buffer of the specified size
(buffer.hpp), and it is only known to be larger than the specified size. Exceptions are not modelled. Instead of an offset into the data, there is the
part of the data that remains.
-/
namespace Verif.TextCodec
open Verif.Newline

/-- How an operation of a character codec ends: `complete` if it returns `true`. Otherwise `error` says whether argument `error` is set to
`true`. -/
inductive Status
  | complete
  | space
  | error
deriving DecidableEq, Repr

/-- The outcome of an operation of a character codec: the new shift state, the number of consumed elements, what is placed in the buffer, and how the
operation ends. -/
structure Result (σ β : Type) where
  state : σ
  consumed : Nat
  out : List β
  status : Status

/-- An operation of a character codec (char_codec_concept.hpp:60-87) for a particular codec: the arguments are the shift state, the remaining data, and
the available space in the buffer. -/
abbrev Op (σ α β : Type) := σ → List α → Nat → Result σ β

/-- The state of an encoder or decoder in the course of an operation. -/
structure State (σ α β : Type) where
  state : σ
  data : List α
  buffer : List β
  size : Nat
deriving DecidableEq, Repr

variable {σ α β : Type}

/-- `TextCodecImpl2::Decoder::decode()`: text_codec_impl.hpp:214-228, and `TextCodecImpl2::Encoder::encode()`: text_codec_impl.hpp:250-264. The result
includes what is returned. -/
def loop (op : Op σ α β) (grow : Nat → Nat) : (fuel : Nat) → State σ α β → Option (Bool × State σ α β)
  | 0, _ => none
  | fuel + 1, s =>
    let r := op s.state s.data (s.size - s.buffer.length)
    let s2 := { s with state := r.state, data := s.data.drop r.consumed, buffer := s.buffer ++ r.out }
    match r.status with
    | .complete => some (true, s2)
    | .space => loop op grow fuel { s2 with size := grow s.size }
    | .error => some (false, s2)

/-- `unshift()` of a character codec: the bytes that are placed in the buffer, and whether it returns `true`. -/
structure UnshiftResult (σ β : Type) where
  state : σ
  out : List β
  complete : Bool

/-- `TextCodecImpl2::Encoder::unshift()`: text_codec_impl.hpp:266-274. -/
def unshiftLoop (op : σ → Nat → UnshiftResult σ β) (grow : Nat → Nat) : (fuel : Nat) → State σ α β → Option (State σ α β)
  | 0, _ => none
  | fuel + 1, s =>
    let r := op s.state (s.size - s.buffer.length)
    let s2 := { s with state := r.state, buffer := s.buffer ++ r.out }
    if r.complete then some s2
    else unshiftLoop op grow fuel { s2 with size := grow s.size }

/-- `PrimPosixTextCodecImpl::Copier::copy()`: text_codec_impl.hpp:389-397, which is decoding and encoding on POSIX when the character codec is degenerate
(text_codec_impl.hpp:424-428, 442-446). `reserve` is the size after `Buffer::reserve_extra()` when the buffer is too small. -/
def copy (reserve : Nat → Nat) (s : State Unit α α) : State Unit α α :=
  let n := s.data.length
  let size := if s.buffer.length + n ≤ s.size then s.size else reserve (s.buffer.length + n)
  { s with data := s.data.drop n, buffer := s.buffer ++ s.data.take n, size := size }

/-- `PrimWindowsTextCodecImpl::Encoder::encode()`: text_codec_impl.hpp:505-513. The result is the contents of the buffer, and its size. -/
def windowsEncode (grow : Nat → Nat) : (fuel : Nat) → (data buffer : List Char) → (size : Nat) → Option (List Char × Nat)
  | 0, _, _, _ => none
  | fuel + 1, data, buffer, size =>
    let r := Newline.encodeLoop size data { i := 0, out := buffer }
    if r.i = data.length then some (r.out, size)
    else windowsEncode grow fuel (data.drop r.i) r.out (grow size)

/-- A number of rounds that is sufficient in `windowsEncode`, as is shown. -/
def windowsFuel (data buffer : List Char) : Nat := buffer.length + 2 * data.length + 1

/-- `PrimWindowsTextCodecImpl::Decoder::decode()`: text_codec_impl.hpp:476-487. The result is the remaining data, the contents of the buffer, and its
size. -/
def windowsDecode (grow : Nat → Nat) (endOfData : Bool) : (fuel : Nat) → (data buffer : List Char) → (size : Nat) →
    Option (List Char × List Char × Nat)
  | 0, _, _, _ => none
  | fuel + 1, data, buffer, size =>
    let r := Newline.decodeLoop size endOfData 0 data { i := 0, out := buffer, clear := 0 }
    if r.i = data.length ∨ r.out.length < size then some (data.drop r.i, r.out, size)
    else windowsDecode grow endOfData fuel (data.drop r.i) r.out (grow size)

/-- The state of `TextCodecImpl2::CompoundEncoder` with translation of newlines: `inner` is the size of the internal buffer, whose initial size is 512
(text_codec_impl.hpp:347). -/
structure CompoundEncState (σ α : Type) where
  state : σ
  data : List α
  buffer : List Char
  size : Nat
  inner : Nat
deriving DecidableEq, Repr

/-- `CompoundEncoder::encode()`: text_codec_impl.hpp:297-320. The base class is `PrimWindowsTextCodecImpl::Encoder`. -/
def compoundEncode (op : Op σ α Char) (grow : Nat → Nat) : (fuel : Nat) → CompoundEncState σ α → Option (Bool × CompoundEncState σ α)
  | 0, _ => none
  | fuel + 1, s =>
    let r := op s.state s.data s.inner
    match windowsEncode grow (windowsFuel r.out s.buffer) r.out s.buffer s.size with
    | none => none
    | some (buffer, size) =>
      let s2 := { s with state := r.state, data := s.data.drop r.consumed, buffer := buffer, size := size }
      match r.status with
      | .complete => some (true, s2)
      | .space => compoundEncode op grow fuel { s2 with inner := if r.out = [] then grow s.inner else s.inner }
      | .error => some (false, s2)

/-- `CompoundEncoder::unshift()`: text_codec_impl.hpp:322-342. -/
def compoundUnshift (op : σ → Nat → UnshiftResult σ Char) (grow : Nat → Nat) : (fuel : Nat) → CompoundEncState σ α →
    Option (CompoundEncState σ α)
  | 0, _ => none
  | fuel + 1, s =>
    let r := op s.state s.inner
    match windowsEncode grow (windowsFuel r.out s.buffer) r.out s.buffer s.size with
    | none => none
    | some (buffer, size) =>
      let s2 := { s with state := r.state, buffer := buffer, size := size }
      if r.complete then some s2
      else compoundUnshift op grow fuel { s2 with inner := if r.out = [] then grow s.inner else s.inner }

/-- The state of `PrimWindowsTextCodecImpl::CompoundDecoder`: `pending` is the contents of the internal buffer, and `inner` is its size, which is initially
512 (text_codec_impl.hpp:564-565). -/
structure CompoundDecState (σ β : Type) where
  state : σ
  data : List Char
  pending : List Char
  inner : Nat
  buffer : List β
  size : Nat
deriving DecidableEq, Repr

/-- `CompoundDecoder::decode()`: text_codec_impl.hpp:537-561. The base class is `TextCodecImpl2::Decoder`, whose loop is given the same bound on the number
of rounds. `reserve` is the size of the internal buffer after `reserve_extra()` when the buffer is too small. -/
def compoundDecode (op : Bool → Op σ Char β) (grow reserve : Nat → Nat) (endOfData : Bool) : (fuel : Nat) → CompoundDecState σ β →
    Option (Bool × CompoundDecState σ β)
  | 0, _ => none
  | fuel + 1, s =>
    let r := Newline.decodeLoop s.inner endOfData 0 s.data { i := 0, out := s.pending, clear := 0 }
    let data := s.data.drop r.i
    let endOfData2 := endOfData && decide (r.i = s.data.length)
    match loop (op endOfData2) grow (fuel + 1) ⟨s.state, r.out, s.buffer, s.size⟩ with
    | none => none
    | some (success, d) =>
      if success then
        let s2 : CompoundDecState σ β := ⟨d.state, data, d.data, s.inner, d.buffer, d.size⟩
        if r.i = s.data.length ∨ r.out.length < s.inner then some (true, s2)
        else
          let inner := if d.data.length + 1 ≤ s.inner then s.inner else reserve (d.data.length + 1)
          compoundDecode op grow reserve endOfData fuel { s2 with inner := inner }
      else some (false, ⟨d.state, data, r.out, s.inner, d.buffer, d.size⟩)

end Verif.TextCodec
