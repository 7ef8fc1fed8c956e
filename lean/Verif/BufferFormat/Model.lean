import Verif.BufferFormat.Format
import Verif.BitField.Model
/-!
Model of casts of buffer formats: /repo/src/archon/image/buffer_format.hpp and /repo/src/archon/image/buffer_format.cpp.

An outer `none` is undefined behavior or a failed assertion. Values of type `int` are integers, and products and sums that are not
representable are undefined.
-/
namespace Verif.BufferFormat
open Verif.Integer Verif.BitField

/-- The outcome of a cast: an exception, a return of `false`, or a return of `true` with the new format. -/
inductive Outcome (α : Type) where
  | invalid
  | no
  | yes (format : α)

/-- A result of type `int` of an arithmetic operation. -/
def chk (P : Platform) (x : Int) : Option Int := if -2 ^ P.I ≤ x ∧ x < 2 ^ P.I then some x else none

/-- `core::int_max<int>()`. -/
def intMax (P : Platform) : Int := 2 ^ P.I - 1

/-- Division of values of type `int`, both nonnegative: undefined when the divisor is zero. -/
def quot (x y : Int) : Option Int := if y = 0 then none else some (x.tdiv y)

/-- Remainder of values of type `int`, both nonnegative: undefined when the divisor is zero. -/
def rem (x y : Int) : Option Int := if y = 0 then none else some (x.tmod y)

/-- `BufferFormat::ChannelConf::get_num_channels()`: buffer_format.hpp:409-412. -/
def ChannelConf.numChannels (c : ChannelConf) : Nat := c.colorSpace.channels + (if c.hasAlpha then 1 else 0)

/-- `BufferFormat::ChannelConf::reverse()`: buffer_format.hpp:415-418. -/
def ChannelConf.reversed (c : ChannelConf) : ChannelConf := { c with reverse := !c.reverse }

/-- `BufferFormat::get_bits_per_word()`: buffer_format.hpp:567-585. -/
def wordBits (P : Platform) : IntegerType → Int
  | .byte => P.byteBits
  | .char => P.byteBits
  | t => P.bits t

/-- `BufferFormat::get_bytes_per_word()`: buffer_format.hpp:588-606. -/
def wordBytes (P : Platform) : IntegerType → Int
  | .byte => 1
  | .char => 1
  | t => P.bytes t

/-- `BufferFormat::try_get_byte_order()`: buffer_format.cpp:490-509, endianness.hpp:135-142. `none` is the return of `false`. -/
def tryGetByteOrder (P : Platform) : IntegerType → Option Endianness
  | .byte => some .big
  | .char => some .big
  | t => P.order t

/-- `BufferFormat::IntegerFormat::is_valid()`: buffer_format.hpp:421-426. -/
def IntegerFormat.isValid (P : Platform) (f : IntegerFormat) : Option Bool :=
  if f.bitsPerWord > 0 ∧ f.wordsPerChannel > 0 ∧ f.bitsPerWord ≤ wordBits P f.wordType then do
    let q ← quot (intMax P) f.bitsPerWord
    some (decide (f.wordsPerChannel ≤ q))
  else some false

/-- `BufferFormat::PackedFormat::is_valid()`: buffer_format.hpp:439-447. -/
def PackedFormat.isValid (P : Platform) (f : PackedFormat) : Option Bool :=
  if f.bitsPerWord > 0 ∧ f.wordsPerPixel > 0 ∧ f.bitsPerWord ≤ wordBits P f.wordType then do
    let q ← quot (intMax P) f.bitsPerWord
    if f.wordsPerPixel ≤ q ∧ f.conf.numChannels ≤ 8 then do
      let n ← chk P (f.wordsPerPixel * f.bitsPerWord)
      validBitFields P.I (f.fields.take f.conf.numChannels) n
    else some false
  else some false

/-- `BufferFormat::SubwordFormat::is_valid()`: buffer_format.hpp:450-457. -/
def SubwordFormat.isValid (P : Platform) (f : SubwordFormat) : Option Bool :=
  let avail := wordBits P f.wordType
  let n : Int := f.conf.numChannels
  if f.bitsPerChannel > 0 ∧ f.pixelsPerWord > 0 then do
    let q ← quot (intMax P) f.bitsPerChannel
    if n ≤ q then do
      let d ← chk P (n * f.bitsPerChannel)
      let q ← quot avail d
      some (decide (f.pixelsPerWord ≤ q))
    else some false
  else some false

/-- Whether the bits of a word are all used: buffer_format.cpp:66-68, 130-131, 184-189, 445-450. Overflow of the product, which
`core::try_int_mul()` detects, makes it false. -/
def allBitsUsed (P : Platform) (bits bytes : Int) : Bool :=
  decide (P.byteBits * bytes < 2 ^ P.I ∧ bits = P.byteBits * bytes)

/-- `BufferFormat::try_cast_to(IntegerFormat&)` for integer formats: buffer_format.cpp:55-91. -/
def castIntegerInteger (P : Platform) (f : IntegerFormat) (t : IntegerType) : Option (Outcome IntegerFormat) := do
  let valid ← f.isValid P
  if !valid then some .invalid
  else if t ≠ f.wordType ∧ t ≠ .byte then some .no
  else if t ≠ f.wordType ∧ wordBytes P f.wordType > 1 then
    let n := wordBytes P f.wordType
    if !allBitsUsed P f.bitsPerWord n then some .no
    else
      match tryGetByteOrder P f.wordType with
      | none => some .no
      | some byteOrder =>
        if f.wordsPerChannel > 1 ∧ f.wordOrder ≠ byteOrder then some .no
        else do
          let m ← chk P (f.wordsPerChannel * n)
          some (.yes ⟨.byte, P.byteBits, m, byteOrder, f.conf⟩)
  else some (.yes ⟨t, f.bitsPerWord, f.wordsPerChannel, f.wordOrder, f.conf⟩)

/-- The loop of buffer_format.cpp:111-118. The first argument is the fields after the current one. The result is whether the gap of
the last field is zero, and the fields are spaced as required. -/
def evenlySpaced (P : Platform) (part : Int) : List Field → Int → Option Bool
  | [], gap => some (decide (gap = 0))
  | field :: fields, gap => do
    let s ← chk P (gap + field.width)
    if s ≠ part then some false else evenlySpaced P part fields field.gap

/-- The rest of the cast of a packed format to an integer format, from the determination of the depth on:
buffer_format.cpp:153-171. -/
def castPackedFinish (P : Platform) (f : PackedFormat) (t : IntegerType) (bits words : Int) (order : Endianness) :
    Option (Outcome IntegerFormat) := do
  let depth ← chk P (words * bits)
  if (f.fields.take f.conf.numChannels).any fun g => decide (g.width ≠ depth) then some .no
  else some (.yes ⟨t, bits, words, order, if order = .big then f.conf.reversed else f.conf⟩)

/-- `BufferFormat::try_cast_to(IntegerFormat&)` for packed formats: buffer_format.cpp:92-171. -/
def castPackedInteger (P : Platform) (f : PackedFormat) (t : IntegerType) : Option (Outcome IntegerFormat) := do
  let valid ← f.isValid P
  if !valid then some .invalid
  else
    match f.fields.take f.conf.numChannels with
    | [] => none
    | field :: fields => do
      let words ← quot f.wordsPerPixel f.conf.numChannels
      let remainder ← rem f.wordsPerPixel f.conf.numChannels
      if remainder ≠ 0 then some .no
      else do
        let part ← chk P (words * f.bitsPerWord)
        let ok ← evenlySpaced P part fields field.gap
        if !ok then some .no
        else if t ≠ f.wordType then
          if t ≠ .byte then some .no
          else
            let n := wordBytes P f.wordType
            if n > 1 then
              if !allBitsUsed P f.bitsPerWord n then some .no
              else
                match tryGetByteOrder P f.wordType with
                | none => some .no
                | some byteOrder =>
                  if words > 1 ∧ f.wordOrder ≠ byteOrder then some .no
                  else do
                    let words ← chk P (words * n)
                    castPackedFinish P f t P.byteBits words byteOrder
            else castPackedFinish P f t f.bitsPerWord words f.wordOrder
        else if words = 1 then castPackedFinish P f t field.width words .big
        else castPackedFinish P f t f.bitsPerWord words f.wordOrder

/-- `BufferFormat::try_cast_to(IntegerFormat&)` for subword formats: buffer_format.cpp:172-240. -/
def castSubwordInteger (P : Platform) (f : SubwordFormat) (t : IntegerType) : Option (Outcome IntegerFormat) := do
  let valid ← f.isValid P
  if !valid then some .invalid
  else if t ≠ f.wordType ∧ t ≠ .byte then some .no
  else if t ≠ f.wordType ∧ wordBytes P f.wordType > 1 then do
    let n := wordBytes P f.wordType
    let bits ← chk P (f.bitsPerChannel * f.conf.numChannels)
    let bits ← chk P (bits * f.pixelsPerWord)
    if !allBitsUsed P bits n then some .no
    else do
      let remainder ← rem f.bitsPerChannel P.byteBits
      if remainder ≠ 0 then some .no
      else
        match tryGetByteOrder P f.wordType with
        | none => some .no
        | some byteOrder =>
          if f.pixelsPerWord > 1 ∧ (byteOrder ≠ f.bitOrder ∨ f.aligned) then some .no
          else some (.yes ⟨t, P.byteBits, n, byteOrder, if byteOrder = .little then f.conf.reversed else f.conf⟩)
  else if f.conf.numChannels > 1 ∨ f.pixelsPerWord > 1 then some .no
  else some (.yes ⟨t, f.bitsPerChannel, 1, .big, f.conf⟩)

/-- `BufferFormat::try_cast_to(IntegerFormat&)`: buffer_format.cpp:52-250. -/
def castInteger (P : Platform) (t : IntegerType) : Format → Option (Outcome IntegerFormat)
  | .integer f => castIntegerInteger P f t
  | .packed f => castPackedInteger P f t
  | .subword f => castSubwordInteger P f t
  | .float => some .no
  | .indexed => some .no

/-- The outcome when the cast is not implemented: buffer_format.cpp:284, 329, 335. -/
def unimplemented (valid : Option Bool) : Option (Outcome PackedFormat) := do
  let valid ← valid
  if !valid then some .invalid else none

/-- `BufferFormat::try_cast_to(PackedFormat&)`: buffer_format.cpp:254-346. -/
def castPacked (P : Platform) (_ : IntegerType) : Format → Option (Outcome PackedFormat)
  | .integer f => unimplemented (f.isValid P)
  | .packed f => unimplemented (f.isValid P)
  | .subword f => unimplemented (f.isValid P)
  | .float => some .no
  | .indexed => some .no

/-- `BufferFormat::try_cast_to(SubwordFormat&)` for integer formats: buffer_format.cpp:352-385. -/
def castIntegerSubword (P : Platform) (f : IntegerFormat) (t : IntegerType) : Option (Outcome SubwordFormat) := do
  let valid ← f.isValid P
  if !valid then some .invalid
  else if t ≠ f.wordType ∧ (t ≠ .byte ∨ wordBytes P f.wordType > 1) then some .no
  else if f.conf.numChannels > 1 ∨ f.wordsPerChannel > 1 then some .no
  else some (.yes ⟨t, f.bitsPerWord, 1, .big, false, f.conf⟩)

/-- `BufferFormat::try_cast_to(SubwordFormat&)` for packed formats: buffer_format.cpp:386-432. -/
def castPackedSubword (P : Platform) (f : PackedFormat) (t : IntegerType) : Option (Outcome SubwordFormat) := do
  let valid ← f.isValid P
  if !valid then some .invalid
  else if t ≠ f.wordType ∧ (t ≠ .byte ∨ wordBytes P f.wordType > 1) then some .no
  else if f.wordsPerPixel > 1 then some .no
  else
    match f.fields.take f.conf.numChannels with
    | [] => none
    | field :: fields =>
      if (field :: fields).any fun g => decide (g.width ≠ field.width ∨ g.gap ≠ 0) then some .no
      else some (.yes ⟨t, field.width, 1, .big, false, f.conf⟩)

/-- `BufferFormat::try_cast_to(SubwordFormat&)` for subword formats: buffer_format.cpp:433-477. -/
def castSubwordSubword (P : Platform) (f : SubwordFormat) (t : IntegerType) : Option (Outcome SubwordFormat) := do
  let valid ← f.isValid P
  if !valid then some .invalid
  else if t ≠ f.wordType ∧ t ≠ .byte then some .no
  else if t ≠ f.wordType ∧ wordBytes P f.wordType > 1 then do
    let n := wordBytes P f.wordType
    let bits ← chk P (f.bitsPerChannel * f.conf.numChannels)
    let bits ← chk P (bits * f.pixelsPerWord)
    if !allBitsUsed P bits n then some .no
    else do
      let pixels ← quot f.pixelsPerWord n
      let remainder ← rem f.pixelsPerWord n
      if remainder ≠ 0 then some .no
      else
        match tryGetByteOrder P f.wordType with
        | none => some .no
        | some byteOrder =>
          if byteOrder ≠ f.bitOrder ∨ f.aligned then some .no
          else some (.yes ⟨.byte, f.bitsPerChannel, pixels, f.bitOrder, f.aligned, f.conf⟩)
  else some (.yes ⟨t, f.bitsPerChannel, f.pixelsPerWord, f.bitOrder, f.aligned, f.conf⟩)

/-- `BufferFormat::try_cast_to(SubwordFormat&)`: buffer_format.cpp:349-487. -/
def castSubword (P : Platform) (t : IntegerType) : Format → Option (Outcome SubwordFormat)
  | .integer f => castIntegerSubword P f t
  | .packed f => castPackedSubword P f t
  | .subword f => castSubwordSubword P f t
  | .float => some .no
  | .indexed => some .no

end Verif.BufferFormat
