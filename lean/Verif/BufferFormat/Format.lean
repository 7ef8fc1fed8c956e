import Verif.BitField.Format
/-!
Descriptions of the schemes by which pixels are stored in memory.
-/
namespace Verif.BufferFormat

/-- `Endianness`: /repo/src/archon/core/endianness.hpp:79-82. The first one is the value of `{}`. -/
inductive Endianness where
  | big | little
  deriving DecidableEq

/-- `BufferFormat::IntegerType`: /repo/src/archon/image/buffer_format.hpp:67. -/
inductive IntegerType where
  | byte | char | short | int | long | llong
  deriving DecidableEq

/-- Properties of the platform. -/
structure Platform where
  /-- The number of value bits of `int`. -/
  I : Nat
  /-- The number of bits of a byte. -/
  byteBits : Nat
  /-- The number of bits of an integer type (the value bits and the sign bit) other than `std::byte` and `char`. -/
  bits : IntegerType → Nat
  /-- The number of bytes of an integer type other than `std::byte` and `char`. -/
  bytes : IntegerType → Nat
  /-- The byte order, when it can be determined, of an integer type other than `std::byte` and `char`. -/
  order : IntegerType → Option Endianness

/-- A color space: an identity, and a number of channels. -/
structure ColorSpace where
  id : Nat
  channels : Nat
  deriving DecidableEq

/-- `BufferFormat::ChannelConf`: buffer_format.hpp:82-90. -/
structure ChannelConf where
  colorSpace : ColorSpace
  hasAlpha : Bool
  alphaFirst : Bool
  reverse : Bool

/-- `BufferFormat::IntegerFormat`: buffer_format.hpp:108-123. -/
structure IntegerFormat where
  wordType : IntegerType
  bitsPerWord : Int
  wordsPerChannel : Int
  wordOrder : Endianness
  conf : ChannelConf

/-- `BufferFormat::PackedFormat`: buffer_format.hpp:164-179. `fields` is the array of the 8 bit fields. -/
structure PackedFormat where
  wordType : IntegerType
  bitsPerWord : Int
  wordsPerPixel : Int
  wordOrder : Endianness
  fields : List BitField.Field
  conf : ChannelConf

/-- `BufferFormat::SubwordFormat`: buffer_format.hpp:217-231. -/
structure SubwordFormat where
  wordType : IntegerType
  bitsPerChannel : Int
  pixelsPerWord : Int
  bitOrder : Endianness
  aligned : Bool
  conf : ChannelConf

/-- `BufferFormat`: buffer_format.hpp:52-397. The contents of formats that are not integer based are not represented. -/
inductive Format where
  | integer (f : IntegerFormat)
  | packed (f : PackedFormat)
  | subword (f : SubwordFormat)
  | float
  | indexed

end Verif.BufferFormat
