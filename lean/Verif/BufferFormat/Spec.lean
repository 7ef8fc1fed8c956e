import Verif.BufferFormat.Format
import Verif.BitField.Spec
/-!
What it means for pixels to be stored in memory according to a buffer format.

Memory is a function from addresses to bytes. An object that holds pixels is located at address zero.
-/
namespace Verif.BufferFormat.Spec

/-- The number whose `n` digits in base `b` are the specified ones, with the most significant digit first (big-endian), or the
least significant digit first (little-endian). -/
def number (e : Endianness) (b : Nat) : Nat → (Nat → Nat) → Nat
  | 0, _ => 0
  | n + 1, f =>
    match e with
    | .big => number e b n f * b + f n
    | .little => number e b n f + f n * b ^ n

/-- The number of bytes of a word. -/
def bytes (P : Platform) : IntegerType → Nat
  | .byte => 1
  | .char => 1
  | t => P.bytes t

/-- The number of bits of a word. -/
def bits (P : Platform) : IntegerType → Nat
  | .byte => P.byteBits
  | .char => P.byteBits
  | t => P.bits t

/-- A function that gives the bits, as an integer, of a word that consists of the specified bytes agrees with the properties of the
platform. -/
structure Machine (P : Platform) (word : IntegerType → (Nat → Nat) → Nat) : Prop where
  byteBits : 0 < P.byteBits
  bytes : ∀ t, 0 < Spec.bytes P t
  bits : ∀ t, Spec.bits P t ≤ Spec.bytes P t * P.byteBits
  int : ∀ t, Spec.bytes P t * P.byteBits < 2 ^ P.I
  local_ : ∀ t m m', (∀ i < Spec.bytes P t, m i = m' i) → word t m = word t m'
  one : ∀ t m, Spec.bytes P t = 1 → word t m = m 0
  order : ∀ t m e, 1 < Spec.bytes P t → P.order t = some e → word t m = number e (2 ^ P.byteBits) (Spec.bytes P t) m

/-- Contents of memory. -/
def Bytes (P : Platform) (mem : Nat → Nat) : Prop := ∀ i, mem i < 2 ^ P.byteBits

/-- The number of channels, an alpha channel included. -/
def channels (c : ChannelConf) : Nat := c.colorSpace.channels + c.hasAlpha.toNat

/-- The place where a channel is stored among the channels of a pixel. In the canonical order, an alpha channel is last. -/
def slot (conf : ChannelConf) (c : Nat) : Nat :=
  let c := if conf.hasAlpha && conf.alphaFirst then (c + 1) % channels conf else c
  if conf.reverse then channels conf - 1 - c else c

section
variable (P : Platform) (word : IntegerType → (Nat → Nat) → Nat) (mem : Nat → Nat)

/-- Word number `i`. -/
def wordAt (t : IntegerType) (i : Nat) : Nat := word t fun j => mem (i * bytes P t + j)

/-- The value in slot `s` of pixel number `p` with an integer format: a number of words per channel, and a number of bits of each
word. -/
def integerAt (f : IntegerFormat) (p s : Nat) : Nat :=
  let b := 2 ^ f.bitsPerWord.toNat
  let n := f.wordsPerChannel.toNat
  number f.wordOrder b n fun j => wordAt P word mem f.wordType ((p * channels f.conf + s) * n + j) % b

/-- The bits of pixel number `p` with a packed format. -/
def compoundAt (f : PackedFormat) (p : Nat) : Nat :=
  let b := 2 ^ f.bitsPerWord.toNat
  let n := f.wordsPerPixel.toNat
  number f.wordOrder b n fun j => wordAt P word mem f.wordType (p * n + j) % b

/-- The value in slot `s` of pixel number `p` with a packed format. -/
def packedAt (f : PackedFormat) (p s : Nat) : Nat :=
  BitField.Spec.extract (f.fields.take (channels f.conf)) (compoundAt P word mem f p) s

/-- The value in slot `s` of pixel `x` of row `y` with a subword format. The slots of a pixel are adjacent, and the first one has the
most significant bits. The first pixel of a word has the most significant bits (big-endian), or the least significant bits
(little-endian). A row starts in a word of its own if rows are aligned. -/
def subwordAt (f : SubwordFormat) (width x y s : Nat) : Nat :=
  let b := 2 ^ f.bitsPerChannel.toNat
  let n := f.pixelsPerWord.toNat
  let p := if f.aligned then y * ((width + (n - 1)) / n) * n + x else y * width + x
  let q := match f.bitOrder with
    | .big => n - 1 - p % n
    | .little => p % n
  wordAt P word mem f.wordType (p / n) / b ^ (q * channels f.conf + (channels f.conf - 1 - s)) % b

/-- The value of channel `c` of pixel `x` of row `y`. -/
def value (width x y c : Nat) : Format → Nat
  | .integer f => integerAt P word mem f (y * width + x) (slot f.conf c)
  | .packed f => packedAt P word mem f (y * width + x) (slot f.conf c)
  | .subword f => subwordAt P word mem f width x y (slot f.conf c)
  | _ => 0

end

/-- The channels of a format. -/
def conf : Format → ChannelConf
  | .integer f => f.conf
  | .packed f => f.conf
  | .subword f => f.conf
  | _ => ⟨⟨0, 0⟩, false, false, false⟩

/-- The type of the words of a format. -/
def wordType : Format → IntegerType
  | .integer f => f.wordType
  | .packed f => f.wordType
  | .subword f => f.wordType
  | _ => .byte

/-- The number of bytes that are needed for an image. -/
def size (P : Platform) (width height : Nat) : Format → Nat
  | .integer f => width * height * channels f.conf * f.wordsPerChannel.toNat * bytes P f.wordType
  | .packed f => width * height * f.wordsPerPixel.toNat * bytes P f.wordType
  | .subword f =>
    let n := f.pixelsPerWord.toNat
    (if f.aligned then height * ((width + (n - 1)) / n) else (width * height + (n - 1)) / n) * bytes P f.wordType
  | _ => 0

/-- The consistency requirements. -/
def Valid (P : Platform) : Format → Prop
  | .integer f => 1 ≤ f.bitsPerWord ∧ 1 ≤ f.wordsPerChannel ∧ f.bitsPerWord ≤ bits P f.wordType ∧
      f.wordsPerChannel * f.bitsPerWord < 2 ^ P.I
  | .packed f => 1 ≤ f.bitsPerWord ∧ 1 ≤ f.wordsPerPixel ∧ f.bitsPerWord ≤ bits P f.wordType ∧
      f.wordsPerPixel * f.bitsPerWord < 2 ^ P.I ∧ channels f.conf ≤ 8 ∧
      BitField.Spec.Valid (f.fields.take (channels f.conf)) (f.wordsPerPixel * f.bitsPerWord)
  | .subword f => 1 ≤ f.bitsPerChannel ∧ 1 ≤ f.pixelsPerWord ∧
      f.pixelsPerWord * (channels f.conf * f.bitsPerChannel) ≤ bits P f.wordType
  | _ => True

/-- Pixels that are stored according to format `f` can be accessed as though they were stored according to format `g`: channels have
the same meaning and the same values, only the memory of the original object is accessed, and it is accessed in terms of the
original words or in terms of bytes. -/
structure Accessible (P : Platform) (word : IntegerType → (Nat → Nat) → Nat) (f g : Format) : Prop where
  colorSpace : (conf g).colorSpace = (conf f).colorSpace
  alpha : (conf g).hasAlpha = (conf f).hasAlpha
  wordType : Spec.wordType g = Spec.wordType f ∨ Spec.wordType g = .byte
  size : ∀ width height, Spec.size P width height g ≤ Spec.size P width height f
  value : ∀ mem, Bytes P mem → ∀ width x y c, x < width → c < channels (conf f) →
    Spec.value P word mem width x y c g = Spec.value P word mem width x y c f

/-- The format with the channels in the opposite order. -/
def opposite (f : PackedFormat) : PackedFormat := { f with conf := { f.conf with reverse := !f.conf.reverse } }

end Verif.BufferFormat.Spec
