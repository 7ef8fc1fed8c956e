import Verif.BufferFormat.Packed
/-!
C98: casts of buffer formats.
-/
namespace Verif.BufferFormat
open Spec

variable {P : Platform} {word : IntegerType → (Nat → Nat) → Nat}

/-- The arrays of bit fields of packed formats are as in the code. -/
def FieldsOk (P : Platform) : Format → Prop
  | .packed f => Fields P f.fields
  | _ => True

/-! ### An example platform, with 16-bit short integers and little-endian byte order -/

/-- 8-bit bytes, 32-bit `int`, and so on. -/
def small : Platform := ⟨31, 8, fun | .short => 16 | .int => 32 | _ => 64, fun | .short => 2 | .int => 4 | _ => 8, fun _ => some .little⟩

/-- Words of that platform. -/
def smallWord (t : IntegerType) (m : Nat → Nat) : Nat := number .little 256 (bytes small t) m

theorem small_machine : Machine small smallWord where
  byteBits := by decide
  bytes t := by cases t <;> decide
  bits t := by cases t <;> decide
  int t := by cases t <;> decide
  local_ t m m' h := number_congr h
  one t m h := by unfold smallWord; rw [h, number_one]
  order t m e _ h := by cases h; rfl

/-- The RGB color space. -/
def rgbConf : ChannelConf := ⟨⟨0, 3⟩, false, false, false⟩

/-- RGB with 8 bits per channel, as three bytes, with the most significant byte first. -/
def packedRgb : PackedFormat := ⟨.byte, 8, 3, .big, [⟨8, 0⟩, ⟨8, 0⟩, ⟨8, 0⟩, ⟨0, 0⟩, ⟨0, 0⟩, ⟨0, 0⟩, ⟨0, 0⟩, ⟨0, 0⟩], rgbConf⟩

/-- Two channels with 8 bits per channel in a short integer. -/
def subwordLa : SubwordFormat := ⟨.short, 8, 1, .little, false, ⟨⟨1, 1⟩, true, false, false⟩⟩

/-- Monochrome with 4 pixels per byte, stored as short integers. -/
def subwordMono : SubwordFormat := ⟨.short, 2, 8, .little, false, ⟨⟨1, 1⟩, false, false, false⟩⟩

/-- RGB with 16 bits per channel. -/
def integerRgb : IntegerFormat := ⟨.short, 16, 1, .big, rgbConf⟩

/-- C98: The check of validity of a format is the check of the documented requirements. Assumes that there is at least one channel. -/
theorem C98_valid_partial (M : Machine P word) :
    (∀ f : IntegerFormat, ∃ b, f.isValid P = some b ∧ (b = true ↔ Valid P (.integer f))) ∧
    (∀ f : PackedFormat, Fields P f.fields → ∃ b, f.isValid P = some b ∧ (b = true ↔ Valid P (.packed f))) ∧
    (∀ f : SubwordFormat, 0 < channels f.conf → ∃ b, f.isValid P = some b ∧ (b = true ↔ Valid P (.subword f))) :=
  ⟨integer_valid P, packed_valid, subword_valid M⟩

/-- A format that needs 18 bits of a 16-bit word. -/
example : ({ subwordMono with pixelsPerWord := 9 } : SubwordFormat).isValid small = some false := by decide +kernel

/-- C98 does not hold for the validity check of subword formats without channels (the degenerate color space without alpha channel):
it divides by zero. -/
theorem C98_no_channels (f : SubwordFormat) (h : channels f.conf = 0) (h1 : 0 < f.bitsPerChannel) (h2 : 0 < f.pixelsPerWord) (t : IntegerType) :
    f.isValid P = none ∧ castInteger P t (.subword f) = none ∧ castSubword P t (.subword f) = none := by
  have key : f.isValid P = none := by
    unfold SubwordFormat.isValid
    simp only [numChannels_eq, h]
    rw [if_pos ⟨h1, h2⟩, quot_eq (intMax_nonneg P) h1]
    have : (0 : Int) ≤ intMax P / f.bitsPerChannel := Int.ediv_nonneg (intMax_nonneg P) (by omega)
    simp only [Option.bind_eq_bind, Option.bind_some]
    rw [if_pos (by simpa using this)]
    simp [chk, quot]
  refine ⟨key, ?_, ?_⟩
  · simp [castInteger, castSubwordInteger, key]
  · simp [castSubword, castSubwordSubword, key]

/-- An eight-bit format with the degenerate color space. -/
example : ({ subwordMono with conf := ⟨⟨2, 0⟩, false, false, false⟩ } : SubwordFormat).isValid small = none := by decide +kernel

/-- C98: A format that is not valid is rejected with an exception. -/
theorem C98_invalid (M : Machine P word) (f : Format) (hf : FieldsOk P f) (hc : ∀ g, f = .subword g → 0 < channels g.conf) (hv : ¬Valid P f) (t : IntegerType) :
    castInteger P t f = some .invalid ∧ castPacked P t f = some .invalid ∧ castSubword P t f = some .invalid := by
  cases f with
  | integer f =>
    obtain ⟨b, hb, hb2⟩ := integer_valid P f
    obtain rfl : b = false := by rw [← Bool.not_eq_true, hb2]; exact hv
    simp [castInteger, castPacked, castSubword, castIntegerInteger, castIntegerSubword, unimplemented, hb]
  | packed f =>
    obtain ⟨b, hb, hb2⟩ := packed_valid f hf
    obtain rfl : b = false := by rw [← Bool.not_eq_true, hb2]; exact hv
    simp [castInteger, castPacked, castSubword, castPackedInteger, castPackedSubword, unimplemented, hb]
  | subword f =>
    obtain ⟨b, hb, hb2⟩ := subword_valid M f (hc f rfl)
    obtain rfl : b = false := by rw [← Bool.not_eq_true, hb2]; exact hv
    simp [castInteger, castPacked, castSubword, castSubwordInteger, castSubwordSubword, unimplemented, hb]
  | float => exact absurd trivial hv
  | indexed => exact absurd trivial hv

/-- More bits per word than there are. -/
example : castInteger small .byte (.integer { integerRgb with bitsPerWord := 17 }) = some .invalid := rfl

/-- C98: A cast of a valid format to a subword format always has a defined outcome. If it succeeds, the new format has the requested type
of words, it is valid, and pixels that are stored according to the original format can be accessed according to the new one. Assumes that there is at
least one channel. -/
theorem C98_to_subword_partial (M : Machine P word) (f : Format) (hf : FieldsOk P f) (hv : Valid P f) (t : IntegerType)
    (hc : f ≠ .float → f ≠ .indexed → 0 < channels (conf f)) :
    ∃ o, castSubword P t f = some o ∧ o ≠ .invalid ∧
      ∀ g, o = .yes g → g.wordType = t ∧ Valid P (.subword g) ∧ Accessible P word f (.subword g) := by
  cases f with
  | integer f =>
    obtain ⟨o, h1, h2, h3⟩ := castIntegerSubword_ok M f t hv (hc (by simp) (by simp))
    exact ⟨o, h1, h3, h2⟩
  | packed f =>
    obtain ⟨o, h1, h2, h3⟩ := castPackedSubword_ok M f t hf hv (hc (by simp) (by simp))
    exact ⟨o, h1, h3, h2⟩
  | subword f =>
    obtain ⟨o, h1, h2, h3⟩ := castSubwordSubword_ok M f t hv (hc (by simp) (by simp))
    exact ⟨o, h1, h3, h2⟩
  | float => exact ⟨.no, rfl, by simp, fun g h => by simp at h⟩
  | indexed => exact ⟨.no, rfl, by simp, fun g h => by simp at h⟩

/-- Eight pixels per short integer, as four pixels per byte. -/
example : castSubword small .byte (.subword subwordMono) = some (.yes { subwordMono with wordType := .byte, pixelsPerWord := 4 }) := rfl

/-- The fifth pixel is in the second byte. -/
example : value small smallWord (fun | 1 => 0xE7 | _ => 0) 10 4 0 0 (.subword subwordMono) = 3 ∧
    value small smallWord (fun | 1 => 0xE7 | _ => 0) 10 4 0 0 (.subword { subwordMono with wordType := .byte, pixelsPerWord := 4 }) = 3 := by
  decide +kernel

/-- C98: A cast of a valid integer format to an integer format always has a defined outcome. If it succeeds, the new format has the requested
type of words, it is valid, and pixels that are stored according to the original format can be accessed according to the new one. -/
theorem C98_integer (M : Machine P word) (f : IntegerFormat) (hv : Valid P (.integer f)) (t : IntegerType) :
    ∃ o, castInteger P t (.integer f) = some o ∧ o ≠ .invalid ∧
      ∀ g, o = .yes g → g.wordType = t ∧ Valid P (.integer g) ∧ Accessible P word (.integer f) (.integer g) := by
  obtain ⟨o, h1, h2, h3⟩ := castIntegerInteger_ok M f t hv
  exact ⟨o, h1, h3, h2⟩

/-- 16-bit channels as pairs of bytes. -/
example : castInteger small .byte (.integer integerRgb) = some (.yes ⟨.byte, 8, 2, .little, rgbConf⟩) := rfl

/-- The green channel of the second pixel. -/
example : value small smallWord (fun i => i) 10 1 0 1 (.integer integerRgb) = 0x0908 ∧
    value small smallWord (fun i => i) 10 1 0 1 (.integer ⟨.byte, 8, 2, .little, rgbConf⟩) = 0x0908 := by decide +kernel

/-- C98: A cast to the same kind of format with the same type of words succeeds, and yields the original format. A cast to bytes succeeds if the words
have no unused bits, and the words are in native byte order. -/
theorem C98_succeeds_partial (M : Machine P word) :
    (∀ f : IntegerFormat, Valid P (.integer f) → castInteger P f.wordType (.integer f) = some (.yes f)) ∧
    (∀ f : SubwordFormat, Valid P (.subword f) → 0 < channels f.conf → castSubword P f.wordType (.subword f) = some (.yes f)) ∧
    ∀ f : IntegerFormat, Valid P (.integer f) → (f.bitsPerWord = (bytes P f.wordType * P.byteBits : Nat)) → 1 < bytes P f.wordType →
      P.order f.wordType = some f.wordOrder →
      castInteger P .byte (.integer f) = some (.yes ⟨.byte, P.byteBits, f.wordsPerChannel * bytes P f.wordType, f.wordOrder, f.conf⟩) := by
  refine ⟨fun f hv => ?_, fun f hv hc => ?_, fun f hv hb hn ho => ?_⟩
  · obtain ⟨b, hb, hb2⟩ := integer_valid P f
    obtain rfl : b = true := hb2.2 hv
    simp [castInteger, castIntegerInteger, hb]
  · obtain ⟨b, hb, hb2⟩ := subword_valid M f hc
    obtain rfl : b = true := hb2.2 hv
    simp [castSubword, castSubwordSubword, hb]
  · obtain ⟨b, hb', hb2⟩ := integer_valid P f
    obtain rfl : b = true := hb2.2 hv
    obtain ⟨v1, v2, v3, v4⟩ := hv
    have ht : IntegerType.byte ≠ f.wordType := by
      intro h
      rw [← h] at hn
      simp [Spec.bytes] at hn
    have hi := M.int f.wordType
    have hbb := M.byteBits
    have hw : f.wordsPerChannel * (bytes P f.wordType : Int) < 2 ^ P.I := by
      have h1 : f.wordsPerChannel * (bytes P f.wordType : Int) * 1 ≤ f.wordsPerChannel * (bytes P f.wordType : Int) * P.byteBits :=
        Int.mul_le_mul_of_nonneg_left (by omega) (Int.mul_nonneg (by omega) (by omega))
      have h2 : f.wordsPerChannel * (bytes P f.wordType : Int) * P.byteBits = f.wordsPerChannel * f.bitsPerWord := by
        rw [hb]; push_cast; ring
      omega
    have hu : allBitsUsed P f.bitsPerWord (bytes P f.wordType) = true := by
      rw [allBitsUsed_iff, hb]
      constructor
      · rw [Int.mul_comm]; exact_mod_cast hi
      · push_cast; ring
    unfold castInteger castIntegerInteger
    simp only [hb', Option.bind_eq_bind, Option.bind_some, Bool.not_true, Bool.false_eq_true, if_false, wordBytes_eq, hu,
      tryGetByteOrder_eq hn, ho]
    rw [if_neg (by simp), if_pos ⟨ht, by omega⟩, if_neg (by simp), chk_eq (Int.mul_nonneg (by omega) (by omega)) hw]
    rfl

/-- Channels of two short integers as channels of four bytes. -/
example : castInteger small .byte (.integer ⟨.short, 16, 2, .little, rgbConf⟩) = some (.yes ⟨.byte, 8, 4, .little, rgbConf⟩) := rfl

/-- C98: A cast of a valid packed format to an integer format always has a defined outcome. If it succeeds, the new format has the requested
type of words, and it is valid. If, in addition, there is only one channel, or the word order of the new format differs from that of the original format,
pixels that are stored according to the original format can be accessed according to the new one. Assumes that there is at least one channel. -/
theorem C98_packed_partial (M : Machine P word) (f : PackedFormat) (hf : Fields P f.fields) (hv : Valid P (.packed f)) (hc : 0 < channels f.conf)
    (t : IntegerType) :
    ∃ o, castInteger P t (.packed f) = some o ∧ o ≠ .invalid ∧
      ∀ g, o = .yes g → g.wordType = t ∧ Valid P (.integer g) ∧
        (g.wordOrder ≠ f.wordOrder ∨ channels f.conf = 1 → Accessible P word (.packed f) (.integer g)) := by
  obtain ⟨o, h1, h2, h3⟩ := castPackedInteger_ok M f t hf hv hc
  exact ⟨o, h1, h3, fun g hg => ⟨(h2 g hg).1, (h2 g hg).2.1, (h2 g hg).2.2.1⟩⟩

/-- With the least significant byte first, the new format is right: blue, green, red. -/
example : castInteger small .byte (.packed { packedRgb with wordOrder := .little }) = some (.yes ⟨.byte, 8, 1, .big, { rgbConf with reverse := true }⟩) ∧
    (List.range 3).map (fun c => value small smallWord (fun i => i) 1 0 0 c (.packed { packedRgb with wordOrder := .little })) = [2, 1, 0] ∧
    (List.range 3).map (fun c => value small smallWord (fun i => i) 1 0 0 c (.integer ⟨.byte, 8, 1, .big, { rgbConf with reverse := true }⟩)) = [2, 1, 0] :=
  ⟨rfl, by decide +kernel, by decide +kernel⟩

/-- C98 does not hold for casts of packed formats to integer formats when the word order of the new format is that of the original format: with the
new format, the channels come in the opposite order. -/
theorem C98_opposite (M : Machine P word) (f : PackedFormat) (hf : Fields P f.fields) (hv : Valid P (.packed f)) (hc : 0 < channels f.conf)
    (t : IntegerType) (g : IntegerFormat) (hg : castInteger P t (.packed f) = some (.yes g)) (ho : g.wordOrder = f.wordOrder) :
    Accessible P word (.packed (opposite f)) (.integer g) := by
  obtain ⟨o, h1, h2, h3⟩ := castPackedInteger_ok M f t hf hv hc
  have h1' : castInteger P t (.packed f) = some o := h1
  rw [hg] at h1'
  injection h1' with h1'
  exact (h2 g h1'.symm).2.2.2 ho

/-- C98 does not hold for casts of packed formats to integer formats: for RGB with 8 bits per channel, stored as three bytes with the most significant one
first, red and blue are swapped. -/
theorem C98_swapped : Valid small (.packed packedRgb) ∧ ∃ g, castInteger small .byte (.packed packedRgb) = some (.yes g) ∧
    (List.range 3).map (fun c => value small smallWord (fun i => i) 1 0 0 c (.packed packedRgb)) = [0, 1, 2] ∧
    (List.range 3).map (fun c => value small smallWord (fun i => i) 1 0 0 c (.integer g)) = [2, 1, 0] ∧
    ¬Accessible small smallWord (.packed packedRgb) (.integer g) := by
  refine ⟨⟨by decide, by decide, by decide, by decide, by decide, by decide, by decide +kernel⟩, _, rfl, by decide +kernel, by decide +kernel, fun h => ?_⟩
  have := h.value (fun i => i % 256) (fun i => Nat.mod_lt _ (by decide)) 1 0 0 0 (by decide) (by decide)
  revert this
  decide +kernel

/-- The same bytes with the channels in the opposite order. -/
example : (List.range 3).map (fun c => value small smallWord (fun i => i) 1 0 0 c (.packed (opposite packedRgb))) = [2, 1, 0] := by decide +kernel

/-- C98: A cast of a valid subword format to an integer format always has a defined outcome. If it succeeds, the new format has the requested
type of words, and it is valid. If, in addition, there is only one channel and one pixel per word, pixels that are stored according to the original format can be
accessed according to the new one. Assumes that there is at least one channel. -/
theorem C98_subword_partial (M : Machine P word) (f : SubwordFormat) (hv : Valid P (.subword f)) (hc : 0 < channels f.conf) (t : IntegerType) :
    ∃ o, castInteger P t (.subword f) = some o ∧ o ≠ .invalid ∧
      ∀ g, o = .yes g → g.wordType = t ∧ Valid P (.integer g) ∧
        (channels f.conf = 1 → f.pixelsPerWord = 1 → Accessible P word (.subword f) (.integer g)) := by
  obtain ⟨o, h1, h2, h3⟩ := castSubwordInteger_ok M f t hv hc
  exact ⟨o, h1, h3, fun g hg => ⟨(h2 g hg).1, (h2 g hg).2.1, (h2 g hg).2.2.1⟩⟩

/-- One channel that occupies a short integer. -/
example : castInteger small .byte (.subword { subwordMono with bitsPerChannel := 16, pixelsPerWord := 1 }) =
    some (.yes ⟨.byte, 8, 2, .little, ⟨⟨1, 1⟩, false, false, true⟩⟩) := rfl

/-- C98 does not hold for casts of subword formats with more than one channel, or more than one pixel per word, to integer formats: with the
new format, the image does not fit in the memory that it is stored in. -/
theorem C98_overrun (M : Machine P word) (f : SubwordFormat) (hv : Valid P (.subword f)) (hc : 0 < channels f.conf) (t : IntegerType) (g : IntegerFormat)
    (hg : castInteger P t (.subword f) = some (.yes g)) (hn : ¬(channels f.conf = 1 ∧ f.pixelsPerWord = 1)) (width height : Nat)
    (h : 1 < width * height) : size P width height (.subword f) < size P width height (.integer g) := by
  obtain ⟨o, h1, h2, h3⟩ := castSubwordInteger_ok M f t hv hc
  have h1' : castInteger P t (.subword f) = some o := h1
  rw [hg] at h1'
  injection h1' with h1'
  obtain ⟨_, _, _, h4, h5⟩ := h2 g h1'.symm
  apply h4 hn width height h
  cases ha : f.aligned
  · exact Or.inl rfl
  · right
    have := hv.2.1
    by_contra h6
    exact h5 ha (by omega)

/-- Luminance and alpha in a short integer: two bytes per pixel become four. -/
example : ∃ g, castInteger small .byte (.subword subwordLa) = some (.yes g) ∧ size small 10 10 (.subword subwordLa) = 200 ∧
    size small 10 10 (.integer g) = 400 := ⟨_, rfl, by decide +kernel, by decide +kernel⟩

/-- C98 does not hold for casts to packed formats: an assertion fails for every valid format that is integer-based. -/
theorem C98_packed_missing (M : Machine P word) (f : Format) (hf : FieldsOk P f) (hv : Valid P f) (t : IntegerType)
    (hc : 0 < channels (conf f)) : castPacked P t f = none := by
  cases f with
  | integer f =>
    obtain ⟨b, hb, hb2⟩ := integer_valid P f
    obtain rfl : b = true := hb2.2 hv
    simp [castPacked, unimplemented, hb]
  | packed f =>
    obtain ⟨b, hb, hb2⟩ := packed_valid f hf
    obtain rfl : b = true := hb2.2 hv
    simp [castPacked, unimplemented, hb]
  | subword f =>
    obtain ⟨b, hb, hb2⟩ := subword_valid M f hc
    obtain rfl : b = true := hb2.2 hv
    simp [castPacked, unimplemented, hb]
  | float => simp [conf, channels] at hc
  | indexed => simp [conf, channels] at hc

/-- A packed format is not even cast to itself. -/
example : castPacked small .byte (.packed packedRgb) = none := rfl

end Verif.BufferFormat
