import Verif.BitField.Lemmas
/-!
C77: bit fields.
-/
namespace Verif.BitField
open Verif.Integer Verif.BitMedium

/-- C77: the check for validity gives the correct answer, without undefined behavior, even when the total number of bits is
not representable. -/
theorem C77_valid (I : Nat) (fields : List Field) (n : Int) (hf : ∀ f ∈ fields, Integer.Spec.Fits (intTy I) f.width ∧
    Integer.Spec.Fits (intTy I) f.gap) (hn : Integer.Spec.Fits (intTy I) n) :
    ∃ b, validBitFields I fields n = some b ∧ (b = true ↔ Spec.Valid fields n) := by
  unfold validBitFields
  rw [validLoop_spec fields 0 (by omega) (p_pos I) (fun f h => ⟨Integer.fits_iff.1 (hf f h).1, Integer.fits_iff.1 (hf f h).2⟩),
    Int.zero_add]
  have hn2 : n < 2 ^ I := hn.2
  by_cases c : Pos fields ∧ Spec.total fields < 2 ^ I
  · rw [if_pos c]
    refine ⟨_, rfl, ?_⟩
    rw [decide_eq_true_iff]
    exact ⟨fun h => ⟨c.1, h⟩, fun h => h.2⟩
  · rw [if_neg c]
    refine ⟨_, rfl, ?_⟩
    simp only [Bool.false_eq_true, false_iff]
    exact fun h => c ⟨h.1, by have := h.2; omega⟩

/-- C77: the width of a field. -/
theorem C77_width (fields : List Field) (n : Int) (hv : Spec.Valid fields n) (i : Nat) (hi : i < fields.length) :
    getBitFieldWidth fields i = some (Spec.width fields i : Int) := getBitFieldWidth_spec hv.1 hi

/-- C77: the position of a field. -/
theorem C77_shift (I : Nat) (fields : List Field) (n : Int) (hv : Spec.Valid fields n) (hn : Integer.Spec.Fits (intTy I) n) (i : Nat)
    (hi : i < fields.length) : getBitFieldShift I fields i = some (Spec.shift fields i : Int) :=
  getBitFieldShift_spec hv.1 (by have := hv.2; have : n < 2 ^ I := hn.2; omega) hi

/-- C77: the fields of a valid sequence are within the available bits, and a later field is entirely less significant than an
earlier one. -/
theorem C77_disjoint (fields : List Field) (n : Int) (hv : Spec.Valid fields n) :
    (∀ i, ((Spec.shift fields i + Spec.width fields i : Nat) : Int) ≤ n) ∧
    ∀ i j, i < j → i < fields.length → Spec.shift fields j + Spec.width fields j ≤ Spec.shift fields i :=
  ⟨fun i => by have := shift_width_le hv.1 i; have := hv.2; omega, fun _ _ hij hi => disjoint hv.1 hij hi⟩

/-- C77: the mask of a field is the packed form of the integer that has exactly the bits of the field set. -/
theorem C77_mask (I : Nat) (hI : 1 ≤ I) (T : Ty) (fields : List Field) (hv : Spec.Valid fields (BitMedium.Spec.width T))
    (hT : Integer.Spec.Fits (intTy I) (BitMedium.Spec.width T)) (i : Nat) (hi : i < fields.length) :
    ∃ m : Nat, getBitFieldMask I T fields i = some (BitMedium.Spec.packed T (BitMedium.Spec.width T) m) ∧ m < 2 ^ BitMedium.Spec.width T ∧
      ∀ b, m.testBit b = decide (Spec.shift fields i ≤ b ∧ b < Spec.shift fields i + Spec.width fields i) := by
  have hw := (C77_disjoint fields _ hv).1 i
  have hle : Spec.shift fields i + Spec.width fields i ≤ BitMedium.Spec.width T := by exact_mod_cast hw
  have hpos := width_pos hv.1 hi
  have hbits : T.width ≤ (unpackedType I T T.width).bits := unpacked_bits _ _ _ (Nat.le_refl _)
  have hbw := PixelLoops.bits_le_width (unpackedType I T T.width)
  rw [width_eq] at hle ⊢
  have hmul : (2 ^ Spec.width fields i - 1) * 2 ^ Spec.shift fields i < 2 ^ T.width := by
    have h1 : (2 ^ Spec.width fields i - 1) * 2 ^ Spec.shift fields i < 2 ^ Spec.width fields i * 2 ^ Spec.shift fields i :=
      Nat.mul_lt_mul_of_pos_right (by have := Nat.two_pow_pos (Spec.width fields i); omega) (Nat.two_pow_pos _)
    rw [← Nat.pow_add] at h1
    exact Nat.lt_of_lt_of_le h1 (Nat.pow_le_pow_right (by decide) (by omega))
  have hmul2 := Nat.lt_of_lt_of_le hmul (Nat.pow_le_pow_right (by decide) hbits)
  refine ⟨(2 ^ Spec.width fields i - 1) * 2 ^ Spec.shift fields i, ?_, hmul, fun b => ?_⟩
  · unfold getBitFieldMask
    rw [C77_width fields _ hv i hi, C77_shift I fields _ hv hT i hi]
    simp only [Option.bind_eq_bind, Option.bind_some]
    rw [if_pos ⟨by omega, by omega⟩, Int.toNat_natCast, Int.toNat_natCast, intMask_spec hI, Int.toNat_natCast,
      Nat.min_eq_left (by omega)]
    have hp := Nat.two_pow_pos (Spec.width fields i)
    rw [show ((2 : Int) ^ Spec.width fields i - 1) = ((2 ^ Spec.width fields i - 1 : Nat) : Int) by push_cast [hp]; rfl]
    simp only [Option.bind_some]
    rw [PixelLoops.shl_nat (by omega) hmul2]
    simp only [Option.bind_some]
    exact packInt_spec (Nat.le_refl _) hmul ((In_nonneg (by omega)).2 (by exact_mod_cast hmul2))
  · rw [Nat.mul_comm, Nat.testBit_two_pow_mul, Nat.testBit_two_pow_sub_one]
    by_cases h1 : Spec.shift fields i ≤ b
    · simp [h1]; omega
    · simp [h1]

/-- C77: the width of the widest field. -/
theorem C77_widest (fields : List Field) (n : Int) (hv : Spec.Valid fields n) :
    (∀ f ∈ fields, f.width ≤ widestBitField fields) ∧
      (fields = [] ∧ widestBitField fields = 0 ∨ ∃ f ∈ fields, f.width = widestBitField fields) := by
  obtain ⟨h1, h2, h3⟩ := widestLoop_spec fields 0
  refine ⟨h2, ?_⟩
  rcases h3 with h3 | h3
  · left
    refine ⟨?_, h3⟩
    cases fields with
    | nil => rfl
    | cons f fs =>
      have := h2 f (List.mem_cons_self ..)
      have := hv.1 f (List.mem_cons_self ..)
      omega
  · exact Or.inr h3

/-- C77: values that are packed into the fields, can be extracted from them, and packing does not exceed the total width. -/
theorem C77_pack (fields : List Field) (n : Nat) (hv : Spec.Valid fields n) (values : List Nat) (h : Spec.Fits fields values) :
    Spec.pack fields values < 2 ^ n ∧ ∀ i (hi : i < values.length), Spec.extract fields (Spec.pack fields values) i = values[i] :=
  ⟨Nat.lt_of_lt_of_le (pack_lt hv.1 h) (Nat.pow_le_pow_right (by decide) (by have := hv.2; omega)),
    fun _ hi => extract_pack hv.1 h hi⟩

/-- The fields of a 16-bit pixel with one unused bit. -/
def rgb555 : List Field := [⟨5, 0⟩, ⟨5, 0⟩, ⟨5, 1⟩]

example : validBitFields 31 rgb555 16 = some true := by decide +kernel
example : validBitFields 31 rgb555 15 = some false := by decide +kernel
example : validBitFields 31 [⟨2 ^ 31 - 1, 0⟩, ⟨1, 0⟩] (2 ^ 31 - 1) = some false := by decide +kernel
example : validBitFields 31 [⟨8, 0⟩, ⟨8, -1⟩] 32 = some false := by decide +kernel
example : getBitFieldShift 31 rgb555 0 = some 11 ∧ getBitFieldShift 31 rgb555 2 = some 1 := by decide +kernel
example : getBitFieldMask 31 ⟨true, 15⟩ rgb555 0 = some (-2048) := by decide +kernel
example : getBitFieldMask 31 ⟨false, 16⟩ rgb555 1 = some 0x7C0 := by decide +kernel
example : widestBitField [⟨5, 0⟩, ⟨6, 0⟩, ⟨5, 0⟩] = 6 := by decide +kernel
example : Spec.pack rgb555 [31, 0, 1] = 0xF802 := by decide +kernel
example : Spec.Valid rgb555 16 := by unfold Spec.Valid rgb555 Spec.total; decide

end Verif.BitField
