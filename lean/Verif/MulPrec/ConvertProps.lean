import Verif.MulPrec.Convert
/-!
Properties C57 and C65.
-/
namespace Verif.MulPrec
open Verif.Integer Verif.MulPrec.Spec

section C57
variable {I w1 w2 N M : Nat} {S : Bool} {a b : List Nat} (hp : I ≠ w1) (hI : 1 ≤ I) (hw1 : 1 ≤ w1) (hw2 : 1 ≤ w2)
  (hN : 0 < N) (hM : 0 < M)
include hp hI hw1 hw2 hN hM

/-- Every part of the target is written, whatever it held, and the target then holds the source value modulo the width of the
target. Nothing is undefined. -/
theorem C57_copy (ha : Valid w1 N a) (hb : Valid w2 M b) :
    ∃ r, bitCopy I w1 w2 N M S a b = some r ∧ Valid w2 M r ∧ (uval w2 r : Int) = value w1 N S a % 2 ^ (w2 * M) := by
  rw [D_iff] at ha hb
  obtain ⟨r, h1, h2, h3⟩ := bitCopy_spec (S := S) hp hI hw1 hw2 hN hM ha hb
  refine ⟨r, h1, D_iff.2 h2, ?_⟩
  have := uval_lt h2
  have e := cast_pow (w2 * M)
  rw [← Int.emod_emod_of_dvd _ (Int.dvd_refl _), ← Int.emod_eq_emod_iff_emod_sub_eq_zero.2 (Int.emod_eq_zero_of_dvd h3),
    Int.emod_emod_of_dvd _ (Int.dvd_refl _), Int.emod_eq_of_lt (by omega) (by omega)]

/-- With sign extension, or without for a source of unsigned type, a value that fits in the target is preserved. -/
theorem C57_preserved (ha : Valid w1 N a) (hb : Valid w2 M b) (hf : Fits w2 M S (value w1 N S a)) :
    ∃ r, bitCopy I w1 w2 N M S a b = some r ∧ Valid w2 M r ∧ value w2 M S r = value w1 N S a := by
  rw [D_iff] at ha hb
  obtain ⟨r, h1, h2, h3⟩ := bitCopy_spec (S := S) hp hI hw1 hw2 hN hM ha hb
  have hW : 0 < w2 * M := Nat.mul_pos (by omega) hM
  exact ⟨r, h1, D_iff.2 h2, by rw [value_eq_wrap hW h2 h3, wrap_of_fits hW hf]⟩

end C57

section C65
variable {I w N : Nat} {S : Bool} (hp : I ≠ w) (hI : 1 ≤ I) (hw : 1 ≤ w) (hN : 0 < N)
include hp hI hw hN

/-- Conversion between multiple precision types. -/
theorem C65_multi {w' N' : Nat} {S' : Bool} {a : List Nat} (hp' : I ≠ w') (hw' : 1 ≤ w') (hN' : 0 < N') (ha : Valid w N a) :
    ∃ r, castMM I w N S w' N' S' a = some r ∧ Valid w' N' r ∧ value w' N' S' r = wrap w' N' S' (value w N S a) := by
  rw [D_iff] at ha
  have hW' : 0 < w' * N' := Nat.mul_pos (by omega) hN'
  obtain ⟨p1, h1, h2, h3⟩ := getParts_spec (S := S) hp hI hw hN ha
  have hr : I ≠ reprWidth I w ∧ 1 ≤ reprWidth I w := by rcases reprWidth_cases hp with ⟨h, e⟩ | ⟨h, e⟩ <;> omega
  have hr' : 1 ≤ reprWidth I w' := by rcases reprWidth_cases hp' with ⟨h, e⟩ | ⟨h, e⟩ <;> omega
  obtain ⟨p2, h4, h5, h6⟩ := bitCopy_spec (S := S) hr.1 hI hr.2 hr' (reprParts_pos hp hw hN) (reprParts_pos hp' hw' hN') h2
    (D_zero (two_pos _) _)
  obtain ⟨r, h7, h8, h9⟩ := fromParts_spec (S := S') hp' hI hw' hN' h5
  refine ⟨r, ?_, D_iff.2 h8, value_eq_wrap hW' h8 ?_⟩
  · simp only [castMM, h1, h4, h7, Option.bind_eq_bind, Option.bind_some]
  · rw [h3] at h6
    have := Int.dvd_add h9 (Int.dvd_trans (p_dvd (repr_le hp')) h6)
    rwa [show (uval w' r : Int) - uval (reprWidth I w') p2 + ((uval (reprWidth I w') p2 : Int) - value w N S a) =
      (uval w' r : Int) - value w N S a by ring] at this

/-- Conversion from a fundamental type. -/
theorem C65_from_fundamental {t : Ty} {x : Int} (hx : t.In x) :
    ∃ r, castFM I t w N S x = some r ∧ Valid w N r ∧ value w N S r = wrap w N S x := by
  have hW : 0 < w * N := Nat.mul_pos (by omega) hN
  obtain ⟨h2, h3⟩ := getPartsF_spec (I := I) hx
  have ht := width_le_part (I := I) (t := t)
  have hr : 1 ≤ reprWidth I w := by rcases reprWidth_cases hp with ⟨h, e⟩ | ⟨h, e⟩ <;> omega
  obtain ⟨p2, h4, h5, h6⟩ := bitCopy_spec (S := t.signed) (show I ≠ partWidth I t by omega) hI (by omega) hr (by omega)
    (reprParts_pos hp hw hN) h2 (D_zero (two_pos _) _)
  obtain ⟨r, h7, h8, h9⟩ := fromParts_spec (S := S) hp hI hw hN h5
  refine ⟨r, ?_, D_iff.2 h8, value_eq_wrap hW h8 ?_⟩
  · simp only [castFM, h4, h7, Option.bind_eq_bind, Option.bind_some]
  · rw [h3] at h6
    have := Int.dvd_add h9 (Int.dvd_trans (p_dvd (repr_le hp)) h6)
    rwa [show (uval w r : Int) - uval (reprWidth I w) p2 + ((uval (reprWidth I w) p2 : Int) - x) =
      (uval w r : Int) - x by ring] at this

/-- Conversion to a fundamental type. -/
theorem C65_to_fundamental {t : Ty} {a : List Nat} (ha : Valid w N a) :
    ∃ x, castMF I w N S t a = some x ∧ t.In x ∧ (2 : Int) ^ t.width ∣ x - value w N S a := by
  rw [D_iff] at ha
  obtain ⟨p1, h1, h2, h3⟩ := getParts_spec (S := S) hp hI hw hN ha
  have hr : I ≠ reprWidth I w ∧ 1 ≤ reprWidth I w := by rcases reprWidth_cases hp with ⟨h, e⟩ | ⟨h, e⟩ <;> omega
  have ht := width_le_part (I := I) (t := t)
  obtain ⟨p2, h4, h5, h6⟩ := bitCopy_spec (w2 := partWidth I t) (M := 1) (S := S) hr.1 hI hr.2 (by omega) (reprParts_pos hp hw hN)
    (by omega) h2 (D_zero (two_pos _) _)
  obtain ⟨x, h7, h8, h9⟩ := fromPartsF_spec h5
  refine ⟨x, ?_, h8, ?_⟩
  · simp only [castMF, h1, h4, h7, Option.bind_eq_bind, Option.bind_some]
  · rw [h3] at h6
    have := Int.dvd_add h9 (Int.dvd_trans (p_dvd (by omega)) h6)
    rwa [show x - (uval (partWidth I t) p2 : Int) + ((uval (partWidth I t) p2 : Int) - value w N S a) = x - value w N S a by ring]
      at this

/-- A value of a fundamental type that the multiple precision type can represent survives conversion there and back. -/
theorem C65_round_trip {t : Ty} {x : Int} (hx : t.In x) (hf : Fits w N S x) :
    ∃ r, castFM I t w N S x = some r ∧ value w N S r = x ∧ castMF I w N S t r = some x := by
  have hW : 0 < w * N := Nat.mul_pos (by omega) hN
  obtain ⟨r, h1, h2, h3⟩ := C65_from_fundamental (S := S) hp hI hw hN hx
  rw [wrap_of_fits hW hf] at h3
  obtain ⟨y, h4, h5, h6⟩ := C65_to_fundamental (S := S) (t := t) hp hI hw hN h2
  refine ⟨r, h1, h3, ?_⟩
  rw [h4, ← cast_id h5, cast_eq hx (by rwa [h3] at h6)]

end C65

/-! ### Concrete instances -/

/-- Three parts of 8 bits, holding -2, are copied to five parts of 3 bits, and to two parts of 32 bits. -/
example : value 8 3 true [0xFE, 0xFF, 0xFF] = -2 ∧
    bitCopy 31 8 3 3 5 true [0xFE, 0xFF, 0xFF] [1, 2, 3, 4, 5] = some [6, 7, 7, 7, 7] ∧ value 3 5 true [6, 7, 7, 7, 7] = -2 ∧
    bitCopy 31 8 32 3 2 true [0xFE, 0xFF, 0xFF] [0, 0] = some [0xFFFFFFFE, 0xFFFFFFFF] ∧
    bitCopy 31 8 32 3 2 false [0xFE, 0xFF, 0xFF] [0, 0] = some [0x00FFFFFE, 0] := by decide +kernel

/-- Parts whose widths do not divide each other. -/
example : bitCopy 31 5 7 4 3 false [0x1F, 0x01, 0x15, 0x0A] [0, 0, 0] = some [0x3F, 0x28, 0x15] ∧
    uval 5 [0x1F, 0x01, 0x15, 0x0A] = uval 7 [0x3F, 0x28, 0x15] := by decide +kernel

/-- `-300` to a signed type with three parts of 8 bits, and back to `int`, to `signed char`, and to `unsigned`. -/
example : castFM 31 ⟨true, 31⟩ 8 3 true (-300) = some [0xD4, 0xFE, 0xFF] ∧
    castMF 31 8 3 true ⟨true, 31⟩ [0xD4, 0xFE, 0xFF] = some (-300) ∧
    castMF 31 8 3 true ⟨true, 7⟩ [0xD4, 0xFE, 0xFF] = some (-44) ∧
    castMF 31 8 3 true ⟨false, 32⟩ [0xD4, 0xFE, 0xFF] = some 4294966996 ∧
    castMM 31 8 3 true 64 2 false [0xD4, 0xFE, 0xFF] = some [0xFFFFFFFFFFFFFED4, 0xFFFFFFFFFFFFFFFF] := by decide +kernel

end Verif.MulPrec
