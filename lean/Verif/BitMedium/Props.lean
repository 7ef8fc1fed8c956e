import Verif.BitMedium.Lemmas
/-!
C73, C74: packing of values into integer types, and conversion between packed components of different widths.
-/
namespace Verif.BitMedium
open Verif.Integer (Ty)

/-- C73: a value of `N` bits, given in any integer type that can hold it, is packed into any integer type of at least `N` bits
(sign bit included) as specified, and without undefined behavior. -/
theorem C73_pack (I : Nat) (T U : Ty) (N v : Nat) (hN : N ≤ Spec.width T) (hv : v < 2 ^ N) (hU : Integer.Spec.Fits U v) :
    packInt I T N U v = some (Spec.packed T N v) :=
  packInt_spec (width_eq T ▸ hN) hv (Integer.fits_iff.1 hU)

/-- C73: unpacking into any integer type with at least `N` value bits gives the original value. -/
theorem C73_unpack (I : Nat) (hI : 1 ≤ I) (T U : Ty) (N v : Nat) (hN : N ≤ Spec.width T) (hU : N ≤ U.bits) (hv : v < 2 ^ N) :
    unpackIntA I N U T (Spec.packed T N v) = some (v : Int) :=
  unpackIntA_spec hI (width_eq T ▸ hN) hU hv

/-- C73: packing and then unpacking with the default type for unpacked values gives the original value. -/
theorem C73_round_trip (I : Nat) (hI : 1 ≤ I) (T U : Ty) (N v : Nat) (hN : N ≤ Spec.width T) (hv : v < 2 ^ N)
    (hU : Integer.Spec.Fits U v) :
    ∃ p, packInt I T N U v = some p ∧ Integer.Spec.Fits T p ∧ unpackInt I N T p = some (v : Int) :=
  ⟨_, C73_pack I T U N v hN hv hU, Integer.fits_iff.2 (packed_in (width_eq T ▸ hN) hv), unpackInt_spec hI (width_eq T ▸ hN) hv⟩

/-- C73: when all the bits of the type are used, every value of the type is the packed form of some value. -/
theorem C73_all (T : Ty) (p : Int) (hp : Integer.Spec.Fits T p) :
    ∃ v, v < 2 ^ Spec.width T ∧ Spec.packed T (Spec.width T) v = p := by
  obtain ⟨s, b⟩ := T
  unfold Integer.Spec.Fits at hp
  have hb := Integer.p_pos b
  have e := Integer.p_succ b
  cases s
  · simp only [Bool.false_eq_true, if_false] at hp
    refine ⟨p.toNat, ?_, ?_⟩
    · simp only [Spec.width, Bool.false_eq_true, if_false]
      have : (p.toNat : Int) < ((2 ^ b : Nat) : Int) := by push_cast; omega
      exact_mod_cast this
    · simp only [Spec.packed, Bool.false_eq_true, false_and, if_false]; omega
  · simp only [if_true] at hp
    have hcast : ((2 ^ b : Nat) : Int) = 2 ^ b := by push_cast; rfl
    have hcast' : ((2 ^ (b + 1) : Nat) : Int) = 2 ^ (b + 1) := by push_cast; rfl
    by_cases h : 0 ≤ p
    · refine ⟨p.toNat, ?_, ?_⟩
      · simp only [Spec.width, if_true]; omega
      · simp only [Spec.packed, Spec.width, if_true, true_and, Nat.add_sub_cancel]
        rw [if_neg (by omega)]; omega
    · refine ⟨(p + 2 ^ (b + 1)).toNat, ?_, ?_⟩
      · simp only [Spec.width, if_true]; omega
      · simp only [Spec.packed, Spec.width, if_true, true_and, Nat.add_sub_cancel]
        rw [if_pos (by omega)]; omega

example : packInt 31 ⟨true, 7⟩ 8 ⟨true, 31⟩ 200 = some (-56) := by decide +kernel
example : unpackInt 31 8 ⟨true, 7⟩ (-56) = some 200 := by decide +kernel
example : packInt 31 ⟨true, 7⟩ 7 ⟨true, 31⟩ 100 = some 100 := by decide +kernel
example : packInt 31 ⟨true, 31⟩ 32 ⟨false, 64⟩ 0xFFFFFFFE = some (-2) := by decide +kernel
example : unpackInt 31 32 ⟨true, 31⟩ (-2) = some 0xFFFFFFFE := by decide +kernel
example : Spec.packed ⟨true, 7⟩ 8 200 = -56 ∧ Spec.packed ⟨true, 7⟩ 8 127 = 127 ∧ Spec.packed ⟨false, 8⟩ 8 200 = 200 := by
  decide +kernel

/-- C74: a packed component of `M` bits is converted to the packed form, in any integer type of at least `N` bits, of the
fraction of unity that it represents. -/
theorem C74_convert (I : Nat) (hI : 1 ≤ I) (T J : Ty) (M N v : Nat) (hM : 0 < M) (hN : 0 < N) (hMJ : M ≤ Spec.width J)
    (hNT : N ≤ Spec.width T) (hv : v < 2 ^ M) :
    intToInt I M T N J (Spec.packed J M v) =
      some (Spec.packed T N (UnitFrac.Spec.convert v (2 ^ M - 1) (2 ^ N - 1))) :=
  intToInt_spec hI hM hN (width_eq J ▸ hMJ) (width_eq T ▸ hNT) hv

/-- Conversion to a number of bits that is not smaller, and back. -/
theorem convert_round_trip {n m v : Nat} (hn : 0 < n) (hnm : n ≤ m) (hv : v < 2 ^ n) :
    UnitFrac.Spec.convert (UnitFrac.Spec.convert v (2 ^ n - 1) (2 ^ m - 1)) (2 ^ m - 1) (2 ^ n - 1) = v := by
  obtain ⟨w, h1, h2⟩ := UnitFrac.C49_round_trip 31 ⟨false, m⟩ v n m hn hnm (Nat.le_refl _) hv
  have hF : ∀ k x : Nat, k ≤ m → x < 2 ^ k → Integer.Spec.Fits ⟨false, m⟩ (x : Int) := fun k x hk hx =>
    Integer.fits_iff.2 (natIn' (T := ⟨false, m⟩) hk hx)
  rw [UnitFrac.C49_value_partial 31 ⟨false, m⟩ v n m hn (by omega) (by simpa using hnm) (Nat.le_refl _) (hF n v hnm hv) hv] at h1
  injection h1 with h1
  subst h1
  have hlt : UnitFrac.Spec.convert v (2 ^ n - 1) (2 ^ m - 1) < 2 ^ m := by
    have := Nat.two_pow_pos m
    unfold UnitFrac.Spec.convert; omega
  rw [UnitFrac.C49_value_partial 31 ⟨false, m⟩ _ m n (by omega) hn (by simp) (by simpa using hnm) (hF m _ (Nat.le_refl _) hlt) hlt] at h2
  injection h2 with h2
  exact_mod_cast h2

/-- C74: a component that is converted to a number of bits that is not smaller, and back, possibly via a different integer
type, is unchanged. -/
theorem C74_round_trip (I : Nat) (hI : 1 ≤ I) (T J : Ty) (M N v : Nat) (hM : 0 < M) (hMN : M ≤ N) (hMJ : M ≤ Spec.width J)
    (hNT : N ≤ Spec.width T) (hv : v < 2 ^ M) :
    ∃ w, intToInt I M T N J (Spec.packed J M v) = some w ∧ intToInt I N J M T w = some (Spec.packed J M v) := by
  have hlt : UnitFrac.Spec.convert v (2 ^ M - 1) (2 ^ N - 1) < 2 ^ N := by
    have := Nat.two_pow_pos N
    unfold UnitFrac.Spec.convert; omega
  refine ⟨_, C74_convert I hI T J M N v hM (by omega) hMJ hNT hv, ?_⟩
  rw [C74_convert I hI J T N M _ (by omega) hM hNT hMJ hlt, convert_round_trip hM hMN hv]

example : intToInt 31 5 ⟨true, 7⟩ 8 ⟨false, 16⟩ 0b10110 = some (0b10110101 - 256) := by decide +kernel
example : intToInt 31 8 ⟨false, 16⟩ 5 ⟨true, 7⟩ (0b10110101 - 256) = some 0b10110 := by decide +kernel
example : intToInt 31 16 ⟨true, 7⟩ 8 ⟨true, 15⟩ (-1) = some (-1) := by decide +kernel
example : UnitFrac.Spec.convert 0b10110 31 255 = 0b10110101 := by decide +kernel

end Verif.BitMedium
