import Verif.BitMedium.Model
import Verif.BitMedium.Spec
import Verif.UnitFrac.Props
/-!
Lemmas about packing and unpacking.
-/
namespace Verif.BitMedium
open Verif.Integer

theorem width_eq (T : Ty) : Spec.width T = T.width := by
  unfold Spec.width Ty.width; cases T.signed <;> simp

theorem wide_unsigned (I : Nat) (T : Ty) : (wide I T).signed = false := by
  unfold wide unsignedOf; split <;> simp_all

theorem wide_bits (I : Nat) (T : Ty) : T.width ≤ (wide I T).bits := by
  unfold wide unsignedOf promote Ty.width intTy
  obtain ⟨s, b⟩ := T
  by_cases h : b ≤ I <;> cases s <;> simp [h] <;> omega

theorem wide_width (I : Nat) (T : Ty) : (wide I T).width = (wide I T).bits := by
  unfold Ty.width; simp [wide_unsigned]

theorem natIn' {T : Ty} {N v : Nat} (h : N ≤ T.bits) (hv : v < 2 ^ N) : T.In (v : Int) := by
  rw [In_nonneg (by omega)]
  have : 2 ^ N ≤ 2 ^ T.bits := Nat.pow_le_pow_right (by decide) h
  exact_mod_cast (by omega : v < 2 ^ T.bits)

theorem unpacked_bits (I : Nat) (T : Ty) (N : Nat) (h : N ≤ T.width) : N ≤ (unpackedType I T N).bits := by
  unfold unpackedType
  split
  · assumption
  · have := wide_bits I T; omega

theorem packed_of_le {T : Ty} {N v : Nat} (h : N ≤ T.bits) : Spec.packed T N v = v := by
  unfold Spec.packed; rw [if_neg (by omega)]

theorem signed_of {T : Ty} {N : Nat} (h : N ≤ T.width) (h2 : ¬ N ≤ T.bits) : T.signed = true ∧ N = T.bits + 1 := by
  unfold Ty.width at h
  cases hs : T.signed <;> rw [hs] at h <;> simp at h ⊢ <;> omega

theorem packed_in {T : Ty} {N v : Nat} (hN : N ≤ T.width) (hv : v < 2 ^ N) : T.In (Spec.packed T N v) := by
  by_cases h : N ≤ T.bits
  · rw [packed_of_le h]; exact natIn' h hv
  · obtain ⟨hs, rfl⟩ := signed_of hN h
    obtain ⟨s, b⟩ := T
    simp only at hs; subst hs
    unfold Spec.packed
    have e : (2 : Int) ^ (b + 1) = 2 * 2 ^ b := p_succ b
    have hv' : (v : Int) < 2 ^ (b + 1) := by exact_mod_cast hv
    simp only [Nat.add_sub_cancel, true_and]
    split
    · rename_i h2
      have : (2 : Int) ^ b ≤ v := by exact_mod_cast h2
      rw [In_s]; omega
    · rename_i h2
      have : (v : Int) < 2 ^ b := by exact_mod_cast (Nat.lt_of_not_le h2)
      rw [In_s]; have := p_pos b; omega

theorem packInt_spec {I : Nat} {T U : Ty} {N v : Nat} (hN : N ≤ T.width) (hv : v < 2 ^ N) (hU : U.In v) :
    packInt I T N U v = some (Spec.packed T N v) := by
  unfold packInt
  by_cases h : N ≤ T.bits
  · rw [if_pos h, packed_of_le h, cast_id (natIn' h hv)]
  · rw [if_neg h]
    obtain ⟨hs, hNe⟩ := signed_of hN h
    have hw := wide_bits I T
    have hwu := wide_unsigned I T
    have hin : (wide I T).In (v : Int) := natIn' (by omega) hv
    rw [tryIntCast_spec I _ _ _ hU, if_pos hin]
    have hv' : (v : Int) < 2 ^ N := by exact_mod_cast hv
    show ((signExtend I (wide I T) v N).bind _) = _
    rw [signExtend_spec hwu (by omega) (by omega) hv' (by omega)]
    simp only [Option.bind_some]
    congr 1
    generalize wide I T = Wd at *
    obtain ⟨s, W⟩ := Wd
    obtain ⟨s', b⟩ := T
    simp only at *
    subst hwu hs hNe
    simp only [width_s] at hw
    unfold castFromTwosComplA Spec.packed
    have e : (2 : Int) ^ (b + 1) = 2 * 2 ^ b := p_succ b
    have hb := p_pos b
    have hle : (2 : Int) ^ b ≤ 2 ^ (W - 1) := p_le (by omega)
    have eW : (2 : Int) ^ W = 2 * 2 ^ (W - 1) := by
      rw [← p_succ]; congr 1; omega
    simp only [Nat.add_sub_cancel, true_and]
    by_cases hc : 2 ^ b ≤ v
    · have hc' : (2 : Int) ^ b ≤ v := by exact_mod_cast hc
      rw [if_pos hc', if_pos hc, castU_neg (by omega) (by omega), if_pos (by omega)]
      rw [castS_id (by omega) (by omega)]; omega
    · have hc' : (v : Int) < 2 ^ b := by exact_mod_cast (Nat.lt_of_not_le hc)
      rw [if_neg (by omega : ¬ (2 : Int) ^ b ≤ v), if_neg hc, castU_id (by omega) (by omega), if_neg (by omega)]
      rw [castS_id (by omega) (by omega)]

theorem unpackIntA_spec {I : Nat} (hI : 1 ≤ I) {T U : Ty} {N v : Nat} (hN : N ≤ T.width) (hU : N ≤ U.bits) (hv : v < 2 ^ N) :
    unpackIntA I N U T (Spec.packed T N v) = some (v : Int) := by
  unfold unpackIntA
  by_cases h : N ≤ T.bits
  · rw [if_pos h, packed_of_le h, cast_id (natIn' hU hv)]
  · rw [if_neg (by omega)]
    obtain ⟨hs, hNe⟩ := signed_of hN h
    have hw := wide_bits I T
    have hwu := wide_unsigned I T
    rw [intMask_spec hI]
    simp only [Option.bind_eq_bind, Option.bind_some]
    have hmin : min ((N : Int).toNat) (wide I T).bits = N := by simp; omega
    rw [hmin]
    have hm : ((2 : Int) ^ N - 1) = ((2 ^ N - 1 : Nat) : Int) := by
      have := Nat.two_pow_pos N
      push_cast [Nat.cast_sub this]; rfl
    have hmlt : (2 ^ N - 1 : Nat) < 2 ^ N := by have := Nat.two_pow_pos N; omega
    unfold bitAnd
    rw [hm, bitsOf_nonneg (x := ((2 ^ N - 1 : Nat) : Int)) (by omega) (by have := In_lt (natIn' (T := wide I T) (N := N) (by omega) hmlt); exact this)]
    rw [bitsOf_cast, wide_width, Int.toNat_natCast, Nat.and_two_pow_sub_one_eq_mod]
    have key : (Spec.packed T N v % 2 ^ (wide I T).bits).toNat % 2 ^ N = v := by
      have h1 : ((((Spec.packed T N v % 2 ^ (wide I T).bits).toNat % 2 ^ N : Nat)) : Int) = v := by
        push_cast
        rw [Int.toNat_of_nonneg (Int.emod_nonneg _ (by have := p_pos (wide I T).bits; omega))]
        rw [Int.emod_emod_of_dvd _ (pow_dvd_pow _ (by omega))]
        have hv' : (v : Int) < 2 ^ N := by exact_mod_cast hv
        unfold Spec.packed
        split
        · rw [Int.sub_emod_right, Int.emod_eq_of_lt (by omega) hv']
        · rw [Int.emod_eq_of_lt (by omega) hv']
      exact_mod_cast h1
    rw [key, cast_id (natIn' (T := wide I T) (by omega) hv), cast_id (natIn' hU hv)]

theorem unpackInt_spec {I : Nat} (hI : 1 ≤ I) {T : Ty} {N v : Nat} (hN : N ≤ T.width) (hv : v < 2 ^ N) :
    unpackInt I N T (Spec.packed T N v) = some (v : Int) :=
  unpackIntA_spec hI hN (unpacked_bits I T N hN) hv

theorem common_bits (t u : Ty) : t.bits ≤ (common t u).bits ∧ u.bits ≤ (common t u).bits := by
  obtain ⟨s, b⟩ := t
  obtain ⟨s', b'⟩ := u
  unfold common
  cases s <;> cases s' <;> simp only [Bool.false_eq_true, if_false, if_true]
  · split <;> simp_all; omega
  · split <;> simp_all; omega
  · split <;> simp_all; omega
  · by_cases h : b > b'
    · simp [h]; omega
    · by_cases h2 : b = b'
      · subst h2; split <;> simp
      · rw [if_neg]
        · simp; omega
        · have hlt : b < b' := by omega
          have e := p_lt hlt
          have hb := p_pos b
          have hm : (⟨true, b⟩ : Ty).min + 1 = -(2 ^ b) + 1 := rfl
          rw [hm, castS_id (by omega) (by omega)]
          simp only [min_s]; omega

theorem intToInt_spec {I : Nat} (hI : 1 ≤ I) {T J : Ty} {M N v : Nat} (hM : 0 < M) (hN : 0 < N) (hMJ : M ≤ J.width)
    (hNT : N ≤ T.width) (hv : v < 2 ^ M) :
    intToInt I M T N J (Spec.packed J M v) =
      some (Spec.packed T N (UnitFrac.Spec.convert v (2 ^ M - 1) (2 ^ N - 1))) := by
  unfold intToInt
  rw [unpackInt_spec hI hMJ hv]
  have h1 := unpacked_bits I J M hMJ
  have h2 := unpacked_bits I T N hNT
  have h3 := common_bits (unpackedType I J M) (unpackedType I T N)
  have hb : (common (unpackedType I J M) (unpackedType I T N)).bits ≤
      (common (unpackedType I J M) (unpackedType I T N)).width := by unfold Ty.width; omega
  simp only [Option.bind_eq_bind, Option.bind_some]
  rw [cast_id (natIn' (by omega) hv)]
  rw [UnitFrac.C49_value_partial I _ v M N hM hN (by omega) (by omega) (fits_iff.2 (natIn' (by omega) hv)) hv]
  have hlt : UnitFrac.Spec.convert v (2 ^ M - 1) (2 ^ N - 1) < 2 ^ N := by
    have := Nat.two_pow_pos N
    unfold UnitFrac.Spec.convert; omega
  exact packInt_spec hNT hlt (natIn' (by omega) hlt)

end Verif.BitMedium
