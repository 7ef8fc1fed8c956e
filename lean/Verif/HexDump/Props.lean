import Verif.HexDump.Lemmas
import Verif.Integer.Props
/-!
Property C43: /repo/src/archon/core/hex_dump.hpp.
-/
namespace Verif.HexDump
open Verif.Integer
open Verif.IntText (ofOption)
open Verif.Buffer (Err Res bind_ok bind_err)
variable {C : Type}

theorem width_le (I : Nat) (T : Ty) : T.width ≤ (uintType I T).bits := by
  rcases T with ⟨s, b⟩
  unfold uintType strong promote intTy
  by_cases h : b ≤ I
  · simp only [h, if_true, common_ss]
    unfold unsignedOf Ty.width
    cases s <;> simp <;> omega
  · simp only [h, if_false]
    unfold unsignedOf Ty.width
    cases s
    · simp [common_su, h]
    · rw [common_ss]; simp

theorem uint_unsigned (I : Nat) (T : Ty) : (uintType I T).signed = false := by
  unfold uintType unsignedOf
  split_ifs with h
  · rfl
  · simpa using h

theorem value_eq (I : Nat) (T : Ty) (x : Int) :
    bitAnd (uintType I T) (cast (uintType I T) x) (2 ^ (min T.width (uintType I T).bits) - 1) = x % 2 ^ T.width := by
  have h1 := width_le I T
  have h2 := uint_unsigned I T
  generalize uintType I T = u at *
  rcases u with ⟨s, b⟩
  subst h2
  simp only [] at h1
  rw [Nat.min_eq_left h1]
  have p1 : (0 : Int) < 2 ^ b := p_pos b
  have p2 : (2 : Int) ^ T.width ≤ 2 ^ b := p_le h1
  have p3 : (0 : Int) < 2 ^ T.width := p_pos _
  have hx0 : 0 ≤ x % 2 ^ b := Int.emod_nonneg _ (by omega)
  have hx1 : x % 2 ^ b < 2 ^ b := Int.emod_lt_of_pos _ p1
  rw [cast_u, bitAnd_left hx0 hx1, bitsOf_nonneg (by omega) (by simp only []; omega)]
  have e : ((2 : Int) ^ T.width - 1).toNat = 2 ^ T.width - 1 := by
    have : ((2 ^ T.width : Nat) : Int) = 2 ^ T.width := by push_cast; rfl
    omega
  rw [e, Nat.and_two_pow_sub_one_eq_mod]
  push_cast
  rw [Int.toNat_of_nonneg hx0]
  exact Int.emod_emod_of_dvd _ (pow_dvd_pow 2 h1)

theorem numDigits_mask {w n : Nat} (h : Integer.Spec.NumDigits (2 ^ w - 1) 16 n) : n = (w + 3) / 4 := by
  refine C55_num_digits_unique (2 ^ w - 1) 16 (by omega) n _ h ?_
  unfold Integer.Spec.NumDigits
  have e : ((2 : Int) ^ w - 1).natAbs = 2 ^ w - 1 := by
    have : ((2 ^ w : Nat) : Int) = 2 ^ w := by push_cast; rfl
    have : 0 < 2 ^ w := Nat.pow_pos (by omega)
    omega
  rw [e]
  have hp : 0 < 2 ^ w := Nat.pow_pos (by omega)
  have e16 : ∀ k, (16 : Int).natAbs ^ k = 2 ^ (4 * k) := by
    intro k
    rw [show (16 : Int).natAbs = 2 ^ 4 by rfl, ← pow_mul]
  constructor
  · rw [e16]
    have := Nat.pow_le_pow_right (n := 2) (by omega) (show w ≤ 4 * ((w + 3) / 4) by omega)
    omega
  · by_cases h0 : w = 0
    · left; omega
    · right
      rw [e16]
      have := Nat.pow_lt_pow_right (a := 2) (by omega) (show 4 * ((w + 3) / 4 - 1) < w by omega)
      omega

/-- The effective number of digits. -/
theorem effMinDigits_spec (I : Nat) (hI : 7 ≤ I) (T : Ty) (minDigits : Int) :
    effMinDigits I T minDigits = .ok ((if minDigits ≤ 0 then (T.width + 3) / 4 else minDigits.toNat : Nat) : Int) := by
  unfold effMinDigits
  by_cases h : minDigits ≤ 0
  · rw [if_pos h, if_pos h, C56_mask I (by omega)]
    have hw := width_le I T
    rw [Int.toNat_natCast, Nat.min_eq_left hw]
    show (Except.ok _ >>= _ : Res Int) = _
    rw [bind_ok]
    have p1 : (2 : Int) ^ T.width ≤ 2 ^ (uintType I T).bits := p_le hw
    have p3 : (0 : Int) < 2 ^ T.width := p_pos _
    have p4 : (128 : Int) ≤ 2 ^ I := p_le (a := 7) hI
    obtain ⟨n, h1, -, h2⟩ := C55_num_digits I (uintType I T) (2 ^ T.width - 1) 16
      (fits_iff.2 (by rw [In_nonneg (by omega)]; omega)) (by omega)
      (fits_iff.2 (by unfold intTy; rw [In_s]; omega))
    rw [h1, numDigits_mask h2]
    rfl
  · rw [if_neg h, if_neg h, Int.toNat_of_nonneg (by omega)]

/-- The text of each element. -/
theorem formatElem_spec (I : Nat) (hI : 7 ≤ I) (T : Ty) (M : Nat) (d : C) (widen : Nat → C) (n : Nat)
    (hn : n < 2 ^ I) (hT : (uintType I T).bits + 1 < 2 ^ I) (hM : max n ((uintType I T).bits + 1) + 1 ≤ M) :
    Formats M (formatElem I T M d widen n) (fun _ => True)
      (fun x => (Verif.IntText.Spec.numeral false 16 n (x % 2 ^ T.width)).map widen) := by
  intro x mem _ hm
  unfold formatElem
  rw [C56_mask I (by omega), Int.toNat_natCast]
  have hp : ((2 ^ I : Nat) : Int) = 2 ^ I := by push_cast; rfl
  have hw := width_le I T
  have p1 : (2 : Int) ^ T.width ≤ 2 ^ (uintType I T).bits := p_le hw
  have p3 : (0 : Int) < 2 ^ T.width := p_pos _
  have hx0 : 0 ≤ x % 2 ^ T.width := Int.emod_nonneg _ (by omega)
  have hx1 : x % 2 ^ T.width < 2 ^ T.width := Int.emod_lt_of_pos _ p3
  obtain ⟨n', mem', a1, -, a2, a3⟩ := Verif.IntText.C26_format I hI (uintType I T) M d widen false 16 (by omega) (by omega) n
    (by omega) (x % 2 ^ T.width) (fits_iff.2 (by rw [In_nonneg hx0]; omega)) mem hm hT (by simpa using hM)
  have : n' = n := by have := a1 (by omega); omega
  subst this
  refine ⟨mem', a2, ?_⟩
  show (Except.ok _ >>= _ : Res _) = _
  rw [bind_ok]
  dsimp only
  rw [value_eq]
  exact a3

/-- C43: without a limit (`max_size` is the largest value of `std::size_t`), the dump is complete. -/
theorem C43_unlimited (I : Nat) (hI : 7 ≤ I) (T : Ty) (M : Nat) (d : C) (widen : Nat → C) (sep : List C)
    (minDigits : Int) (hmd : minDigits < 2 ^ I) (data : List Int) (mem : List C) (hm : mem.length ≤ M)
    (hT : (uintType I T).bits + 1 < 2 ^ I) (hM : max minDigits.toNat ((uintType I T).bits + 1) + 1 ≤ M) :
    hexDump I T M d widen sep minDigits M data mem =
      .ok (Spec.complete sep (data.map fun x => (Spec.elemText T.width minDigits x).map widen)) := by
  unfold hexDump
  rw [effMinDigits_spec I hI, bind_ok]
  have hw := width_le I T
  have hp : ((2 ^ I : Nat) : Int) = 2 ^ I := by push_cast; rfl
  refine dump_unlimited (formatElem_spec I hI T M d widen _ ?_ hT ?_) widen sep data mem (by simp) hm
  · split_ifs <;> omega
  · split_ifs <;> omega

/-- C43: with a limit, the dump is complete if that fits, and otherwise it is cut after as many elements as possible,
and an ellipsis is added. The limit is taken to be at least the size of the ellipsis. -/
theorem C43_limited (I : Nat) (hI : 7 ≤ I) (T : Ty) (M : Nat) (d : C) (widen : Nat → C) (sep : List C)
    (minDigits : Int) (hmd : minDigits < 2 ^ I) (maxSize : Nat) (hmax : maxSize < M) (data : List Int) (mem : List C)
    (hm : mem.length ≤ M) (hT : (uintType I T).bits + 1 < 2 ^ I)
    (hM : max minDigits.toNat ((uintType I T).bits + 1) + 1 ≤ M) (hM3 : 3 ≤ M) :
    ∃ out, hexDump I T M d widen sep minDigits maxSize data mem = .ok out ∧
      Spec.IsDump sep (List.replicate 3 (widen '.'.toNat)) (max maxSize 3)
        (data.map fun x => (Spec.elemText T.width minDigits x).map widen) out := by
  unfold hexDump
  rw [effMinDigits_spec I hI, bind_ok]
  have hw := width_le I T
  have hp : ((2 ^ I : Nat) : Int) = 2 ^ I := by push_cast; rfl
  refine dump_limited (formatElem_spec I hI T M d widen _ ?_ hT ?_) widen sep data maxSize mem (by simp) hm hmax hM3
  · split_ifs <;> omega
  · split_ifs <;> omega

/-- C43: in any case, the limit is not exceeded. -/
theorem C43_size (I : Nat) (hI : 7 ≤ I) (T : Ty) (M : Nat) (d : C) (widen : Nat → C) (sep : List C)
    (minDigits : Int) (hmd : minDigits < 2 ^ I) (maxSize : Nat) (hmax : maxSize < M) (data : List Int) (mem : List C)
    (hm : mem.length ≤ M) (hT : (uintType I T).bits + 1 < 2 ^ I)
    (hM : max minDigits.toNat ((uintType I T).bits + 1) + 1 ≤ M) (hM3 : 3 ≤ M) (out : List C)
    (h : hexDump I T M d widen sep minDigits maxSize data mem = .ok out) : out.length ≤ max maxSize 3 := by
  obtain ⟨o, h1, h2, h3⟩ := C43_limited I hI T M d widen sep minDigits hmd maxSize hmax data mem hm hT hM hM3
  rw [h] at h1
  injection h1 with h1
  subst h1
  by_cases hc : (Spec.complete sep (data.map fun x => (Spec.elemText T.width minDigits x).map widen)).length ≤
    max maxSize 3
  · rw [h2 hc]; exact hc
  · obtain ⟨k, -, -, h4, -⟩ := h3 (by omega)
    exact h4

example : hexDump 31 ⟨true, 7⟩ 1000 48 id [32] 0 9 [1, 2, -1, 127] [] = .ok [48, 49, 32, 48, 50, 46, 46, 46] := by
  decide +kernel
example : hexDump 31 ⟨true, 7⟩ 1000 48 id [32] 0 11 [1, 2, -1, 127] [] =
    .ok [48, 49, 32, 48, 50, 32, 70, 70, 32, 55, 70] := by decide +kernel
example : Spec.elemText 8 0 (-1) = ['F'.toNat, 'F'.toNat] := by decide +kernel

end Verif.HexDump
