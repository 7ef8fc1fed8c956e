import Verif.Integer.Bits
import Verif.Integer.Spec
/-
The properties of integer.hpp. `I` is the number of value bits of `int`. The C++ standard guarantees 15 ≤ I;
theorems assume only what they need of this.
-/
set_option linter.unusedSimpArgs false
namespace Verif.Integer

theorem fits_iff {t : Ty} {x : Int} : Spec.Fits t x ↔ t.In x := by
  obtain ⟨s, b⟩ := t
  unfold Spec.Fits
  cases s
  · rw [In_u]; simp only [Bool.false_eq_true, if_false]; omega
  · rw [In_s]; simp only [if_true]; omega

theorem spec_checked (t : Ty) (x : Int) : Spec.checked t x = checked t x := by
  unfold Spec.checked checked
  simp only [fits_iff]

theorem tcFits_iff {T : Ty} {x : Int} : Spec.TCFits T x ↔ tcFits T x := by
  unfold Spec.TCFits tcFits Ty.width
  cases T.signed <;> simp

theorem tcVal_eq (F : Ty) (v : Int) : Spec.tcVal F v = tcVal F v := rfl

/-! ### C20 -/

/-- Checked addition is exact, for every pair of types and values. -/
theorem C20_add (I : Nat) (L R : Ty) (x y : Int) (hx : Spec.Fits L x) (hy : Spec.Fits R y) :
    tryAdd I L R x y = Spec.checked L (x + y) := by
  rw [spec_checked]; exact tryAdd_spec I L R x y (fits_iff.mp hx) (fits_iff.mp hy)

/-- Checked subtraction is exact, for every pair of types and values. -/
theorem C20_sub (I : Nat) (L R : Ty) (x y : Int) (hx : Spec.Fits L x) (hy : Spec.Fits R y) :
    trySub I L R x y = Spec.checked L (x - y) := by
  rw [spec_checked]; exact trySub_spec I L R x y (fits_iff.mp hx) (fits_iff.mp hy)

/-- Checked multiplication is exact, for every pair of types and values. -/
theorem C20_mul (I : Nat) (L R : Ty) (x y : Int) (hx : Spec.Fits L x) (hy : Spec.Fits R y) :
    tryMul I L R x y = Spec.checked L (x * y) := by
  rw [spec_checked]; exact tryMul_spec I L R x y (fits_iff.mp hx) (fits_iff.mp hy)

-- `signed char` += `unsigned int` etc.
example : tryAdd 31 ⟨true, 7⟩ ⟨false, 32⟩ (-128) 255 = some (some 127) := by decide +kernel
example : tryAdd 31 ⟨true, 7⟩ ⟨false, 32⟩ (-128) 256 = some none := by decide +kernel
example : trySub 31 ⟨false, 32⟩ ⟨true, 63⟩ 5 (-4294967290) = some (some 4294967295) := by decide +kernel
example : tryMul 31 ⟨true, 63⟩ ⟨true, 31⟩ (-9223372036854775808) (-1) = some none := by decide +kernel
example : tryMul 31 ⟨true, 31⟩ ⟨false, 64⟩ (-1) 2147483648 = some (some (-2147483648)) := by decide +kernel

/-! ### C21 -/

/-- The six comparison functions agree with mathematical comparison. -/
theorem C21_compare (I : Nat) (A B : Ty) (a b : Int) (ha : Spec.Fits A a) (hb : Spec.Fits B b) :
    (intEqual I A B a b = true ↔ a = b) ∧ (intNotEqual I A B a b = true ↔ a ≠ b) ∧
    (intLess I A B a b = true ↔ a < b) ∧ (intLessEqual I A B a b = true ↔ a ≤ b) ∧
    (intGreater I A B a b = true ↔ b < a) ∧ (intGreaterEqual I A B a b = true ↔ b ≤ a) := by
  have ha' := fits_iff.mp ha
  have hb' := fits_iff.mp hb
  unfold intNotEqual intLessEqual intGreater intGreaterEqual
  rw [intEqual_spec I A B a b ha' hb', intLess_spec I A B a b ha' hb', intLess_spec I B A b a hb' ha']
  simp

/-- The checked cast succeeds exactly when the value fits, and then preserves it. -/
theorem C21_cast (I : Nat) (T F : Ty) (x : Int) (hx : Spec.Fits F x) :
    (canIntCast I T F x = true ↔ Spec.Fits T x) ∧
    tryIntCast I T F x = (if Spec.Fits T x then some x else none) := by
  rw [canIntCast_spec I T F x (fits_iff.mp hx), tryIntCast_spec I T F x (fits_iff.mp hx)]
  simp only [fits_iff, decide_eq_true_iff]
  exact ⟨trivial, trivial⟩

/-- The clamping cast yields the value of the given range that is closest to the argument. -/
theorem C21_clamp (I : Nat) (T F : Ty) (x lo hi : Int) (hx : Spec.Fits F x) (hlo : Spec.Fits T lo)
    (hhi : Spec.Fits T hi) (h : lo ≤ hi) :
    lo ≤ intCastClamp I T F x lo hi ∧ intCastClamp I T F x lo hi ≤ hi ∧
    ∀ y, lo ≤ y → y ≤ hi → (intCastClamp I T F x lo hi - x).natAbs ≤ (y - x).natAbs := by
  have hx' := fits_iff.mp hx
  have hlo' := fits_iff.mp hlo
  have hhi' := fits_iff.mp hhi
  unfold intCastClamp intGreaterEqual intLessEqual
  rw [intLess_spec I F T x lo hx' hlo', intLess_spec I T F hi x hhi' hx']
  by_cases h1 : x < lo
  · simp only [h1, decide_true, Bool.not_true, Bool.false_eq_true, if_false]
    exact ⟨by omega, by omega, fun y _ _ => by omega⟩
  · by_cases h2 : hi < x
    · simp only [h1, h2, decide_true, decide_false, Bool.not_true, Bool.not_false, Bool.false_eq_true, if_false, if_true]
      exact ⟨by omega, by omega, fun y _ _ => by omega⟩
    · simp only [h1, h2, decide_true, decide_false, Bool.not_true, Bool.not_false, Bool.false_eq_true, if_false, if_true]
      rw [cast_id (show T.In x from ⟨by have := hlo'.1; omega, by have := hhi'.2; omega⟩)]
      exact ⟨by omega, by omega, fun y _ _ => by omega⟩

example : intLess 31 ⟨true, 31⟩ ⟨false, 32⟩ (-1) 4294967295 = true := by decide +kernel
example : intEqual 31 ⟨true, 31⟩ ⟨false, 32⟩ (-1) 4294967295 = false := by decide +kernel
example : tryIntCast 31 ⟨true, 7⟩ ⟨false, 64⟩ 128 = none := by decide +kernel
example : intCastClamp 31 ⟨false, 8⟩ ⟨true, 31⟩ 1000 0 255 = 255 := by decide +kernel

/-! ### C22 -/

/-- The narrowing between unsigned types that the code gets wrong: the source type promotes to `int`. -/
def badNarrowing (I : Nat) (T F : Ty) : Prop :=
  T.signed = false ∧ F.signed = false ∧ T.bits < F.bits ∧ F.bits ≤ I

/-- The two's complement cast check is exact, and the checked cast stores the value that stands for the same
number, for all pairs of types except a narrowing between two unsigned types of which the source type is narrower
than `unsigned int`. Full claim: the same without the hypothesis `hbad`; it is false, see `C22_defect`. -/
theorem C22_partial (I : Nat) (hI : 2 ≤ I) (T F : Ty) (x : Int) (hT : 1 ≤ T.bits) (hF : 1 ≤ F.bits)
    (hx : Spec.Fits F x) (hbad : ¬ badNarrowing I T F) :
    (∃ b, canTCCast I T F x = some b ∧ (b = true ↔ Spec.TCFits T (Spec.tcVal F x))) ∧
    (Spec.TCFits T (Spec.tcVal F x) →
      ∃ y, tryTCCast I T F x = some (some y) ∧ Spec.Fits T y ∧ Spec.tcVal T y = Spec.tcVal F x) ∧
    (¬ Spec.TCFits T (Spec.tcVal F x) → tryTCCast I T F x = some none) := by
  have hx' := fits_iff.mp hx
  simp only [tcVal_eq, fits_iff, tcFits_iff]
  have fin : ∀ {o : Option (Option Int)}, o = some (if tcFits T (tcVal F x) then some (cast T (tcVal F x)) else none) →
      (tcFits T (tcVal F x) → ∃ y, o = some (some y) ∧ T.In y ∧ tcVal T y = tcVal F x) ∧
      (¬ tcFits T (tcVal F x) → o = some none) := by
    rintro o rfl
    constructor
    · intro h
      rw [if_pos h]
      exact ⟨_, rfl, (tcVal_cast hT h).2, (tcVal_cast hT h).1⟩
    · intro h; rw [if_neg h]
  have done : ∀ {o : Option Bool} {o' : Option (Option Int)},
      o = some (decide (tcFits T (tcVal F x))) →
      o' = some (if tcFits T (tcVal F x) then some (cast T (tcVal F x)) else none) →
      (∃ b, o = some b ∧ (b = true ↔ tcFits T (tcVal F x))) ∧ (tcFits T (tcVal F x) → ∃ y, o' = some (some y) ∧ T.In y ∧ tcVal T y = tcVal F x) ∧
      (¬ tcFits T (tcVal F x) → o' = some none) := fun h1 h2 => ⟨⟨_, h1, by simp⟩, fin h2⟩
  apply done
  · unfold canTCCast
    cases hs : T.signed <;> cases hf : F.signed <;>
      simp only [Bool.not_false, Bool.not_true, Bool.and_self, Bool.and_false, Bool.false_and, Bool.true_and, if_true,
        Bool.false_eq_true, if_false]
    · have hwT : T.width = T.bits := by unfold Ty.width; simp [hs]
      have hwF : F.width = F.bits := by unfold Ty.width; simp [hf]
      by_cases h : T.width ≥ F.width
      · rw [if_pos h]
        congr 1
        symm
        rw [decide_eq_true_iff, tcVal_u hf]
        have h0 := nonneg_of_unsigned hf hx'
        have h1 := In_lt hx'
        have e := p_le (show F.bits - 1 ≤ T.bits - 1 by omega)
        have e2 : (2 : Int) ^ F.bits = 2 * 2 ^ (F.bits - 1) := by rw [← p_succ]; congr 1; omega
        unfold tcFits
        rw [hwT]
        split <;> omega
      · rw [if_neg h, narrowOk_spec hs hf hT (by omega) hx', if_neg]
        intro hc
        exact hbad ⟨hs, hf, by omega, hc⟩
    · rw [canCastToTC_spec hT hx' hI, tcVal_s hf]
    · rw [(castFromTC_spec hs hF hx').1]
      congr 1
      rw [decide_eq_decide]
      exact (tcFits_s hs).symm
    · rw [canIntCast_spec I T F x hx', tcVal_s hf]
      congr 1
      rw [decide_eq_decide]
      exact (tcFits_s hs).symm
  · unfold tryTCCast
    cases hs : T.signed <;> cases hf : F.signed <;>
      simp only [Bool.not_false, Bool.not_true, Bool.and_self, Bool.and_false, Bool.false_and, Bool.true_and, if_true,
        Bool.false_eq_true, if_false]
    · have hwT : T.width = T.bits := by unfold Ty.width; simp [hs]
      have hwF : F.width = F.bits := by unfold Ty.width; simp [hf]
      have h0 := nonneg_of_unsigned hf hx'
      have h1 := In_lt hx'
      by_cases h : T.width ≥ F.width
      · have key : tcFits T (tcVal F x) := by
          rw [tcVal_u hf]
          have e := p_le (show F.bits - 1 ≤ T.bits - 1 by omega)
          have e2 : (2 : Int) ^ F.bits = 2 * 2 ^ (F.bits - 1) := by rw [← p_succ]; congr 1; omega
          unfold tcFits
          rw [hwT]
          split <;> omega
        have hA := tcCastA_spec (I := I) (T := T) hF hx'
        unfold tcCastA at hA
        simp only [hs, hf, Bool.not_false, Bool.and_self, if_true, h] at hA
        rw [if_pos h, hA, if_pos key]
        rfl
      · rw [if_neg h, narrowOk_spec hs hf hT (by omega) hx', if_neg (fun hc => hbad ⟨hs, hf, by omega, hc⟩)]
        simp only [Option.bind_eq_bind, Option.bind_some, decide_eq_true_eq]
        have hA := tcCastA_spec (I := I) (T := T) hF hx'
        unfold tcCastA at hA
        simp only [hs, hf, Bool.not_false, Bool.and_self, if_true, h, if_false, Option.some.injEq] at hA
        rw [hA]
        split <;> rfl
    · rw [tryCastToTC_spec hT hx' hI, tcVal_s hf]
    · rw [(castFromTC_spec hs hF hx').2]
      congr 1
      by_cases h : T.In (tcVal F x)
      · rw [if_pos h, if_pos ((tcFits_s hs).mpr h), cast_id h]
      · rw [if_neg h, if_neg (fun hc => h ((tcFits_s hs).mp hc))]
    · rw [tryIntCast_spec I T F x hx', tcVal_s hf]
      congr 1
      by_cases h : T.In x
      · rw [if_pos h, if_pos ((tcFits_s hs).mpr h)]
        rw [cast_id h]
      · rw [if_neg h, if_neg (fun hc => h ((tcFits_s hs).mp hc))]

/-- The defect: in the remaining cases the check accepts exactly the nonnegative numbers that fit, so it rejects
every negative number, even though it fits. -/
theorem C22_defect (I : Nat) (T F : Ty) (x : Int) (hT : 1 ≤ T.bits) (hx : Spec.Fits F x) (hbad : badNarrowing I T F) :
    ∃ b, canTCCast I T F x = some b ∧ (b = true ↔ 0 ≤ Spec.tcVal F x ∧ Spec.TCFits T (Spec.tcVal F x)) := by
  obtain ⟨hs, hf, hlt, hI⟩ := hbad
  have hx' := fits_iff.mp hx
  have hwT : T.width = T.bits := by unfold Ty.width; simp [hs]
  have hwF : F.width = F.bits := by unfold Ty.width; simp [hf]
  unfold canTCCast
  simp only [hs, hf, Bool.not_false, Bool.and_self, if_true]
  rw [if_neg (by omega), narrowOk_spec hs hf hT hlt hx', if_pos hI]
  refine ⟨_, rfl, ?_⟩
  rw [decide_eq_true_iff, tcFits_iff, tcVal_eq, tcVal_u hf]
  unfold tcFits
  rw [hwT]
  have h0 := nonneg_of_unsigned hf hx'
  have h1 := In_lt hx'
  have e := p_le (show T.bits - 1 ≤ F.bits - 1 by omega)
  have := p_pos (T.bits - 1)
  split <;> constructor <;> intros <;> omega

/-- The unchecked cast never fails, and yields the value congruent to the represented number. -/
theorem C22_unchecked (I : Nat) (T F : Ty) (x : Int) (hF : 1 ≤ F.bits) (hx : Spec.Fits F x) :
    ∃ y, tcCastA I T F x = some y ∧ Spec.Fits T y ∧
      (2 ^ (if T.signed then T.bits + 1 else T.bits) : Int) ∣ y - Spec.tcVal F x := by
  refine ⟨_, tcCastA_spec hF (fits_iff.mp hx), fits_iff.mpr (cast_in _ _), ?_⟩
  rw [tcVal_eq]
  have key : ∀ (T : Ty) (y : Int), (2 ^ (if T.signed then T.bits + 1 else T.bits) : Int) ∣ cast T y - y := by
    rintro ⟨s, b⟩ y
    cases s
    · rw [cast_u]
      simp only [Bool.false_eq_true, if_false]
      have h := Int.emod_add_mul_ediv y (2 ^ b)
      exact ⟨-(y / 2 ^ b), by rw [Int.mul_neg]; omega⟩
    · rw [cast_s]
      simp only [if_true]
      have h := Int.emod_add_mul_ediv (y + 2 ^ b) (2 ^ (b + 1))
      exact ⟨-((y + 2 ^ b) / 2 ^ (b + 1)), by rw [Int.mul_neg]; omega⟩
  exact key T _

-- The witness: the 16 bit representation of -1 fits in 8 bits, but it is rejected.
example : canTCCast 31 ⟨false, 8⟩ ⟨false, 16⟩ 0xFFFF = some false ∧
    Spec.TCFits ⟨false, 8⟩ (Spec.tcVal ⟨false, 16⟩ 0xFFFF) := by decide +kernel
example : canTCCast 31 ⟨false, 16⟩ ⟨false, 32⟩ 0xFFFFFFFF = some true := by decide +kernel
example : tryTCCast 31 ⟨true, 7⟩ ⟨false, 16⟩ 0xFF80 = some (some (-128)) := by decide +kernel
example : tryTCCast 31 ⟨true, 7⟩ ⟨false, 16⟩ 0xFF7F = some none := by decide +kernel

/-! ### C23 -/

/-- Division rounding up yields the smallest integer not less than the exact quotient. -/
theorem C23_round_up (I : Nat) (T U : Ty) (a b : Int) (ha : Spec.Fits T a) (hb : Spec.Fits U b) (h0 : 0 ≤ a)
    (hb0 : 0 < b) : ∃ q, divRoundUp I T U a b = some q ∧ a ≤ q * b ∧ (q - 1) * b < a := by
  refine ⟨_, divRoundUp_spec I T U a b (fits_iff.mp ha) (fits_iff.mp hb) h0 hb0, ?_⟩
  have h1 := Int.emod_add_mul_ediv a b
  have h2 := Int.emod_lt_of_pos a hb0
  have h3 := Int.emod_nonneg a (show b ≠ 0 by omega)
  have h4 : b * (a / b) = a / b * b := Int.mul_comm _ _
  split
  · constructor
    · rw [Int.add_zero]; omega
    · rw [Int.add_zero, Int.sub_mul]; omega
  · constructor
    · rw [Int.add_mul]; omega
    · rw [Int.add_sub_cancel]; omega

/-- Division rounding half down yields the integer closest to the exact quotient; the smaller one in case
of a tie. -/
theorem C23_round_half_down (I : Nat) (T U : Ty) (a b : Int) (ha : Spec.Fits T a) (hb : Spec.Fits U b) (h0 : 0 ≤ a)
    (hb0 : 0 < b) : ∃ q, divRoundHalfDown I T U a b = some q ∧ -b < 2 * (a - q * b) ∧ 2 * (a - q * b) ≤ b := by
  refine ⟨_, divRoundHalfDown_spec I T U a b (fits_iff.mp ha) (fits_iff.mp hb) h0 hb0, ?_⟩
  have h1 := Int.emod_add_mul_ediv a b
  have h2 := Int.emod_lt_of_pos a hb0
  have h3 := Int.emod_nonneg a (show b ≠ 0 by omega)
  have h4 : b * (a / b) = a / b * b := Int.mul_comm _ _
  split
  · constructor <;> rw [Int.add_zero] <;> omega
  · constructor <;> rw [Int.add_mul] <;> omega

example : divRoundUp 31 ⟨true, 31⟩ ⟨true, 31⟩ 2147483647 2147483646 = some 2 := by decide +kernel
example : divRoundHalfDown 31 ⟨false, 32⟩ ⟨true, 7⟩ 4294967295 2 = some 2147483647 := by decide +kernel
example : divRoundHalfDown 31 ⟨false, 8⟩ ⟨false, 8⟩ 8 3 = some 3 := by decide +kernel

/-! ### C24 -/

/-- Checked exponentiation succeeds exactly when the result is defined and fits, and then stores it. -/
theorem C24_pow (I : Nat) (hI : 1 ≤ I) (L R : Ty) (hL : 1 ≤ L.bits) (x n : Int) (hx : Spec.Fits L x)
    (hn : Spec.Fits R n) :
    tryPow I L R x n = match Spec.pow x n with
      | some v => Spec.checked L v
      | none => some none := by
  rw [tryPow_spec I hI L R hL x n (fits_iff.mp hx) (fits_iff.mp hn)]
  show some (match Spec.pow x n with
    | some v => if L.In v then some v else none
    | none => none) = _
  cases Spec.pow x n
  · rfl
  · simp only [spec_checked]; rfl

/-- Integer square root is the floor of the real square root. -/
theorem C24_sqrt (I : Nat) (hI : 15 ≤ I) (T : Ty) (x : Int) (hx : Spec.Fits T x) (h0 : 0 ≤ x) :
    ∃ r, intSqrt I T x = some r ∧ 0 ≤ r ∧ r ^ 2 ≤ x ∧ x < (r + 1) ^ 2 := by
  obtain ⟨r, h1, h2, h3, h4⟩ := intSqrt_spec hI (fits_iff.mp hx) h0
  exact ⟨r, h1, h2, by rw [pow_two]; exact h3, by rw [pow_two]; exact h4⟩

example : tryPow 31 ⟨true, 7⟩ ⟨true, 31⟩ (-2) 7 = some (some (-128)) := by decide +kernel
example : tryPow 31 ⟨true, 7⟩ ⟨true, 31⟩ (-2) 8 = some none := by decide +kernel
example : tryPow 31 ⟨true, 31⟩ ⟨true, 31⟩ (-1) (-3) = some (some (-1)) := by decide +kernel
example : intSqrt 31 ⟨false, 64⟩ 18446744073709551615 = some 4294967295 := by decide +kernel
example : intSqrt 31 ⟨true, 31⟩ 2147395600 = some 46340 := by decide +kernel

/-! ### C54 -/

/-- The periodic remainder is congruent to the dividend and has the sign of the divisor, whatever the types. -/
theorem C54_periodic_mod (I : Nat) (T U : Ty) (a b : Int) (ha : Spec.Fits T a) (hb : Spec.Fits U b) (hb0 : b ≠ 0) :
    ∃ r, periodicMod I T U a b = some r ∧ Spec.Fits U r ∧ Spec.PeriodicMod a b r := by
  obtain ⟨r, h1, h2⟩ := periodicMod_spec I T U a b (fits_iff.mp ha) (fits_iff.mp hb) hb0
  exact ⟨r, h1, fits_iff.mpr (periodicMod_in (fits_iff.mp hb) h2), h2⟩

example : periodicMod 31 ⟨true, 31⟩ ⟨false, 32⟩ (-1) 10 = some 9 := by decide +kernel
example : periodicMod 31 ⟨false, 32⟩ ⟨true, 31⟩ 7 (-10) = some (-3) := by decide +kernel
example : periodicMod 31 ⟨true, 31⟩ ⟨true, 31⟩ (-2147483648) (-1) = some 0 := by decide +kernel

/-! ### C55 -/

/-- The position of the most significant bit, as found by either of the two implementations. -/
theorem C55_msb_pos (t : Ty) (x : Int) (hx : Spec.Fits t x) :
    Spec.MsbPos t x (findMsbPos t x) ∧ Spec.MsbPos t x (findMsbPosGeneric t x) :=
  ⟨findMsbPos_spec (fits_iff.mp hx), findMsbPosGeneric_spec (fits_iff.mp hx)⟩

/-- The number of digits, and the position of the most significant digit, in any base. -/
theorem C55_num_digits (I : Nat) (t : Ty) (x base : Int) (hx : Spec.Fits t x) (hb : 2 ≤ base)
    (hbi : Spec.Fits (intTy I) base) :
    ∃ n : Nat, numDigits I t x base = some n ∧ findMsdPos I t x base = some ((n : Int) - 1) ∧
      Spec.NumDigits x base n := by
  obtain ⟨n, h1, h2⟩ := findMsdPos_spec (fits_iff.mp hx) hb (fits_iff.mp hbi)
  refine ⟨n, ?_, h1, h2⟩
  unfold numDigits
  rw [h1]
  simp only [Option.bind_eq_bind, Option.bind_some]
  congr 1; omega

/-- Only one number of digits satisfies the specification. -/
theorem C55_num_digits_unique (x base : Int) (hb : 2 ≤ base) (m n : Nat) (hm : Spec.NumDigits x base m)
    (hn : Spec.NumDigits x base n) : m = n := by
  unfold Spec.NumDigits at *
  generalize x.natAbs = v at *
  have hbb : 2 ≤ base.natAbs := by omega
  generalize base.natAbs = b at *
  have key : ∀ m n : Nat, v < b ^ m → (n = 0 ∨ b ^ (n - 1) ≤ v) → n ≤ m := by
    intro m n h1 h2
    by_contra hc
    rcases h2 with h2 | h2
    · omega
    · have : b ^ m ≤ b ^ (n - 1) := Nat.pow_le_pow_right (by omega) (by omega)
      omega
  have := key m n hm.1 hn.2
  have := key n m hn.1 hm.2
  omega

example : findMsbPos ⟨false, 32⟩ 4294967295 = 31 := by decide +kernel
example : findMsbPosGeneric ⟨false, 13⟩ 4097 = 12 := by decide +kernel
example : numDigits 31 ⟨true, 31⟩ (-1000) 10 = some 4 := by decide +kernel

/-! ### C56 -/

/-- The checked left shift is exact. -/
theorem C56_shift_left (I : Nat) (T : Ty) (x i : Int) (hx : Spec.Fits T x) (h0 : 0 ≤ x) (hi : 0 ≤ i) :
    tryShl I T x i = Spec.checked T (x * 2 ^ i.toNat) := by
  rw [spec_checked]; exact tryShl_spec (fits_iff.mp hx) h0 hi

/-- Logical shifts by any nonnegative amount. -/
theorem C56_logic_shift (I : Nat) (T : Ty) (x i : Int) (hx : Spec.Fits T x) (h0 : 0 ≤ x) (hi : 0 ≤ i) :
    (T.signed = false → logicShl I T x i = some (x * 2 ^ i.toNat % 2 ^ T.bits)) ∧
    logicShr I T x i = some (x / 2 ^ i.toNat) :=
  ⟨fun hT => logicShl_spec hT hi, logicShr_spec (fits_iff.mp hx) h0 hi⟩

/-- The mask has exactly the requested number of low order ones (limited to the value bits of the type). -/
theorem C56_mask (I : Nat) (hI : 1 ≤ I) (T : Ty) (n : Int) :
    intMask I T n = some (2 ^ (min n.toNat T.bits) - 1) := intMask_spec hI n

/-- The power-of-two test. -/
theorem C56_is_power_of_two (I : Nat) (T : Ty) (x : Int) (hx : Spec.Fits T x) :
    ∃ b, isPowerOfTwo I T x = some b ∧ (b = true ↔ ∃ k : Nat, x = 2 ^ k) := isPowerOfTwo_spec (fits_iff.mp hx)

example : tryShl 31 ⟨false, 8⟩ 3 6 = some (some 192) := by decide +kernel
example : tryShl 31 ⟨false, 8⟩ 3 7 = some none := by decide +kernel
example : logicShl 31 ⟨false, 32⟩ 4294967295 40 = some 0 := by decide +kernel
example : logicShr 31 ⟨false, 32⟩ 4294967295 31 = some 1 := by decide +kernel
example : intMask 31 ⟨true, 7⟩ 5 = some 31 := by decide +kernel
example : isPowerOfTwo 31 ⟨true, 31⟩ (-2147483648) = some false := by decide +kernel
example : isPowerOfTwo 31 ⟨false, 32⟩ 2147483648 = some true := by decide +kernel

end Verif.Integer
