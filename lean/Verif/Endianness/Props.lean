import Verif.Endianness.Spec
import Verif.Integer.Props
import Mathlib.Tactic.Ring
/-!
Property C52: /repo/src/archon/core/endianness.hpp.
-/
namespace Verif.Endianness
open Verif.Integer

theorem two_pos (n : Nat) : 0 < 2 ^ n := Nat.pow_pos (by omega)

theorem one_lt {n : Nat} (h : 0 < n) : 1 < 2 ^ n := Nat.one_lt_pow (by omega) (by omega)

/-- The digits of a power of the base. -/
theorem digit_pow {m : Nat} (hm : 0 < m) (i k : Nat) : 2 ^ (i * m) / 2 ^ (m * k) % 2 ^ m = if k = i then 1 else 0 := by
  have h1 := one_lt hm
  rcases Nat.lt_trichotomy k i with h | h | h
  · obtain ⟨d, rfl⟩ : ∃ d, i = k + 1 + d := ⟨i - k - 1, by omega⟩
    rw [if_neg (by omega), show (k + 1 + d) * m = m * k + (m + m * d) by ring, Nat.pow_add,
      Nat.mul_div_cancel_left _ (two_pos _), Nat.pow_add, Nat.mul_mod_right]
  · subst h
    rw [if_pos rfl, Nat.mul_comm, Nat.div_self (two_pos _), Nat.mod_eq_of_lt h1]
  · rw [if_neg (by omega), Nat.div_eq_of_lt, Nat.zero_mod]
    apply Nat.pow_lt_pow_right (by omega)
    rw [Nat.mul_comm]
    exact Nat.mul_lt_mul_of_pos_left h hm

theorem natPow (n : Nat) : ((2 ^ n : Nat) : Int) = 2 ^ n := by push_cast; rfl

theorem bitsOf_pow {T : Ty} {m n i : Nat} (hw : T.width = n * m) (hm : 0 < m) (hi : i < n) :
    bitsOf T (cast T (2 ^ (i * m))) = 2 ^ (i * m) := by
  rw [bitsOf_cast, hw]
  have h : i * m < n * m := Nat.mul_lt_mul_of_pos_right hi hm
  have h2 := Nat.pow_lt_pow_right (show 1 < 2 by omega) h
  rw [← natPow, ← natPow, Int.emod_eq_of_lt (Int.natCast_nonneg _) (Int.ofNat_lt.2 h2), Int.toNat_natCast]

theorem cast_dvd (t : Ty) (x : Int) : (2 : Int) ^ t.width ∣ cast t x - x := by
  obtain ⟨s, b⟩ := t
  cases s
  · rw [cast_u]
    have h := Int.emod_add_mul_ediv x (2 ^ b)
    exact ⟨-(x / 2 ^ b), by rw [Int.mul_neg]; show _ = -(2 ^ b * _); omega⟩
  · rw [cast_s]
    have h := Int.emod_add_mul_ediv (x + 2 ^ b) (2 ^ (b + 1))
    exact ⟨-((x + 2 ^ b) / 2 ^ (b + 1)), by rw [Int.mul_neg]; show _ = -(2 ^ (b + 1) * _); omega⟩

theorem width_promote (I : Nat) (T : Ty) : T.width ≤ (promote I T).width := by
  unfold promote Ty.width intTy
  split_ifs <;> simp_all
  omega

theorem val_eq {I : Nat} {T : Ty} {m n i : Nat} (hw : T.width = n * m) (hm : 0 < m) (hi : i < n) (h2 : 2 ≤ n) :
    ∃ v, shl (promote I T) (cast (promote I T) (cast T 1)) (i * m) = some v ∧ cast T v = cast T (2 ^ (i * m)) := by
  have h : i * m < n * m := Nat.mul_lt_mul_of_pos_right hi hm
  have hP := width_promote I T
  have hT : T.In 1 := by
    rw [In_nonneg (by omega)]
    have h3 : 2 * 1 ≤ n * m := Nat.mul_le_mul h2 hm
    have h4 : 1 ≤ T.bits := by unfold Ty.width at hw; split_ifs at hw <;> omega
    have := p_le h4
    omega
  unfold shl
  rw [if_pos (by omega), cast_id hT, cast_promote hT, Int.one_mul]
  refine ⟨_, rfl, cast_congr ?_⟩
  exact Int.dvd_trans (by rw [← natPow, ← natPow]; exact Int.natCast_dvd_natCast.2 (Nat.pow_dvd_pow 2 hP)) (cast_dvd _ _)

theorem memByte_pow {T : Ty} {m n i : Nat} (σ : Nat → Nat) (hw : T.width = n * m) (hm : 0 < m) (hi : i < n) (j : Nat) :
    memByte T m σ (cast T (2 ^ (i * m))) j = 1 ↔ σ j = i := by
  unfold memByte
  rw [bitsOf_pow hw hm hi, digit_pow hm]
  split_ifs <;> simp_all

theorem loop_spec {I : Nat} {T : Ty} {m n : Nat} (σ pos : Nat → Nat) (hw : T.width = n * m) (hm : 0 < m) (h2 : 2 ≤ n) :
    ∀ fuel i, i < n → n ≤ fuel + i →
      ∃ r, loop I T m n σ pos fuel i = some r ∧ (r = true ↔ ∀ k, i ≤ k → k < n → σ (pos k) = k) := by
  intro fuel
  induction fuel with
  | zero => intro i h1 h2; omega
  | succ fuel ih =>
    intro i hi hf
    obtain ⟨v, e1, e2⟩ := val_eq (I := I) hw hm hi h2
    rw [loop, e1]
    simp only [Option.bind_eq_bind, Option.bind_some, e2, memByte_pow σ hw hm hi]
    by_cases h : σ (pos i) = i
    · rw [if_pos h]
      by_cases hn : i + 1 < n
      · rw [if_pos hn]
        obtain ⟨r, h3, h4⟩ := ih (i + 1) hn (by omega)
        refine ⟨r, h3, h4.trans ⟨fun h5 k hk1 hk2 => ?_, fun h5 k hk1 hk2 => h5 k (by omega) hk2⟩⟩
        rcases Nat.eq_or_lt_of_le hk1 with rfl | hk
        · exact h
        · exact h5 k hk hk2
      · rw [if_neg hn]
        refine ⟨true, rfl, fun _ k hk1 hk2 => ?_, fun _ => rfl⟩
        rw [show k = i by omega]; exact h
    · rw [if_neg h]
      exact ⟨false, rfl, by simp, fun h5 => absurd (h5 i (Nat.le_refl _) hi) h⟩

/-- What is stored where. -/
theorem arranged_iff {T : Ty} {m n : Nat} {σ f : Nat → Nat} (hw : T.width = n * m) (hm : 0 < m) (hf : ∀ j < n, f j < n) :
    (∀ v, Verif.Integer.Spec.Fits T v → ∀ j < n, memByte T m σ v j = Spec.digit m n v (f j)) ↔ ∀ j < n, σ j = f j := by
  have hd : ∀ v k, Spec.digit m n v k = bitsOf T v / 2 ^ (m * k) % 2 ^ m := by
    intro v k
    unfold Spec.digit bitsOf
    rw [hw, ← Nat.pow_mul]
  constructor
  · intro h j hj
    have h1 := h (cast T (2 ^ (f j * m))) (fits_iff.2 (cast_in _ _)) j hj
    rw [hd, bitsOf_pow hw hm (hf j hj), digit_pow hm, if_pos rfl] at h1
    exact (memByte_pow σ hw hm (hf j hj) j).1 h1
  · intro h v _ j hj
    rw [hd, ← h j hj]
    rfl

/-- C52: detection reports an arrangement of bytes exactly if it is the arrangement of all values. Every other arrangement
is reported as a failure, and the behavior is never undefined. -/
theorem C52_detection (I : Nat) (T : Ty) (m n : Nat) (σ : Nat → Nat) (hm : 0 < m) (h2 : 2 ≤ n)
    (hw : T.width = n * m) :
    ∃ r, tryGetByteOrder I T m n σ = some r ∧
      (r = some .big ↔ Spec.IsBig T m n σ) ∧ (r = some .little ↔ Spec.IsLittle T m n σ) := by
  have hB : Spec.IsBig T m n σ ↔ ∀ j < n, σ j = n - 1 - j := arranged_iff hw hm (fun j hj => by omega)
  have hL : Spec.IsLittle T m n σ ↔ ∀ j < n, σ j = j := arranged_iff hw hm (fun j hj => hj)
  have h0 : ∀ j, memByte T m σ (cast T 1) j = 1 ↔ σ j = 0 := by
    intro j
    have := memByte_pow (i := 0) σ hw hm (by omega) j
    rwa [Nat.zero_mul, pow_zero] at this
  rw [hB, hL]
  unfold tryGetByteOrder
  rw [if_neg (by omega), if_pos hw]
  simp only [h0]
  by_cases hb : σ (n - 1) = 0
  · rw [if_pos hb]
    obtain ⟨r, h3, h4⟩ := loop_spec (I := I) σ (fun i => n - 1 - i) hw hm h2 n 1 (by omega) (by omega)
    rw [h3]
    refine ⟨_, rfl, ?_, ?_⟩
    · have : (∀ k, 1 ≤ k → k < n → σ (n - 1 - k) = k) ↔ ∀ j < n, σ j = n - 1 - j := by
        constructor
        · intro h j hj
          rcases Nat.eq_or_lt_of_le (show j ≤ n - 1 by omega) with rfl | h5
          · rw [hb]; omega
          · have := h (n - 1 - j) (by omega) (by omega)
            rwa [show n - 1 - (n - 1 - j) = j by omega] at this
        · intro h k _ hk
          have := h (n - 1 - k) (by omega)
          rwa [show n - 1 - (n - 1 - k) = k by omega] at this
      rw [← this, ← h4]
      cases r <;> simp
    · constructor
      · cases r <;> simp
      · intro h
        have := h (n - 1) (by omega)
        omega
  · rw [if_neg hb]
    have nb : ¬ ∀ j < n, σ j = n - 1 - j := fun h => hb (by rw [h (n - 1) (by omega)]; omega)
    by_cases hl : σ 0 = 0
    · rw [if_pos hl]
      obtain ⟨r, h3, h4⟩ := loop_spec (I := I) σ (fun i => i) hw hm h2 n 1 (by omega) (by omega)
      rw [h3]
      refine ⟨_, rfl, ?_, ?_⟩
      · cases r <;> simp [nb]
      · have : (∀ k, 1 ≤ k → k < n → σ k = k) ↔ ∀ j < n, σ j = j := by
          constructor
          · intro h j hj
            rcases Nat.eq_zero_or_pos j with rfl | h5
            · exact hl
            · exact h j h5 hj
          · intro h k _ hk
            exact h k hk
        rw [← this, ← h4]
        cases r <;> simp
    · rw [if_neg hl]
      have nl : ¬ ∀ j < n, σ j = j := fun h => hl (h 0 (by omega))
      exact ⟨_, rfl, by simp [nb], by simp [nl]⟩

/-- C52: a type of a single byte is reported as big endian, and a type with padding bits as indeterminate. -/
theorem C52_other (I : Nat) (T : Ty) (m n : Nat) (σ : Nat → Nat) :
    (n = 1 → tryGetByteOrder I T m n σ = some (some .big)) ∧
    (n ≠ 1 → T.width ≠ n * m → tryGetByteOrder I T m n σ = some none) := by
  unfold tryGetByteOrder
  constructor
  · intro h; rw [if_pos h]
  · intro h1 h2; rw [if_neg h1, if_neg h2]

-- Big, little, and mixed order of a 32-bit type.
example : tryGetByteOrder 31 ⟨false, 32⟩ 8 4 (fun j => 3 - j) = some (some .big) := by decide +kernel
example : tryGetByteOrder 31 ⟨true, 31⟩ 8 4 id = some (some .little) := by decide +kernel
example : tryGetByteOrder 31 ⟨false, 32⟩ 8 4 (fun j => [1, 0, 3, 2].getD j 0) = some none := by decide +kernel
example : tryGetByteOrder 31 ⟨false, 32⟩ 8 4 (fun j => [0, 2, 1, 3].getD j 0) = some none := by decide +kernel

end Verif.Endianness
