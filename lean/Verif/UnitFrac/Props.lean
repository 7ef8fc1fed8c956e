import Verif.UnitFrac.Model
import Verif.UnitFrac.Spec
import Verif.Integer.Props
import Mathlib.Tactic.Ring
import Mathlib.Tactic.Linarith
/-!
Properties C49 and C50: /repo/src/archon/util/unit_frac.hpp.
-/
namespace Verif.UnitFrac
open Verif.Integer

/-! ### Arithmetic of bit sequences -/

/-- Narrowing. -/
theorem narrow {N R v : Nat} (hR : 0 < R) (hd : R ∣ N) (hRN : R < N) (hv : v < N) :
    min (R - 1) (v * R / (N - 1)) = v * R / N := by
  obtain ⟨K, rfl⟩ := hd
  have hK : 1 < K := by
    by_contra h
    have : R * K ≤ R * 1 := Nat.mul_le_mul_left R (by omega)
    omega
  have e1 : v * R / (R * K) = v / K := by rw [Nat.mul_comm v R, Nat.mul_div_mul_left _ _ hR]
  rw [e1]
  have h1 : v / K < R := by rw [Nat.div_lt_iff_lt_mul (by omega)]; omega
  have hdm := Nat.div_add_mod v K
  have hm := Nat.mod_lt v (show 0 < K by omega)
  generalize v / K = q at *
  generalize v % K = s at *
  subst hdm
  by_cases hall : q = R - 1 ∧ s = K - 1
  · obtain ⟨rfl, rfl⟩ := hall
    have : R - 1 ≤ (K * (R - 1) + (K - 1)) * R / (R * K - 1) := by
      rw [Nat.le_div_iff_mul_le (by omega)]
      have : R * K - 1 = K * (R - 1) + (K - 1) := by
        have : K * (R - 1) = K * R - K := by rw [Nat.mul_sub, Nat.mul_one]
        have h2 : K ≤ K * R := Nat.le_mul_of_pos_right _ hR
        rw [Nat.mul_comm R K]; omega
      rw [this, Nat.mul_comm]
      exact Nat.mul_le_mul_left _ (by omega)
    omega
  · have e2 : (K * q + s) * R / (R * K - 1) = q := by
      have h3 : (K * q + s) * R = (R * K - 1) * q + (q + s * R) := by
        have : R * K = (R * K - 1) + 1 := by omega
        calc (K * q + s) * R = (R * K) * q + s * R := by ring
          _ = ((R * K - 1) + 1) * q + s * R := by rw [← this]
          _ = _ := by ring
      have h4 : q + s * R < R * K - 1 := by
        rcases Nat.lt_or_ge s (K - 1) with h5 | h5
        · have : s * R ≤ (K - 2) * R := Nat.mul_le_mul_right _ (by omega)
          have h6 : (K - 2) * R + 2 * R = R * K := by
            rw [← Nat.add_mul, Nat.mul_comm]; congr 1; omega
          omega
        · have h7 : s = K - 1 := by omega
          subst h7
          have h6 : (K - 1) * R + R = R * K := by
            conv_lhs => rw [← Nat.succ_mul]
            rw [Nat.mul_comm]; congr 1; omega
          have : q ≠ R - 1 := fun h => hall ⟨h, rfl⟩
          omega
      rw [h3, Nat.mul_add_div (by omega), Nat.div_eq_of_lt h4, Nat.add_zero]
    rw [e2]; omega

/-- Widening by less than a factor of two. -/
theorem widen {N R v : Nat} (hR : 0 < R) (hd : R ∣ N) (hRN : R < N) (hv : v < N) :
    min (N * R - 1) (v * (N * R) / (N - 1)) = v * R + v * R / N := by
  rw [← narrow hR hd hRN hv]
  have e : v * (N * R) = (N - 1) * (v * R) + v * R := by
    have : N = (N - 1) + 1 := by omega
    calc v * (N * R) = N * (v * R) := by ring
      _ = ((N - 1) + 1) * (v * R) := by rw [← this]
      _ = _ := by ring
  rw [e, Nat.mul_add_div (by omega)]
  by_cases h : v = N - 1
  · subst h
    rw [Nat.mul_div_cancel_left R (by omega)]
    have : N * R = (N - 1) * R + R := by
      conv_lhs => rw [show N = (N - 1) + 1 by omega, Nat.add_mul, Nat.one_mul]
    omega
  · have h1 : v * R / (N - 1) < R := by
      rw [Nat.div_lt_iff_lt_mul (by omega), Nat.mul_comm R]
      exact Nat.mul_lt_mul_of_pos_right (by omega) hR
    have h2 : v * R + R ≤ (N - 1) * R := by
      rw [← Nat.succ_mul]; exact Nat.mul_le_mul_right _ (by omega)
    have h3 : N * R = (N - 1) * R + R := by
      conv_lhs => rw [show N = (N - 1) + 1 by omega, Nat.add_mul, Nat.one_mul]
    omega

theorem convert_mul {v w a b M : Nat} (ha : 0 < a) (hb : 0 < b) (h : w * a = v * b) :
    Spec.convert v a M = Spec.convert w b M := by
  unfold Spec.convert
  congr 1
  rw [← Nat.mul_div_mul_right (v * (M + 1)) a hb, ← Nat.mul_div_mul_right (w * (M + 1)) b ha]
  congr 1
  · calc v * (M + 1) * b = (v * b) * (M + 1) := by ring
      _ = (w * a) * (M + 1) := by rw [h]
      _ = _ := by ring
  · ring

theorem two_pos (n : Nat) : 0 < 2 ^ n := Nat.pow_pos (by omega)

theorem one_lt {n : Nat} (h : 0 < n) : 1 < 2 ^ n := Nat.one_lt_pow (by omega) (by omega)

theorem cast_pow (n : Nat) : ((2 ^ n : Nat) : Int) = 2 ^ n := by push_cast; rfl

/-! ### C49 -/

theorem natIn {T : Ty} {v : Nat} {m : Nat} (hm : m ≤ T.bits) (hv : v < 2 ^ m) : T.In (v : Int) := by
  rw [In_nonneg (by omega)]
  have := Nat.lt_of_lt_of_le hv (Nat.pow_le_pow_right (show 0 < 2 by omega) hm)
  rw [← cast_pow]
  omega

theorem shl_nat {T : Ty} {v r m : Nat} (hm : m ≤ T.bits) (hv : v * 2 ^ r < 2 ^ m) (hr : r < T.width) :
    shl T v r = some ((v * 2 ^ r : Nat) : Int) := by
  unfold shl
  rw [if_pos hr]
  have := natIn hm hv
  push_cast at this ⊢
  rw [cast_id this]

theorem shr_nat {T : Ty} {v r : Nat} (hr : r < T.width) : shr T v r = some ((v / 2 ^ r : Nat) : Int) := by
  unfold shr
  rw [if_pos hr]
  push_cast
  rfl

theorem bitOr_nat {T : Ty} {a b r m : Nat} (hm : m ≤ T.bits) (hv : a * 2 ^ r + b < 2 ^ m) (hb : b < 2 ^ r) :
    bitOr T ((a * 2 ^ r : Nat) : Int) (b : Nat) = ((a * 2 ^ r + b : Nat) : Int) := by
  unfold bitOr
  have h1 := natIn (v := a * 2 ^ r) hm (by omega)
  have h2 := natIn (v := b) hm (by omega)
  rw [bitsOf_nonneg (by omega) ((In_nonneg (by omega)).1 h1), bitsOf_nonneg (by omega) ((In_nonneg (by omega)).1 h2),
    Int.toNat_natCast, Int.toNat_natCast, Nat.mul_comm a, ← Nat.two_pow_add_eq_or_of_lt hb, Nat.mul_comm _ a]
  exact cast_id (natIn hm hv)

theorem expand_spec {I : Nat} {T : Ty} {m n v : Nat} (hn : 0 < n) (hm : m ≤ T.bits) (hv : v < 2 ^ n) :
    ∀ (fuel n2 v2 : Nat), 0 < n2 → n2 ≤ m → m < fuel + n2 → v2 * (2 ^ n - 1) = v * (2 ^ n2 - 1) →
      expand I T m fuel n2 v2 = some ((Spec.convert v (2 ^ n - 1) (2 ^ m - 1) : Nat) : Int) := by
  have hP : T.bits ≤ (promote I T).bits := (promote_bits I T).2
  have hPw : (promote I T).bits ≤ (promote I T).width := by unfold Ty.width; omega
  intro fuel
  induction fuel with
  | zero => intro n2 v2 h0 h1 h2; omega
  | succ fuel ih =>
    intro n2 v2 h0 h1 h2 h
    have hn1 := one_lt hn
    have hn21 := one_lt h0
    have hv2 : v2 < 2 ^ n2 := by
      have : v2 * (2 ^ n - 1) ≤ (2 ^ n2 - 1) * (2 ^ n - 1) := by
        rw [h, Nat.mul_comm]; exact Nat.mul_le_mul_left _ (by omega)
      have := Nat.le_of_mul_le_mul_right this (by omega)
      omega
    rw [expand]
    simp only
    by_cases hlast : m < n2 * 2
    · rw [if_pos hlast]
      rw [convert_mul (by omega) (by omega) h]
      obtain ⟨r, rfl⟩ : ∃ r, m = n2 + r := ⟨m - n2, by omega⟩
      rw [show n2 + r - n2 = r by omega]
      have hconv : Spec.convert v2 (2 ^ n2 - 1) (2 ^ (n2 + r) - 1) = v2 * 2 ^ r + v2 / 2 ^ (n2 - r) := by
        have hw := widen (two_pos r) (Nat.pow_dvd_pow 2 (show r ≤ n2 by omega))
          (Nat.pow_lt_pow_right (by omega) (show r < n2 by omega)) hv2
        unfold Spec.convert
        have hpp := two_pos (n2 + r)
        rw [show 2 ^ (n2 + r) - 1 + 1 = 2 ^ (n2 + r) by omega, Nat.pow_add, hw]
        congr 1
        rw [show n2 = (n2 - r) + r by omega, Nat.pow_add, show n2 - r + r - r = n2 - r by omega]
        rw [Nat.mul_div_mul_right _ _ (two_pos r)]
      have hle : v2 * 2 ^ r + v2 / 2 ^ (n2 - r) < 2 ^ (n2 + r) := by
        rw [← hconv]
        unfold Spec.convert
        have hpp := two_pos (n2 + r)
        omega
      rw [hconv]
      by_cases hr : r = 0
      · subst hr
        rw [if_neg (by omega)]
        simp only [Nat.sub_zero, Nat.pow_zero, Nat.mul_one]
        rw [Nat.div_eq_of_lt hv2, Nat.add_zero]
        exact congrArg some (cast_id (natIn (m := n2) (by omega) hv2))
      · rw [if_pos hr, shl_nat (m := n2 + r) (by omega) (Nat.lt_of_le_of_lt (Nat.le_add_right _ _) hle) (by omega), shr_nat (by omega)]
        simp only [Option.bind_eq_bind, Option.bind_some]
        have hlo : v2 / 2 ^ (n2 - r) < 2 ^ r := by
          rw [Nat.div_lt_iff_lt_mul (two_pos _), ← Nat.pow_add]
          rwa [show r + (n2 - r) = n2 by omega]
        rw [bitOr_nat (m := n2 + r) (by omega) hle hlo, cast_id (natIn hm hle)]
    · rw [if_neg hlast]
      have hone : 1 * 2 ^ n2 < 2 ^ (n2 * 2) := by
        rw [Nat.one_mul]; exact Nat.pow_lt_pow_right (by omega) (by omega)
      have hsq : 2 ^ (n2 * 2) = 2 ^ n2 * 2 ^ n2 := by rw [← Nat.pow_add]; congr 1; omega
      have hf : 2 ^ n2 + 1 < 2 ^ (n2 * 2) := by
        rw [hsq]
        have : 2 * 2 ^ n2 ≤ 2 ^ n2 * 2 ^ n2 := Nat.mul_le_mul_right _ (by omega)
        omega
      have hprod : v2 * (2 ^ n2 + 1) < 2 ^ (n2 * 2) := by
        have : v2 * (2 ^ n2 + 1) ≤ (2 ^ n2 - 1) * (2 ^ n2 + 1) := Nat.mul_le_mul_right _ (by omega)
        have e : (2 ^ n2 - 1) * (2 ^ n2 + 1) = 2 ^ n2 * 2 ^ n2 - 1 := by
          rw [Nat.sub_mul, Nat.mul_add]; omega
        rw [hsq]; have := two_pos (n2 * 2); omega
      have e1 := shl_nat (T := promote I T) (v := 1) (r := n2) (m := n2 * 2) (by omega) hone (by omega)
      rw [Nat.one_mul] at e1
      have hpp : promote I (promote I T) = promote I T := by
        unfold promote intTy; split_ifs <;> simp_all
      have e2 : arith I (promote I T) (((2 ^ n2 : Nat) : Int) + 1) = some ((2 ^ n2 + 1 : Nat) : Int) := by
        rw [arith_ok]
        · push_cast; rfl
        · rw [hpp]; exact_mod_cast natIn (T := promote I T) (by omega) hf
      have e3 : arith I (promote I T) ((v2 : Int) * ((2 ^ n2 + 1 : Nat) : Int)) = some ((v2 * (2 ^ n2 + 1) : Nat) : Int) := by
        rw [arith_ok]
        · push_cast; rfl
        · rw [hpp]; exact_mod_cast natIn (T := promote I T) (by omega) hprod
      rw [show shl (promote I T) 1 n2 = some ((2 ^ n2 : Nat) : Int) from e1]
      simp only [Option.bind_eq_bind, Option.bind_some]
      rw [e2, Option.bind_some, e3, Option.bind_some]
      apply ih _ _ (by omega) (by omega) (by omega)
      calc v2 * (2 ^ n2 + 1) * (2 ^ n - 1) = (v2 * (2 ^ n - 1)) * (2 ^ n2 + 1) := by ring
        _ = v * ((2 ^ n2 - 1) * (2 ^ n2 + 1)) := by rw [h]; ring
        _ = v * (2 ^ (n2 * 2) - 1) := by
          congr 1
          rw [hsq, Nat.sub_mul, Nat.mul_add]; omega

/-- C49, partial: change of bit width gives the documented value. What is missing: a target width that is the full width
of a signed type (see `C49_defect`). -/
theorem C49_value_partial (I : Nat) (T : Ty) (v n m : Nat) (hn : 0 < n) (hm : 0 < m) (hnT : n ≤ T.width)
    (hmT : m ≤ T.bits) (hvT : Spec.Fits T v) (hv : v < 2 ^ n) :
    changeBitWidth I T v n m = some ((Spec.convert v (2 ^ n - 1) (2 ^ m - 1) : Nat) : Int) := by
  have hP : T.bits ≤ (promote I T).bits := (promote_bits I T).2
  have hPw : T.width ≤ (promote I T).width := by
    unfold promote Ty.width intTy
    split_ifs <;> simp_all
    omega
  unfold changeBitWidth
  rw [if_neg (by omega), if_neg (by have : T.bits ≤ T.width := by { unfold Ty.width; omega }; omega)]
  simp only
  rw [cast_promote (fits_iff.1 hvT)]
  by_cases h : m < n
  · rw [if_pos h, shr_nat (by omega)]
    have hconv : Spec.convert v (2 ^ n - 1) (2 ^ m - 1) = v / 2 ^ (n - m) := by
      unfold Spec.convert
      have hpp := two_pos m
      rw [show 2 ^ m - 1 + 1 = 2 ^ m by omega,
        narrow (two_pos m) (Nat.pow_dvd_pow 2 (show m ≤ n by omega)) (Nat.pow_lt_pow_right (by omega) h) hv]
      obtain ⟨k, rfl⟩ : ∃ k, n = k + m := ⟨n - m, by omega⟩
      rw [Nat.pow_add, Nat.mul_div_mul_right _ _ (two_pos m), show k + m - m = k by omega]
    rw [hconv]
    have hlt : v / 2 ^ (n - m) < 2 ^ m := by
      rw [Nat.div_lt_iff_lt_mul (two_pos _), ← Nat.pow_add]
      rwa [show m + (n - m) = n by omega]
    simp only [Option.bind_eq_bind, Option.bind_some]
    rw [cast_id (natIn hmT hlt)]
  · rw [if_neg h]
    exact expand_spec hn hmT hv _ _ _ hn (by omega) (by omega) rfl

/-- C49: narrowing inverts widening. -/
theorem C49_round_trip (I : Nat) (T : Ty) (v n m : Nat) (hn : 0 < n) (hnm : n ≤ m) (hmT : m ≤ T.bits) (hv : v < 2 ^ n) :
    ∃ w, changeBitWidth I T v n m = some w ∧ changeBitWidth I T w m n = some (v : Int) := by
  have hb : T.bits ≤ T.width := by unfold Ty.width; omega
  have hn1 := one_lt hn
  have hm1 := one_lt (show 0 < m by omega)
  refine ⟨_, C49_value_partial I T v n m hn (by omega) (by omega) hmT (fits_iff.2 (natIn (by omega) hv)) hv, ?_⟩
  have hlt : Spec.convert v (2 ^ n - 1) (2 ^ m - 1) < 2 ^ m := by unfold Spec.convert; omega
  rw [C49_value_partial I T _ m n (by omega) hn (by omega) (by omega) (fits_iff.2 (natIn hmT hlt)) hlt]
  congr 2
  obtain ⟨k, rfl⟩ : ∃ k, m = k + n := ⟨m - n, by omega⟩
  have hk := two_pos k
  -- The widened value has `v` as its most significant bits.
  have hlo : v * 2 ^ k ≤ Spec.convert v (2 ^ n - 1) (2 ^ (k + n) - 1) := by
    unfold Spec.convert
    rw [show 2 ^ (k + n) - 1 + 1 = 2 ^ (k + n) by omega, Nat.pow_add]
    apply Nat.le_min.2
    constructor
    · have : (v + 1) * 2 ^ k ≤ 2 ^ n * 2 ^ k := Nat.mul_le_mul_right _ (by omega)
      rw [Nat.add_mul, Nat.one_mul] at this
      rw [Nat.mul_comm (2 ^ k)]
      omega
    · rw [Nat.le_div_iff_mul_le (by omega)]
      calc v * 2 ^ k * (2 ^ n - 1) ≤ v * 2 ^ k * 2 ^ n := Nat.mul_le_mul_left _ (by omega)
        _ = _ := by ring
  have hhi : Spec.convert v (2 ^ n - 1) (2 ^ (k + n) - 1) < (v + 1) * 2 ^ k := by
    unfold Spec.convert
    rw [show 2 ^ (k + n) - 1 + 1 = 2 ^ (k + n) by omega, Nat.pow_add]
    by_cases hv1 : v = 2 ^ n - 1
    · rw [hv1, show 2 ^ n - 1 + 1 = 2 ^ n by omega, Nat.mul_comm (2 ^ k)]
      have : 0 < 2 ^ n * 2 ^ k := Nat.mul_pos (by omega) hk
      omega
    · apply Nat.lt_of_le_of_lt (Nat.min_le_right _ _)
      rw [Nat.div_lt_iff_lt_mul (by omega), Nat.mul_sub, Nat.mul_one]
      have h1 : (v + 2) * 2 ^ k ≤ 2 ^ n * 2 ^ k := Nat.mul_le_mul_right _ (by omega)
      have h2 : (v + 1) * 2 ^ k * 2 ^ n = v * (2 ^ k * 2 ^ n) + 2 ^ n * 2 ^ k := by ring
      have h3 : (v + 2) * 2 ^ k = (v + 1) * 2 ^ k + 2 ^ k := by ring
      omega
  generalize Spec.convert v (2 ^ n - 1) (2 ^ (k + n) - 1) = w at *
  unfold Spec.convert
  rw [show 2 ^ n - 1 + 1 = 2 ^ n by omega]
  have hlt' : w < 2 ^ (k + n) := hlt
  rcases Nat.eq_zero_or_pos k with rfl | hkpos
  · simp only [Nat.pow_zero, Nat.mul_one, Nat.zero_add] at *
    have : w = v := by omega
    subst this
    rcases Nat.lt_or_ge w (2 ^ n - 1) with h | h
    · have : w * 2 ^ n / (2 ^ n - 1) = w := by
        have e : w * 2 ^ n = (2 ^ n - 1) * w + w := by
          conv_lhs => rw [show 2 ^ n = (2 ^ n - 1) + 1 by omega]
          ring
        rw [e, Nat.mul_add_div (by omega), Nat.div_eq_of_lt h, Nat.add_zero]
      omega
    · have : w = 2 ^ n - 1 := by omega
      rw [this, Nat.mul_div_cancel_left _ (by omega)]
      omega
  · rw [narrow (two_pos n) (Nat.pow_dvd_pow 2 (show n ≤ k + n by omega))
      (Nat.pow_lt_pow_right (by omega) (by omega)) hlt', Nat.pow_add, Nat.mul_div_mul_right _ _ (two_pos n)]
    exact Nat.div_eq_of_lt_le hlo hhi

/-- C49 fails for a signed type and a target width that is the full width of the type, although the assertions of the
function allow it: multiplication overflows. -/
theorem C49_defect : changeBitWidth 31 (intTy 31) 0xFFFF 16 32 = none := by decide +kernel

example : changeBitWidth 31 ⟨false, 8⟩ 0b101 3 8 = some 0b10110110 := by decide +kernel
example : changeBitWidth 31 ⟨false, 32⟩ 0x1234 16 32 = some 0x12341234 := by decide +kernel
example : changeBitWidth 31 ⟨true, 31⟩ 0x7FFF 15 31 = some 0x7FFFFFFF := by decide +kernel
example : Spec.convert 0b101 7 255 = 0b10110110 ∧ Spec.convert 7 7 255 = 255 := by decide +kernel

/-! ### C50 -/

/-- The rounded quotient. -/
def rounded (val max1 max2 : Nat) : Nat := val * max2 / max1 + (if 2 * (val * max2 % max1) ≤ max1 then 0 else 1)

theorem rounded_le {val max1 max2 : Nat} (hval : val ≤ max1) : rounded val max1 max2 ≤ max2 := by
  unfold rounded
  have h1 : val * max2 ≤ max1 * max2 := Nat.mul_le_mul_right _ hval
  have h2 : val * max2 / max1 ≤ max2 := Nat.div_le_of_le_mul h1
  have h3 := Nat.div_add_mod (val * max2) max1
  split_ifs with h
  · omega
  · by_contra hc
    have h4 : val * max2 / max1 = max2 := by omega
    rw [h4] at h3
    omega

/-- The rounded quotient is the only integer with these properties. -/
theorem rounded_iff {val max1 max2 q : Nat} (hpos : 0 < max1) :
    rounded val max1 max2 = q ↔
      2 * (val * max2) ≤ 2 * (q * max1) + max1 ∧ 2 * (q * max1) < 2 * (val * max2) + max1 := by
  have h3 := Nat.div_add_mod (val * max2) max1
  have h4 := Nat.mod_lt (val * max2) hpos
  have key : 2 * (val * max2) ≤ 2 * (rounded val max1 max2 * max1) + max1 ∧
      2 * (rounded val max1 max2 * max1) < 2 * (val * max2) + max1 := by
    unfold rounded
    generalize val * max2 / max1 = k at *
    generalize val * max2 % max1 = s at *
    have e : max1 * k = k * max1 := Nat.mul_comm _ _
    split_ifs with h
    · rw [Nat.add_zero]; omega
    · rw [Nat.add_mul]; omega
  constructor
  · rintro rfl; exact key
  · intro h
    generalize rounded val max1 max2 = k at key
    generalize val * max2 = p at *
    rcases Nat.lt_trichotomy k q with h5 | h5 | h5
    · have : (k + 1) * max1 ≤ q * max1 := Nat.mul_le_mul_right _ h5
      rw [Nat.add_mul] at this
      omega
    · exact h5
    · have : (q + 1) * max1 ≤ k * max1 := Nat.mul_le_mul_right _ h5
      rw [Nat.add_mul] at this
      omega

theorem intToIntA_eq {I : Nat} {U A J : Ty} {N M val max1 max2 : Nat} (hNM : N + M ≤ U.bits)
    (hA : Spec.Fits A max1) (hJ : Spec.Fits J max2) (h1 : max1 < 2 ^ N) (h2 : max2 < 2 ^ M) (hpos : 0 < max1)
    (hval : val ≤ max1) :
    intToIntA I U A J val max1 max2 = some (rounded val max1 max2 : Int) := by
  have hN : 2 ^ N ≤ 2 ^ (N + M) := Nat.pow_le_pow_right (by omega) (by omega)
  have hM : 2 ^ M ≤ 2 ^ (N + M) := Nat.pow_le_pow_right (by omega) (by omega)
  have hp : val * max2 < 2 ^ (N + M) := by
    rw [Nat.pow_add]
    calc val * max2 ≤ max1 * max2 := Nat.mul_le_mul_right _ hval
      _ ≤ max1 * 2 ^ M := Nat.mul_le_mul_left _ (by omega)
      _ < 2 ^ N * 2 ^ M := Nat.mul_lt_mul_of_pos_right h1 (two_pos M)
  have c1 : cast U (val : Int) = val := cast_id (natIn hNM (by omega))
  have c2 : cast U (max2 : Int) = max2 := cast_id (natIn hNM (by omega))
  have c3 : U.In ((val * max2 : Nat) : Int) := natIn hNM hp
  unfold intToIntA
  rw [c1, c2, show (val : Int) * max2 = ((val * max2 : Nat) : Int) by push_cast; rfl, arith_ok (In_promote c3)]
  simp only [Option.bind_eq_bind, Option.bind_some]
  rw [cast_id c3, divRoundHalfDown_spec I U A _ _ c3 (fits_iff.1 hA) (by omega) (by omega)]
  have e : ((val * max2 : Nat) : Int) / max1 + (if 2 * (((val * max2 : Nat) : Int) % max1) ≤ max1 then 0 else 1) =
      (rounded val max1 max2 : Int) := by
    unfold rounded
    push_cast
    congr 1
    norm_cast
  rw [e, Option.bind_some]
  refine congrArg some (cast_id ?_)
  have hle := rounded_le (max2 := max2) hval
  have hJ' := (In_nonneg (by omega)).1 (fits_iff.1 hJ)
  rw [In_nonneg (by omega)]
  omega

/-- C50: the result is an integer that is closest to the exact value, in fact the smaller one of two, and does not
exceed the maximum. -/
theorem C50_nearest (I : Nat) (U A J : Ty) (N M val max1 max2 : Nat) (hNM : N + M ≤ U.bits)
    (hA : Spec.Fits A max1) (hJ : Spec.Fits J max2) (h1 : max1 < 2 ^ N) (h2 : max2 < 2 ^ M) (hpos : 0 < max1)
    (hval : val ≤ max1) :
    ∃ q : Nat, intToIntA I U A J val max1 max2 = some (q : Int) ∧ q ≤ max2 ∧ Spec.Nearest val max1 max2 q ∧
      ∀ q', Spec.Nearest val max1 max2 q' → q ≤ q' := by
  refine ⟨_, intToIntA_eq hNM hA hJ h1 h2 hpos hval, rounded_le hval, ?_, ?_⟩
  · have := (rounded_iff hpos).1 (rfl : rounded val max1 max2 = _)
    exact ⟨this.1, by omega⟩
  · intro q' h
    have := (rounded_iff hpos).1 (rfl : rounded val max1 max2 = _)
    by_contra hc
    have h5 : (q' + 1) * max1 ≤ rounded val max1 max2 * max1 := Nat.mul_le_mul_right _ (by omega)
    rw [Nat.add_mul] at h5
    have := h.1
    omega

theorem convertA_eq {val max1 max2 : Nat} (hpos : 0 < max1) (hval : val ≤ max1) :
    (¬ Spec.Tie val max1 max2 → Spec.convertA val max1 max2 = rounded val max1 max2) ∧
    (Spec.Tie val max1 max2 → Spec.convertA val max1 max2 = rounded val max1 max2 + 1) := by
  have h := (rounded_iff hpos).1 (rfl : rounded val max1 max2 = _)
  have hle := rounded_le (max2 := max2) hval
  unfold Spec.convertA
  have hlt : val * max2 ≤ max1 * max2 := Nat.mul_le_mul_right _ hval
  constructor
  · intro ht
    have : (2 * (val * max2) + max1) / (2 * max1) = rounded val max1 max2 := by
      apply Nat.div_eq_of_lt_le
      · have : rounded val max1 max2 * (2 * max1) = 2 * (rounded val max1 max2 * max1) := by ring
        omega
      · have : (rounded val max1 max2 + 1) * (2 * max1) = 2 * (rounded val max1 max2 * max1) + 2 * max1 := by ring
        have h5 : 2 * (val * max2) ≠ 2 * (rounded val max1 max2 * max1) + max1 := fun h => ht ⟨_, h⟩
        omega
    rw [this]; omega
  · rintro ⟨q, hq⟩
    have e : rounded val max1 max2 = q := (rounded_iff hpos).2 ⟨by omega, by omega⟩
    have : (2 * (val * max2) + max1) / (2 * max1) = q + 1 := by
      have : 2 * (val * max2) + max1 = (q + 1) * (2 * max1) := by rw [hq]; ring
      rw [this, Nat.mul_div_cancel _ (by omega)]
    rw [this, e]
    have : q + 1 ≤ max2 := by
      by_contra hc
      have h5 : max2 * max1 ≤ q * max1 := Nat.mul_le_mul_right _ (by omega)
      rw [Nat.mul_comm max2] at h5
      omega
    omega

/-- C50, partial: agreement with the documented alternative in exact arithmetic. What is missing: exact values halfway
between two integers (see `C50_defect`). There are none if `max_1` is odd. -/
theorem C50_agrees_partial (I : Nat) (U A J : Ty) (N M val max1 max2 : Nat) (hNM : N + M ≤ U.bits)
    (hA : Spec.Fits A max1) (hJ : Spec.Fits J max2) (h1 : max1 < 2 ^ N) (h2 : max2 < 2 ^ M) (hpos : 0 < max1)
    (hval : val ≤ max1) :
    (max1 % 2 = 1 ∨ ¬ Spec.Tie val max1 max2) →
      intToIntA I U A J val max1 max2 = some (Spec.convertA val max1 max2 : Int) := by
  intro h
  have ht : ¬ Spec.Tie val max1 max2 := by
    rcases h with h | h
    · rintro ⟨q, hq⟩; omega
    · exact h
  rw [(convertA_eq hpos hval).1 ht]
  exact intToIntA_eq hNM hA hJ h1 h2 hpos hval

/-- C50: at every value that is halfway between two integers, the result is one less than that of the documented
alternative. -/
theorem C50_defect (I : Nat) (U A J : Ty) (N M val max1 max2 : Nat) (hNM : N + M ≤ U.bits)
    (hA : Spec.Fits A max1) (hJ : Spec.Fits J max2) (h1 : max1 < 2 ^ N) (h2 : max2 < 2 ^ M) (hpos : 0 < max1)
    (hval : val ≤ max1) (ht : Spec.Tie val max1 max2) :
    intToIntA I U A J val max1 max2 = some ((Spec.convertA val max1 max2 : Int) - 1) := by
  rw [(convertA_eq hpos hval).2 ht, intToIntA_eq hNM hA hJ h1 h2 hpos hval]
  push_cast
  rw [Int.add_sub_cancel]

/-- C50: a witness of the above: one half of unity. -/
theorem C50_defect_example : Spec.Tie 1 2 1 ∧ Spec.convertA 1 2 1 = 1 ∧
    intToIntA 31 ⟨false, 32⟩ ⟨true, 31⟩ ⟨true, 31⟩ 1 2 1 = some 0 := ⟨⟨0, by decide⟩, by decide +kernel, by decide +kernel⟩

/-- C50: zero is mapped to zero, and unity to unity. -/
theorem C50_ends (I : Nat) (U A J : Ty) (N M max1 max2 : Nat) (hNM : N + M ≤ U.bits)
    (hA : Spec.Fits A max1) (hJ : Spec.Fits J max2) (h1 : max1 < 2 ^ N) (h2 : max2 < 2 ^ M) (hpos : 0 < max1) :
    intToIntA I U A J 0 max1 max2 = some 0 ∧ intToIntA I U A J max1 max1 max2 = some (max2 : Int) := by
  have a := intToIntA_eq (I := I) (val := 0) hNM hA hJ h1 h2 hpos (by omega)
  have b := intToIntA_eq (I := I) (val := max1) hNM hA hJ h1 h2 hpos (by omega)
  rw [(rounded_iff (q := 0) hpos).2 (by simp [hpos])] at a
  rw [(rounded_iff (q := max2) hpos).2 (by rw [Nat.mul_comm max2]; omega)] at b
  exact ⟨a, b⟩

/-- C50: the conversion is monotone. -/
theorem C50_monotone (I : Nat) (U A J : Ty) (N M v w max1 max2 : Nat) (hNM : N + M ≤ U.bits)
    (hA : Spec.Fits A max1) (hJ : Spec.Fits J max2) (h1 : max1 < 2 ^ N) (h2 : max2 < 2 ^ M) (hpos : 0 < max1)
    (hvw : v ≤ w) (hw : w ≤ max1) :
    ∃ p q : Nat, intToIntA I U A J v max1 max2 = some (p : Int) ∧ intToIntA I U A J w max1 max2 = some (q : Int) ∧
      p ≤ q := by
  refine ⟨_, _, intToIntA_eq hNM hA hJ h1 h2 hpos (by omega), intToIntA_eq hNM hA hJ h1 h2 hpos hw, ?_⟩
  have a := (rounded_iff hpos).1 (rfl : rounded v max1 max2 = _)
  have b := (rounded_iff hpos).1 (rfl : rounded w max1 max2 = _)
  by_contra hc
  have h5 : (rounded w max1 max2 + 1) * max1 ≤ rounded v max1 max2 * max1 := Nat.mul_le_mul_right _ (by omega)
  have h6 : v * max2 ≤ w * max2 := Nat.mul_le_mul_right _ hvw
  rw [Nat.add_mul] at h5
  omega

/-- C50: conversion to a representation that is at least as fine, and back, gives the original value. -/
theorem C50_round_trip (I : Nat) (U A J : Ty) (N M val max1 max2 : Nat) (hNM : N + M ≤ U.bits)
    (hA : Spec.Fits A max1) (hJ : Spec.Fits J max2) (h1 : max1 < 2 ^ N) (h2 : max2 < 2 ^ M) (hpos : 0 < max1)
    (hval : val ≤ max1) (hle : max1 ≤ max2) :
    ∃ q : Nat, intToIntA I U A J val max1 max2 = some (q : Int) ∧ intToIntA I U J A q max2 max1 = some (val : Int) := by
  refine ⟨_, intToIntA_eq hNM hA hJ h1 h2 hpos hval, ?_⟩
  rw [intToIntA_eq (N := M) (M := N) (by omega) hJ hA h2 h1 (by omega) (rounded_le hval)]
  have a := (rounded_iff hpos).1 (rfl : rounded val max1 max2 = _)
  congr 2
  rw [rounded_iff (by omega)]
  rcases Nat.lt_or_ge max1 max2 with h | h
  · omega
  · have : max1 = max2 := by omega
    subst this
    have : rounded val max1 max1 = val := by rw [rounded_iff hpos]; omega
    rw [this]; omega

example : intToIntA 31 ⟨false, 32⟩ ⟨false, 8⟩ ⟨false, 16⟩ 128 255 65535 = some 32896 := by decide +kernel
example : intToIntA 31 ⟨false, 32⟩ ⟨false, 16⟩ ⟨false, 8⟩ 32896 65535 255 = some 128 := by decide +kernel
example : Spec.convertA 100 255 31 = 12 := by decide +kernel

end Verif.UnitFrac
