import Verif.MulPrec.Copy
/-!
Conversions.
-/
namespace Verif.MulPrec
open Verif.Integer Verif.MulPrec.Spec

theorem reprWidth_cases {I w : Nat} (hp : I ≠ w) : (w < I ∧ reprWidth I w = I + 1) ∨ (I < w ∧ reprWidth I w = w) := by
  unfold reprWidth
  rcases P_cases hp with ⟨h, e⟩ | ⟨h, e⟩
  · exact .inl ⟨h, by rw [e]; rfl⟩
  · exact .inr ⟨h, by rw [e]; rfl⟩

theorem reprParts_self {I w N : Nat} (h : I < w) (hp : I ≠ w) : reprParts I w N = N := by
  rcases reprWidth_cases hp with ⟨h', e⟩ | ⟨h', e⟩
  · omega
  · rw [reprParts, e, Nat.mul_add_div (by omega), Nat.div_eq_of_lt (by omega), Nat.add_zero]

theorem reprParts_pos {I w N : Nat} (hp : I ≠ w) (hw : 1 ≤ w) (hN : 0 < N) : 0 < reprParts I w N := by
  have hW : 0 < w * N := Nat.mul_pos (by omega) hN
  unfold reprParts
  have hr : 0 < reprWidth I w := by rcases reprWidth_cases hp with ⟨h, e⟩ | ⟨h, e⟩ <;> omega
  exact Nat.div_pos (by omega) hr

theorem repr_le {I w N : Nat} (hp : I ≠ w) : w * N ≤ reprWidth I w * reprParts I w N := by
  have hr : 0 < reprWidth I w := by rcases reprWidth_cases hp with ⟨h, e⟩ | ⟨h, e⟩ <;> omega
  have h1 : w * N + (reprWidth I w - 1) < (reprParts I w N + 1) * reprWidth I w :=
    (Nat.div_lt_iff_lt_mul hr).1 (Nat.lt_succ_self _)
  rw [Nat.add_mul, Nat.mul_comm (reprParts I w N)] at h1
  omega

theorem fits_mono {w N w' N' : Nat} {S : Bool} {x : Int} (h : w * N ≤ w' * N') (hx : Fits w N S x) : Fits w' N' S x := by
  have h1 : (2 : Int) ^ (w * N) ≤ 2 ^ (w' * N') := p_le h
  have h2 : (2 : Int) ^ (w * N - 1) ≤ 2 ^ (w' * N' - 1) := p_le (by omega)
  unfold Fits at *
  cases S <;> simp only [Bool.false_eq_true, if_false, if_true] at hx ⊢ <;> omega

section
variable {I w N : Nat} {S : Bool} (hp : I ≠ w) (hI : 1 ≤ I) (hw : 1 ≤ w) (hN : 0 < N)
include hp hI hw hN

theorem getParts_spec {a : List Nat} (ha : D (2 ^ w) N a) :
    ∃ r, getParts I w N S a = some r ∧ D (2 ^ reprWidth I w) (reprParts I w N) r ∧
      value (reprWidth I w) (reprParts I w N) S r = value w N S a := by
  have hW : 0 < w * N := Nat.mul_pos (by omega) hN
  have hle := repr_le (N := N) hp
  have hn := reprParts_pos hp hw hN
  unfold getParts
  by_cases h : I < w
  · rw [if_pos h, reprParts_self h hp]
    rcases reprWidth_cases hp with ⟨h', e⟩ | ⟨h', e⟩
    · omega
    · rw [e]; exact ⟨a, rfl, ha, rfl⟩
  · rw [if_neg h]
    rcases reprWidth_cases hp with ⟨h', e⟩ | ⟨h', e⟩
    · obtain ⟨r, h1, h2, h3⟩ := bitCopy_spec (S := S) hp hI hw (show 1 ≤ reprWidth I w by omega) hN hn ha
        (D_zero (two_pos _) _)
      refine ⟨r, h1, h2, ?_⟩
      rw [value_eq_wrap (by omega) h2 h3, wrap_of_fits (by omega) (fits_mono hle (value_fits hW ha))]
    · omega

theorem fromParts_spec {a : List Nat} (ha : D (2 ^ reprWidth I w) (reprParts I w N) a) :
    ∃ r, fromParts I w N S a = some r ∧ D (2 ^ w) N r ∧ (2 : Int) ^ (w * N) ∣ (uval w r : Int) - uval (reprWidth I w) a := by
  have hle := repr_le (N := N) hp
  have hn := reprParts_pos hp hw hN
  unfold fromParts
  by_cases h : I < w
  · rw [if_pos h]
    rcases reprWidth_cases hp with ⟨h', e⟩ | ⟨h', e⟩
    · omega
    · rw [reprParts_self h hp, e] at ha
      rw [e]; exact ⟨a, rfl, ha, by simp⟩
  · rw [if_neg h]
    rcases reprWidth_cases hp with ⟨h', e⟩ | ⟨h', e⟩
    · obtain ⟨r, h1, h2, h3⟩ := bitCopy_spec (S := S) (show I ≠ reprWidth I w by omega) hI (show 1 ≤ reprWidth I w by omega) hw hn hN ha
        (D_zero (two_pos _) _)
      refine ⟨r, h1, h2, ?_⟩
      have h4 := value_dvd (reprWidth I w) (reprParts I w N) S a
      have h5 := Int.dvd_add h3 (Int.dvd_trans (p_dvd hle) h4)
      rwa [show (uval w r : Int) - value (reprWidth I w) (reprParts I w N) S a +
        (value (reprWidth I w) (reprParts I w N) S a - uval (reprWidth I w) a) = (uval w r : Int) - uval (reprWidth I w) a by ring] at h5
    · omega

end

theorem partWidth_cases {I : Nat} {t : Ty} :
    (t.bits ≤ I ∧ promote I t = ⟨true, I⟩ ∧ partWidth I t = I + 1) ∨
      (I < t.bits ∧ promote I t = t ∧ partWidth I t = t.width) := by
  unfold partWidth promote
  by_cases h : t.bits ≤ I
  · exact .inl ⟨h, by simp [h, intTy], by simp [h, intTy, unsignedOf]⟩
  · refine .inr ⟨by omega, by simp [h], ?_⟩
    rw [if_neg h, unsignedOf, Ty.width]
    split <;> simp_all

theorem width_le_part {I : Nat} {t : Ty} : t.width ≤ partWidth I t ∧ I < partWidth I t := by
  rcases partWidth_cases (I := I) (t := t) with ⟨h1, _, h2⟩ | ⟨h1, _, h2⟩ <;> rw [h2] <;> unfold Ty.width <;> split <;> omega

/-- The single part of a fundamental type. -/
theorem getPartsF_spec {I : Nat} {t : Ty} {x : Int} (hx : t.In x) :
    D (2 ^ partWidth I t) 1 (getPartsF I t x) ∧ value (partWidth I t) 1 t.signed (getPartsF I t x) = x := by
  have hw := width_le_part (I := I) (t := t)
  have hD : D (2 ^ partWidth I t) 1 (getPartsF I t x) :=
    ⟨rfl, fun i hi => by
      have : i = 0 := by omega
      subst this
      exact toT_lt _ _⟩
  refine ⟨hD, ?_⟩
  have hW : 0 < partWidth I t * 1 := by omega
  have hfit : Fits (partWidth I t) 1 t.signed x := by
    obtain ⟨s, b⟩ := t
    unfold Fits
    cases s
    · rw [In_u] at hx
      have : (2 : Int) ^ b ≤ 2 ^ (partWidth I ⟨false, b⟩ * 1) := p_le (by simp only [Ty.width] at hw; simp at hw; omega)
      simp only [Bool.false_eq_true, if_false]; omega
    · rw [In_s] at hx
      have : (2 : Int) ^ b ≤ 2 ^ (partWidth I ⟨true, b⟩ * 1 - 1) := p_le (by simp only [Ty.width] at hw; simp at hw; omega)
      simp only [if_true]; omega
  refine (value_eq_wrap hW hD (x := x) ?_).trans (wrap_of_fits hW hfit)
  have h0 := p_pos (partWidth I t)
  have h1 := Int.emod_nonneg x (show (2 : Int) ^ partWidth I t ≠ 0 by omega)
  simp only [getPartsF, uval, Nat.mul_zero, Nat.add_zero, toT_emod, Nat.mul_one]
  rw [Int.toNat_of_nonneg h1, Int.emod_def]
  exact ⟨-(x / 2 ^ partWidth I t), by ring⟩

theorem fromPartsF_spec {I : Nat} {t : Ty} {a : List Nat} (ha : D (2 ^ partWidth I t) 1 a) :
    ∃ r, fromPartsF I t a = some r ∧ t.In r ∧ (2 : Int) ^ t.width ∣ r - uval (partWidth I t) a := by
  have hw := width_le_part (I := I) (t := t)
  have hx := ha.2 0 (by omega)
  have hu : uval (partWidth I t) a = g a 0 := by rw [uval_D ha, V_succ, V_zero]; simp
  rw [hu]
  unfold fromPartsF
  rw [rd_eq (show 0 < a.length by rw [ha.1]; omega)]
  simp only [Option.bind_eq_bind, Option.bind_some]
  by_cases hs : t.signed = true
  · have hpn : I ≠ partWidth I t := by omega
    have hh := half_nat (show 0 < partWidth I t by omega)
    have hh' := half (show 0 < partWidth I t by omega)
    have hsh := shl_nat (x := 1) (r := partWidth I t - 1) hpn (by omega) (by rw [Nat.one_mul]; have := two_pos (partWidth I t - 1); omega)
    rw [Nat.one_mul] at hsh
    simp only [hs, Bool.not_true, Bool.false_eq_true, if_false]
    rw [show ((1 : Nat) : Int) = 1 from rfl] at hsh
    rw [hsh]
    simp only [Option.bind_some]
    rw [bitAnd_nat hpn hx (by have := two_pos (partWidth I t - 1); omega)]
    have hand : ((g a 0 &&& 2 ^ (partWidth I t - 1) : Nat) : Int) = 0 ↔ g a 0 < 2 ^ (partWidth I t - 1) := by
      rw [Nat.and_two_pow]
      have hpos := two_pos (partWidth I t - 1)
      have h1 : g a 0 / 2 ^ (partWidth I t - 1) < 2 := Nat.div_lt_of_lt_mul (by rw [Nat.mul_comm]; omega)
      rw [Nat.testBit_eq_decide_div_mod_eq, Nat.mod_eq_of_lt h1]
      constructor
      · intro h
        by_contra hc
        have := (Nat.le_div_iff_mul_le hpos (x := 1) (y := g a 0)).2 (by omega)
        rw [decide_eq_true (by omega)] at h
        simp at h
      · intro h
        rw [Nat.div_eq_of_lt h]; simp
    by_cases hc : g a 0 < 2 ^ (partWidth I t - 1)
    · rw [if_pos (hand.2 hc)]
      exact ⟨_, rfl, cast_in _ _, cast_dvd _ _⟩
    · rw [if_neg (fun h => hc (hand.1 h))]
      have e1 := cast_pow (partWidth I t)
      have e2 := cast_pow (partWidth I t - 1)
      have har : arith I (T (partWidth I t)) ((2 : Int) ^ partWidth I t - 1 - (g a 0 : Int)) =
          some ((2 : Int) ^ partWidth I t - 1 - (g a 0 : Int)) := by
        have := arith_nat (x := 2 ^ partWidth I t - 1 - g a 0) hpn (by omega)
        rw [show ((2 ^ partWidth I t - 1 - g a 0 : Nat) : Int) = (2 : Int) ^ partWidth I t - 1 - (g a 0 : Int) by omega] at this
        exact this
      rw [har]
      simp only [Option.bind_some]
      have hpr : promote I t = ⟨true, partWidth I t - 1⟩ := by
        obtain ⟨s, b⟩ := t
        simp only at hs
        subst hs
        rcases partWidth_cases (I := I) (t := ⟨true, b⟩) with ⟨_, h2, h3⟩ | ⟨_, h2, h3⟩
        · rw [h2, h3]; rfl
        · rw [h2, h3]; rfl
      have hpp : promote I (promote I t) = promote I t := by
        rw [hpr, promote]
        by_cases h : partWidth I t - 1 ≤ I
        · simp only [h, if_true, intTy]; congr 1; omega
        · simp only [h, if_false]
      have hIn1 : (promote I t).In ((2 : Int) ^ partWidth I t - 1 - (g a 0 : Int)) := by rw [hpr, In_s]; omega
      rw [cast_id hIn1]
      have hIn2 : (promote I t).In (-1 - ((2 : Int) ^ partWidth I t - 1 - (g a 0 : Int))) := by rw [hpr, In_s]; omega
      have har2 : arith I (promote I t) (-1 - ((2 : Int) ^ partWidth I t - 1 - (g a 0 : Int))) =
          some (-1 - ((2 : Int) ^ partWidth I t - 1 - (g a 0 : Int))) := by
        unfold arith
        simp only [hpp]
        rw [if_pos (by rw [hpr]), if_pos hIn2]
      rw [har2]
      simp only [Option.bind_some]
      refine ⟨_, rfl, cast_in _ _, ?_⟩
      have h3 := cast_dvd t (-1 - ((2 : Int) ^ partWidth I t - 1 - (g a 0 : Int)))
      have h4 : (2 : Int) ^ t.width ∣ 2 ^ partWidth I t := p_dvd hw.1
      have h5 := Int.dvd_sub h3 h4
      rw [show Verif.Integer.cast t (-1 - ((2 : Int) ^ partWidth I t - 1 - (g a 0 : Int))) -
        (-1 - ((2 : Int) ^ partWidth I t - 1 - (g a 0 : Int))) - 2 ^ partWidth I t =
        Verif.Integer.cast t (-1 - ((2 : Int) ^ partWidth I t - 1 - (g a 0 : Int))) - (g a 0 : Int) by ring] at h5
      exact h5
  · have hs' : t.signed = false := by simpa using hs
    simp only [hs', Bool.not_false, if_true]
    exact ⟨_, rfl, cast_in _ _, cast_dvd _ _⟩

end Verif.MulPrec
