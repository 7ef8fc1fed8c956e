import Verif.Integer.Model
import Mathlib.Tactic.Ring
import Mathlib.Tactic.Linarith

/-
Helper lemmas about the model of built-in integer types.
-/
namespace Verif.Integer

set_option linter.unusedSimpArgs false

theorem p_pos (n : Nat) : (0 : Int) < 2 ^ n := Int.pow_pos (by decide)

theorem p_le {a b : Nat} (h : a ≤ b) : (2 : Int) ^ a ≤ 2 ^ b := by
  exact_mod_cast Nat.pow_le_pow_right (by decide : 0 < 2) h

theorem p_succ (a : Nat) : (2 : Int) ^ (a + 1) = 2 * 2 ^ a := by rw [pow_succ]; ring

theorem p_lt {a b : Nat} (h : a < b) : 2 * (2 : Int) ^ a ≤ 2 ^ b := by
  rw [← p_succ]; exact p_le h

theorem p_dvd {a b : Nat} (h : a ≤ b) : (2 : Int) ^ a ∣ 2 ^ b := by
  obtain ⟨d, rfl⟩ := Nat.exists_eq_add_of_le h
  exact ⟨2 ^ d, by rw [pow_add]⟩

@[simp] theorem In_s (b : Nat) (x : Int) : (⟨true, b⟩ : Ty).In x ↔ -(2 ^ b) ≤ x ∧ x ≤ 2 ^ b - 1 := Iff.rfl
@[simp] theorem In_u (b : Nat) (x : Int) : (⟨false, b⟩ : Ty).In x ↔ 0 ≤ x ∧ x ≤ 2 ^ b - 1 := Iff.rfl
@[simp] theorem min_s (b : Nat) : (⟨true, b⟩ : Ty).min = -(2 ^ b) := rfl
@[simp] theorem min_u (b : Nat) : (⟨false, b⟩ : Ty).min = 0 := rfl
@[simp] theorem max_t (s : Bool) (b : Nat) : (⟨s, b⟩ : Ty).max = 2 ^ b - 1 := rfl

theorem cast_u (b : Nat) (x : Int) : cast ⟨false, b⟩ x = x % 2 ^ b := rfl
theorem cast_s (b : Nat) (x : Int) : cast ⟨true, b⟩ x = (x + 2 ^ b) % 2 ^ (b + 1) - 2 ^ b := rfl

theorem cast_id {t : Ty} {x : Int} (h : t.In x) : cast t x = x := by
  obtain ⟨s, b⟩ := t
  have := p_pos b
  cases s
  · rw [cast_u]; rw [In_u] at h
    exact Int.emod_eq_of_lt h.1 (by omega)
  · rw [cast_s]; rw [In_s] at h
    rw [Int.emod_eq_of_lt (by omega) (by rw [p_succ]; omega)]; omega

theorem cast_in (t : Ty) (x : Int) : t.In (cast t x) := by
  obtain ⟨s, b⟩ := t
  have := p_pos b
  cases s
  · rw [cast_u, In_u]
    have h1 := Int.emod_nonneg x (show (2 : Int) ^ b ≠ 0 by omega)
    have h2 := Int.emod_lt_of_pos x this
    omega
  · rw [cast_s, In_s]
    have hp := p_succ b
    have h1 := Int.emod_nonneg (x + 2 ^ b) (show (2 : Int) ^ (b + 1) ≠ 0 by omega)
    have h2 := Int.emod_lt_of_pos (x + 2 ^ b) (show (0 : Int) < 2 ^ (b + 1) by omega)
    omega

theorem castU_id {b : Nat} {x : Int} (h1 : 0 ≤ x) (h2 : x < 2 ^ b) : cast ⟨false, b⟩ x = x :=
  cast_id ((In_u b x).mpr ⟨h1, by omega⟩)

theorem castU_neg {b : Nat} {x : Int} (h1 : -(2 ^ b) ≤ x) (h2 : x < 0) : cast ⟨false, b⟩ x = x + 2 ^ b := by
  rw [cast_u, ← Int.add_emod_right x]
  exact Int.emod_eq_of_lt (by omega) (by omega)

theorem castS_id {b : Nat} {x : Int} (h1 : -(2 ^ b) ≤ x) (h2 : x < 2 ^ b) : cast ⟨true, b⟩ x = x :=
  cast_id ((In_s b x).mpr ⟨h1, by omega⟩)

/-- Conversion only depends on the value modulo the width. -/
theorem cast_congr {t : Ty} {x y : Int} (h : (2 : Int) ^ t.width ∣ x - y) : cast t x = cast t y := by
  obtain ⟨s, b⟩ := t
  cases s
  · rw [cast_u, cast_u]
    exact Int.emod_eq_emod_iff_emod_sub_eq_zero.mpr (Int.emod_eq_zero_of_dvd h)
  · rw [cast_s, cast_s]
    congr 1
    apply Int.emod_eq_emod_iff_emod_sub_eq_zero.mpr (Int.emod_eq_zero_of_dvd _)
    have : x + 2 ^ b - (y + 2 ^ b) = x - y := by omega
    rw [this]; exact h

theorem cast_eq {t : Ty} {x y : Int} (h : t.In y) (hd : (2 : Int) ^ t.width ∣ x - y) : cast t x = y := by
  rw [cast_congr hd, cast_id h]

/-- Reduction modulo at least the width of the type does not matter. -/
theorem cast_mod {t : Ty} {n : Nat} (h : t.width ≤ n) (x : Int) : cast t (x % 2 ^ n) = cast t x := by
  apply cast_congr
  have h1 : (2 : Int) ^ n ∣ x % 2 ^ n - x := by
    have := Int.emod_add_mul_ediv x (2 ^ n)
    exact ⟨-(x / 2 ^ n), by rw [Int.mul_neg]; omega⟩
  exact Int.dvd_trans (p_dvd h) h1

theorem cast_cast {t : Ty} {n : Nat} (h : t.width ≤ n) (x : Int) : cast t (cast ⟨false, n⟩ x) = cast t x :=
  cast_mod h x

@[simp] theorem width_s (b : Nat) : (⟨true, b⟩ : Ty).width = b + 1 := rfl
@[simp] theorem width_u (b : Nat) : (⟨false, b⟩ : Ty).width = b := rfl

theorem promote_s (I b : Nat) : promote I ⟨true, b⟩ = ⟨true, max b I⟩ := by
  unfold promote intTy
  simp only
  split
  · rw [Nat.max_eq_right (by assumption)]
  · rw [Nat.max_eq_left (by omega)]

theorem promote_u {I b : Nat} (h : I < b) : promote I ⟨false, b⟩ = ⟨false, b⟩ := by
  unfold promote
  rw [if_neg (by simp only; omega)]

theorem arith_u {I b : Nat} (h : I < b) (x : Int) : arith I ⟨false, b⟩ x = some (cast ⟨false, b⟩ x) := by
  unfold arith
  rw [promote_u h]; rfl

theorem arith_s {I b : Nat} {x : Int} (h1 : -(2 ^ b) ≤ x) (h2 : x < 2 ^ b) : arith I ⟨true, b⟩ x = some x := by
  unfold arith
  rw [promote_s]
  have h3 := p_le (Nat.le_max_left b I)
  have : (⟨true, max b I⟩ : Ty).In x := by rw [In_s]; constructor <;> omega
  simp only [this, if_true]

/-- Arithmetic in `int` after promotion. -/
theorem arith_int {I b : Nat} {s : Bool} {x : Int} (h : b ≤ I) (h1 : -(2 ^ I) ≤ x) (h2 : x < 2 ^ I) :
    arith I ⟨s, b⟩ x = some x := by
  have hp : promote I ⟨s, b⟩ = ⟨true, I⟩ := if_pos h
  unfold arith
  rw [hp]
  have : (⟨true, I⟩ : Ty).In x := by rw [In_s]; constructor <;> omega
  simp only [this, if_true]

theorem common_uu (a b : Nat) : common ⟨false, a⟩ ⟨false, b⟩ = ⟨false, max a b⟩ := by
  unfold common
  simp only [Bool.false_eq_true, if_false, ge_iff_le]
  split
  · rw [Nat.max_eq_left (by assumption)]
  · rw [Nat.max_eq_right (by omega)]

theorem common_ss (a b : Nat) : common ⟨true, a⟩ ⟨true, b⟩ = ⟨true, max a b⟩ := by
  unfold common
  simp only [if_true]
  have ha := p_pos a
  have hb := p_pos b
  by_cases h : a > b
  · rw [if_pos (Or.inl h), Nat.max_eq_left (by omega)]
  · have hab : (2 : Int) ^ a ≤ 2 ^ b := p_le (by omega)
    rw [min_s, min_s, castS_id (by omega) (by omega)]
    by_cases h2 : a = b
    · subst h2; rw [if_pos (by omega)]; simp
    · have := p_lt (show a < b by omega)
      rw [if_neg (by omega), Nat.max_eq_right (by omega)]

theorem common_su (a b : Nat) : common ⟨true, a⟩ ⟨false, b⟩ = if a ≥ b then ⟨true, a⟩ else ⟨false, b⟩ := by
  simp [common]

theorem common_us (a b : Nat) : common ⟨false, a⟩ ⟨true, b⟩ = if b ≥ a then ⟨true, b⟩ else ⟨false, a⟩ := by
  simp [common]

theorem common_uintTy (I a b : Nat) :
    ∃ m, common (uintTy I) (common ⟨false, a⟩ ⟨false, b⟩) = ⟨false, m⟩ ∧ I < m ∧ a ≤ m ∧ b ≤ m := by
  refine ⟨max (I + 1) (max a b), ?_, ?_, ?_, ?_⟩
  · rw [common_uu]; unfold uintTy; rw [common_uu]
  · exact Nat.lt_of_lt_of_le (Nat.lt_succ_self I) (Nat.le_max_left _ _)
  · exact Nat.le_trans (Nat.le_max_left a b) (Nat.le_max_right _ _)
  · exact Nat.le_trans (Nat.le_max_right a b) (Nat.le_max_right _ _)

theorem common_uintTy1 (I b : Nat) : ∃ m, common (uintTy I) ⟨false, b⟩ = ⟨false, m⟩ ∧ I < m ∧ b ≤ m := by
  refine ⟨max (I + 1) b, ?_, ?_, ?_⟩
  · unfold uintTy; rw [common_uu]
  · exact Nat.lt_of_lt_of_le (Nat.lt_succ_self I) (Nat.le_max_left _ _)
  · exact Nat.le_max_right _ _

/-- The specified outcome of a checked operation with mathematical result `x`. -/
def checked (L : Ty) (x : Int) : Option (Option Int) := some (if L.In x then some x else none)

theorem checked_yes {L : Ty} {x : Int} (h : L.In x) : checked L x = some (some x) := by
  unfold checked; rw [if_pos h]

theorem checked_no {L : Ty} {x : Int} (h : ¬ L.In x) : checked L x = some none := by
  unfold checked; rw [if_neg h]

theorem isNegative_s (b : Nat) (x : Int) : isNegative ⟨true, b⟩ x = decide (x < 0) := by simp [isNegative]
theorem isNegative_u (b : Nat) (x : Int) : isNegative ⟨false, b⟩ x = false := by simp [isNegative]

/-! ### Addition -/

theorem tryAddUU_spec (I l r : Nat) (x y : Int) (hx : (⟨false, l⟩ : Ty).In x) (hy : (⟨false, r⟩ : Ty).In y) :
    tryAddUU I ⟨false, l⟩ ⟨false, r⟩ x y = checked ⟨false, l⟩ (x + y) := by
  obtain ⟨m, hm, h1, h2, h3⟩ := common_uintTy I l r
  have e1 := p_le h2
  have e2 := p_le h3
  rw [In_u] at hx hy
  unfold tryAddUU
  simp only [hm, max_t]
  rw [castU_id (x := x) (by omega) (by omega), castU_id (x := y) (by omega) (by omega),
    castU_id (x := 2 ^ l - 1) (by omega) (by omega), arith_u h1, castU_id (by omega) (by omega)]
  simp only [Option.bind_eq_bind, Option.bind_some]
  by_cases c : y > 2 ^ l - 1 - x
  · rw [if_pos c, checked_no (by rw [In_u]; omega)]
  · rw [if_neg c, arith_u h1, castU_id (by omega) (by omega), Option.bind_some,
      castU_id (by omega) (by omega), checked_yes (by rw [In_u]; omega)]

theorem tryAddSS_spec (I l r : Nat) (x y : Int) (hx : (⟨true, l⟩ : Ty).In x) (hy : (⟨true, r⟩ : Ty).In y) :
    tryAddSS I ⟨true, l⟩ ⟨true, r⟩ x y = checked ⟨true, l⟩ (x + y) := by
  have e1 := p_le (Nat.le_max_left l r)
  have e2 := p_le (Nat.le_max_right l r)
  rw [In_s] at hx hy
  unfold tryAddSS
  simp only [common_ss]
  generalize max l r = m at *
  rw [castS_id (x := x) (by omega) (by omega), castS_id (x := y) (by omega) (by omega)]
  unfold addSSOverflow
  simp only [isNegative_s, max_t, min_s, decide_eq_true_eq]
  rw [castS_id (x := 2 ^ l - 1) (by omega) (by omega), castS_id (x := -(2 ^ l)) (by omega) (by omega)]
  by_cases hneg : y < 0
  · rw [if_pos hneg, arith_s (by omega) (by omega)]
    simp only [Option.bind_eq_bind, Option.bind_some, decide_eq_true_eq]
    by_cases c : x < -(2 ^ l) - y
    · rw [if_pos c, checked_no (by rw [In_s]; omega)]
    · rw [if_neg c, arith_s (by omega) (by omega), Option.bind_some, castS_id (by omega) (by omega),
        checked_yes (by rw [In_s]; omega)]
  · rw [if_neg hneg, arith_s (by omega) (by omega)]
    simp only [Option.bind_eq_bind, Option.bind_some, decide_eq_true_eq, gt_iff_lt]
    by_cases c : 2 ^ l - 1 - y < x
    · rw [if_pos c, checked_no (by rw [In_s]; omega)]
    · rw [if_neg c, arith_s (by omega) (by omega), Option.bind_some, castS_id (by omega) (by omega),
        checked_yes (by rw [In_s]; omega)]

/-- Reinterpretation as two's complement of a value computed modulo a sufficient width. -/
theorem castFrom_spec {l m : Nat} (hlm : l < m) {z w : Int} (hw : -(2 ^ l) ≤ w ∧ w < 2 ^ l) (hz : z = cast ⟨false, m⟩ w) :
    castFromTwosComplA ⟨true, l⟩ ⟨false, m⟩ z = w := by
  subst hz
  unfold castFromTwosComplA
  have h1 := p_le (show l ≤ m - 1 by omega)
  have h2 : (2 : Int) ^ m = 2 * 2 ^ (m - 1) := by rw [← p_succ]; congr 1; omega
  simp only
  by_cases hneg : w < 0
  · rw [castU_neg (by omega) hneg, if_pos (by omega), castS_id (by omega) (by omega)]; omega
  · rw [castU_id (by omega) (by omega), if_neg (by omega), castS_id (by omega) (by omega)]

theorem tryAdd_spec (I : Nat) (L R : Ty) (x y : Int) (hx : L.In x) (hy : R.In y) :
    tryAdd I L R x y = checked L (x + y) := by
  obtain ⟨sl, l⟩ := L
  obtain ⟨sr, r⟩ := R
  have pl := p_pos l
  have pr := p_pos r
  unfold tryAdd
  cases sl <;> cases sr
  · -- unsigned, unsigned
    simp only [Bool.not_false, if_true]
    exact tryAddUU_spec I l r x y hx hy
  · -- unsigned, signed
    simp only [Bool.not_false, if_true, Bool.not_true, Bool.false_eq_true, if_false, isNegative_s, decide_eq_true_eq]
    rw [In_u] at hx
    rw [In_s] at hy
    by_cases hneg : y < 0
    · rw [if_pos hneg]
      have hu : unsignedOf ⟨true, r⟩ = ⟨false, r + 1⟩ := rfl
      rw [hu]
      obtain ⟨m, hm, h1, h2, h3⟩ := common_uintTy I l (r + 1)
      have e1 := p_le h2
      have e2 := p_le h3
      have e3 := p_succ r
      rw [hm, arith_s (by omega) (by omega)]
      simp only [Option.bind_eq_bind, Option.bind_some]
      rw [castU_id (x := x) (by omega) (by omega), castU_id (x := -1 - y) (by omega) (by omega)]
      by_cases c : -1 - y ≥ x
      · rw [if_pos c, checked_no (by rw [In_u]; omega)]
      · rw [if_neg c, arith_u h1, Option.bind_some]
        have hc : cast ⟨false, m⟩ (x + cast ⟨false, m⟩ y) = x + y := by
          apply cast_eq
          · rw [In_u]; omega
          · rw [castU_neg (by omega) hneg]
            exact ⟨1, by simp only [width_u]; omega⟩
        rw [hc, castU_id (by omega) (by omega), checked_yes (by rw [In_u]; omega)]
    · rw [if_neg hneg]
      have hu : unsignedOf ⟨true, r⟩ = ⟨false, r + 1⟩ := rfl
      have e3 := p_succ r
      have ht : toUnsigned ⟨true, r⟩ y = y := by
        unfold toUnsigned; rw [hu]; exact castU_id (by omega) (by omega)
      rw [hu, ht]
      exact tryAddUU_spec I l (r + 1) x y (by rw [In_u]; omega) (by rw [In_u]; omega)
  · -- signed, unsigned
    simp only [Bool.not_false, if_true, Bool.not_true, Bool.false_eq_true, if_false]
    rw [In_s] at hx
    rw [In_u] at hy
    by_cases hb : l ≥ r
    · rw [if_pos hb]
      have e1 := p_le hb
      rw [castS_id (by omega) (by omega)]
      exact tryAddSS_spec I l l x y (by rw [In_s]; omega) (by rw [In_s]; omega)
    · rw [if_neg hb]
      obtain ⟨m, hm, h1, h2⟩ := common_uintTy1 I r
      have e1 := p_le h2
      have e2 := p_lt (show l < r by omega)
      rw [hm]
      simp only [max_t]
      rw [castU_id (x := y) (by omega) (by omega), castU_id (x := 2 ^ l - 1) (by omega) (by omega), arith_u h1]
      have hc : cast ⟨false, m⟩ (2 ^ l - 1 - cast ⟨false, m⟩ x) = 2 ^ l - 1 - x := by
        apply cast_eq
        · rw [In_u]; omega
        · by_cases hneg : x < 0
          · rw [castU_neg (by omega) hneg]
            exact ⟨-1, by simp only [width_u]; omega⟩
          · rw [castU_id (by omega) (by omega)]
            exact ⟨0, by omega⟩
      simp only [Option.bind_eq_bind, Option.bind_some, hc]
      by_cases c : y > 2 ^ l - 1 - x
      · rw [if_pos c, checked_no (by rw [In_s]; omega)]
      · rw [if_neg c, arith_u h1, Option.bind_some]
        rw [castFrom_spec (l := l) (m := m) (w := x + y) (by omega) (by omega) ?_, checked_yes (by rw [In_s]; omega)]
        apply cast_congr
        by_cases hneg : x < 0
        · rw [castU_neg (by omega) hneg]
          exact ⟨1, by simp only [width_u]; omega⟩
        · rw [castU_id (by omega) (by omega)]
          exact ⟨0, by omega⟩
  · -- signed, signed
    simp only [Bool.not_true, Bool.false_eq_true, if_false]
    exact tryAddSS_spec I l r x y hx hy

/-! ### Subtraction -/

theorem trySubUU_spec (I l r : Nat) (x y : Int) (hx : (⟨false, l⟩ : Ty).In x) (hy : (⟨false, r⟩ : Ty).In y) :
    trySubUU I ⟨false, l⟩ ⟨false, r⟩ x y = checked ⟨false, l⟩ (x - y) := by
  obtain ⟨m, hm, h1, h2, h3⟩ := common_uintTy I l r
  have e1 := p_le h2
  have e2 := p_le h3
  rw [In_u] at hx hy
  unfold trySubUU
  simp only [hm]
  rw [castU_id (x := x) (by omega) (by omega), castU_id (x := y) (by omega) (by omega)]
  by_cases c : y > x
  · rw [if_pos c, checked_no (by rw [In_u]; omega)]
  · rw [if_neg c, arith_u h1, castU_id (by omega) (by omega)]
    simp only [Option.bind_eq_bind, Option.bind_some]
    rw [castU_id (by omega) (by omega), checked_yes (by rw [In_u]; omega)]

theorem trySubSS_spec (I l r : Nat) (x y : Int) (hx : (⟨true, l⟩ : Ty).In x) (hy : (⟨true, r⟩ : Ty).In y) :
    trySubSS I ⟨true, l⟩ ⟨true, r⟩ x y = checked ⟨true, l⟩ (x - y) := by
  have e1 := p_le (Nat.le_max_left l r)
  have e2 := p_le (Nat.le_max_right l r)
  rw [In_s] at hx hy
  unfold trySubSS
  simp only [common_ss]
  generalize max l r = m at *
  rw [castS_id (x := x) (by omega) (by omega), castS_id (x := y) (by omega) (by omega)]
  unfold subSSOverflow
  simp only [isNegative_s, max_t, min_s, decide_eq_true_eq]
  rw [castS_id (x := 2 ^ l - 1) (by omega) (by omega), castS_id (x := -(2 ^ l)) (by omega) (by omega)]
  by_cases hneg : y < 0
  · rw [if_pos hneg, arith_s (by omega) (by omega)]
    simp only [Option.bind_eq_bind, Option.bind_some, decide_eq_true_eq, gt_iff_lt]
    by_cases c : 2 ^ l - 1 + y < x
    · rw [if_pos c, checked_no (by rw [In_s]; omega)]
    · rw [if_neg c, arith_s (by omega) (by omega), Option.bind_some, castS_id (by omega) (by omega),
        checked_yes (by rw [In_s]; omega)]
  · rw [if_neg hneg, arith_s (by omega) (by omega)]
    simp only [Option.bind_eq_bind, Option.bind_some, decide_eq_true_eq]
    by_cases c : x < -(2 ^ l) + y
    · rw [if_pos c, checked_no (by rw [In_s]; omega)]
    · rw [if_neg c, arith_s (by omega) (by omega), Option.bind_some, castS_id (by omega) (by omega),
        checked_yes (by rw [In_s]; omega)]

theorem trySub_spec (I : Nat) (L R : Ty) (x y : Int) (hx : L.In x) (hy : R.In y) :
    trySub I L R x y = checked L (x - y) := by
  obtain ⟨sl, l⟩ := L
  obtain ⟨sr, r⟩ := R
  have pl := p_pos l
  have pr := p_pos r
  unfold trySub
  cases sl <;> cases sr
  · simp only [Bool.not_false, if_true]
    exact trySubUU_spec I l r x y hx hy
  · simp only [Bool.not_false, if_true, Bool.not_true, Bool.false_eq_true, if_false, isNegative_s, decide_eq_true_eq]
    rw [In_u] at hx
    rw [In_s] at hy
    by_cases hneg : y < 0
    · rw [if_pos hneg]
      have hu : unsignedOf ⟨true, r⟩ = ⟨false, r + 1⟩ := rfl
      rw [hu]
      obtain ⟨m, hm, h1, h2, h3⟩ := common_uintTy I l (r + 1)
      have e1 := p_le h2
      have e2 := p_le h3
      have e3 := p_succ r
      rw [hm, arith_s (by omega) (by omega)]
      simp only [Option.bind_eq_bind, Option.bind_some, max_t]
      rw [castU_id (x := x) (by omega) (by omega), castU_id (x := -1 - y) (by omega) (by omega),
        castU_id (x := 2 ^ l - 1) (by omega) (by omega), arith_u h1, castU_id (by omega) (by omega), Option.bind_some]
      by_cases c : -1 - y ≥ 2 ^ l - 1 - x
      · rw [if_pos c, checked_no (by rw [In_u]; omega)]
      · rw [if_neg c, arith_u h1, Option.bind_some]
        have hc : cast ⟨false, m⟩ (x - cast ⟨false, m⟩ y) = x - y := by
          apply cast_eq
          · rw [In_u]; omega
          · rw [castU_neg (by omega) hneg]
            exact ⟨-1, by simp only [width_u]; omega⟩
        rw [hc, castU_id (by omega) (by omega), checked_yes (by rw [In_u]; omega)]
    · rw [if_neg hneg]
      have hu : unsignedOf ⟨true, r⟩ = ⟨false, r + 1⟩ := rfl
      have e3 := p_succ r
      have ht : toUnsigned ⟨true, r⟩ y = y := by
        unfold toUnsigned; rw [hu]; exact castU_id (by omega) (by omega)
      rw [hu, ht]
      exact trySubUU_spec I l (r + 1) x y (by rw [In_u]; omega) (by rw [In_u]; omega)
  · simp only [Bool.not_false, if_true, Bool.not_true, Bool.false_eq_true, if_false]
    rw [In_s] at hx
    rw [In_u] at hy
    by_cases hb : l ≥ r
    · rw [if_pos hb]
      have e1 := p_le hb
      rw [castS_id (by omega) (by omega)]
      exact trySubSS_spec I l l x y (by rw [In_s]; omega) (by rw [In_s]; omega)
    · rw [if_neg hb]
      obtain ⟨m, hm, h1, h2⟩ := common_uintTy1 I r
      have e1 := p_le h2
      have e2 := p_lt (show l < r by omega)
      rw [hm]
      simp only [min_s]
      rw [castU_id (x := y) (by omega) (by omega), castU_neg (x := -(2 ^ l)) (by omega) (by omega), arith_u h1]
      have hcx : ∃ k : Int, cast ⟨false, m⟩ x = x + 2 ^ m * k := by
        by_cases hneg : x < 0
        · exact ⟨1, by rw [castU_neg (by omega) hneg]; omega⟩
        · exact ⟨0, by rw [castU_id (by omega) (by omega)]; omega⟩
      obtain ⟨k, hk⟩ := hcx
      have hc : cast ⟨false, m⟩ (cast ⟨false, m⟩ x - (-(2 ^ l) + 2 ^ m)) = x + 2 ^ l := by
        apply cast_eq
        · rw [In_u]; omega
        · rw [hk]
          exact ⟨k - 1, by simp only [width_u]; ring⟩
      simp only [Option.bind_eq_bind, Option.bind_some, hc]
      by_cases c : y > x + 2 ^ l
      · rw [if_pos c, checked_no (by rw [In_s]; omega)]
      · rw [if_neg c, arith_u h1, Option.bind_some]
        rw [castFrom_spec (l := l) (m := m) (w := x - y) (by omega) (by omega) ?_, checked_yes (by rw [In_s]; omega)]
        apply cast_congr
        rw [hk]
        exact ⟨k, by simp only [width_u]; ring⟩
  · simp only [Bool.not_true, Bool.false_eq_true, if_false]
    exact trySubSS_spec I l r x y hx hy

end Verif.Integer
