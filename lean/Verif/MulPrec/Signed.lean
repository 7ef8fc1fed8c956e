import Verif.MulPrec.LongDiv
/-!
Signed values, bit operations and shifts.
-/
namespace Verif.MulPrec
open Verif.Integer Verif.MulPrec.Spec

/-! ### Values -/

theorem W_pos {w N : Nat} (hw : 2 ≤ w) (hN : 0 < N) : 0 < w * N := Nat.mul_pos (by omega) hN

theorem half {W : Nat} (hW : 0 < W) : (2 : Int) ^ W = 2 * 2 ^ (W - 1) := by
  rw [← pow_succ']; congr 1; omega

theorem half_nat {W : Nat} (hW : 0 < W) : 2 ^ W = 2 * 2 ^ (W - 1) := by
  rw [← pow_succ']; congr 1; omega

theorem uval_D {w N : Nat} {a : List Nat} (h : D (2 ^ w) N a) : uval w a = V (2 ^ w) (g a) N := by
  rw [uval_eq, h.1]

theorem uval_lt {w N : Nat} {a : List Nat} (h : D (2 ^ w) N a) : uval w a < 2 ^ (w * N) := by
  rw [uval_D h, pow_mul]; exact D_lt h

theorem value_dvd (w N : Nat) (S : Bool) (a : List Nat) : (2 : Int) ^ (w * N) ∣ value w N S a - uval w a := by
  unfold value
  split
  · exact ⟨-1, by ring⟩
  · exact ⟨0, by ring⟩

theorem value_fits {w N : Nat} {S : Bool} {a : List Nat} (hW : 0 < w * N) (h : D (2 ^ w) N a) : Fits w N S (value w N S a) := by
  have h1 := uval_lt h
  have e1 := cast_pow (w * N)
  have e2 := cast_pow (w * N - 1)
  have e3 := half hW
  have e4 := half_nat hW
  unfold Fits value
  cases S
  · simp only [Bool.false_eq_true, if_false, false_and]
    omega
  · simp only [if_true, true_and]
    split <;> omega

theorem wrap_dvd {w N : Nat} {S : Bool} {x : Int} : (2 : Int) ^ (w * N) ∣ wrap w N S x - x := by
  unfold wrap
  cases S
  · simp only [Bool.false_eq_true, if_false]
    rw [Int.emod_def]; exact ⟨-(x / 2 ^ (w * N)), by ring⟩
  · simp only [if_true]
    rw [Int.emod_def]; exact ⟨-((x + 2 ^ (w * N - 1)) / 2 ^ (w * N)), by ring⟩

theorem wrap_fits {w N : Nat} {S : Bool} {x : Int} (hW : 0 < w * N) : Fits w N S (wrap w N S x) := by
  have e3 := half hW
  unfold Fits wrap
  cases S
  · simp only [Bool.false_eq_true, if_false]
    exact ⟨Int.emod_nonneg _ (ne_of_gt (p_pos _)), Int.emod_lt_of_pos _ (p_pos _)⟩
  · simp only [if_true]
    have h1 := Int.emod_nonneg (x + 2 ^ (w * N - 1)) (ne_of_gt (p_pos (w * N)))
    have h2 := Int.emod_lt_of_pos (x + 2 ^ (w * N - 1)) (p_pos (w * N))
    omega

/-- Values of the type that are congruent are equal. -/
theorem fits_unique {w N : Nat} {S : Bool} {x y : Int} (hW : 0 < w * N) (hx : Fits w N S x) (hy : Fits w N S y)
    (h : (2 : Int) ^ (w * N) ∣ x - y) : x = y := by
  have e3 := half hW
  have hp := p_pos (w * N)
  have h0 : x - y = 0 := by
    refine Int.eq_zero_of_abs_lt_dvd h ?_
    rw [abs_lt]
    unfold Fits at hx hy
    cases S <;> simp only [Bool.false_eq_true, if_false, if_true] at hx hy <;> omega
  omega

theorem value_eq_wrap {w N : Nat} {S : Bool} {r : List Nat} {x : Int} (hW : 0 < w * N) (hr : D (2 ^ w) N r)
    (h : (2 : Int) ^ (w * N) ∣ (uval w r : Int) - x) : value w N S r = wrap w N S x := by
  refine fits_unique hW (value_fits hW hr) (wrap_fits hW) ?_
  have h1 := value_dvd w N S r
  have h2 := wrap_dvd (w := w) (N := N) (S := S) (x := x)
  have : value w N S r - wrap w N S x = (value w N S r - uval w r) + ((uval w r : Int) - x) - (wrap w N S x - x) := by ring
  rw [this]
  exact Int.dvd_sub (Int.dvd_add h1 h) h2

theorem wrap_of_fits {w N : Nat} {S : Bool} {x : Int} (hW : 0 < w * N) (h : Fits w N S x) : wrap w N S x = x :=
  fits_unique hW (wrap_fits hW) h wrap_dvd

theorem wrap_congr {w N : Nat} {S : Bool} {x y : Int} (hW : 0 < w * N) (h : (2 : Int) ^ (w * N) ∣ x - y) :
    wrap w N S x = wrap w N S y := by
  refine fits_unique hW (wrap_fits hW) (wrap_fits hW) ?_
  have h1 := wrap_dvd (w := w) (N := N) (S := S) (x := x)
  have h2 := wrap_dvd (w := w) (N := N) (S := S) (x := y)
  have : wrap w N S x - wrap w N S y = (wrap w N S x - x) + (x - y) - (wrap w N S y - y) := by ring
  rw [this]
  exact Int.dvd_sub (Int.dvd_add h1 h) h2

theorem isNonneg_spec {I w N : Nat} {S : Bool} {a : List Nat} (hp : I ≠ w) (hw : 2 ≤ w) (hN : 0 < N) (ha : D (2 ^ w) N a) :
    isNonneg I w N S a = some (decide (0 ≤ value w N S a)) := by
  have hU := uval_lt ha
  have e1 := cast_pow (w * N)
  have hW := W_pos hw hN
  cases S
  · simp [isNonneg, value]
  · have hv : 0 ≤ value w N true a ↔ uval w a < 2 ^ (w * N - 1) := by
      unfold value
      simp only [true_and]
      split <;> omega
    have htop := ha.2 (N - 1) (by omega)
    have hs : uval w a = V (2 ^ w) (g a) (N - 1) + g a (N - 1) * (2 ^ w) ^ (N - 1) := by
      rw [uval_D ha]
      conv_lhs => rw [show N = N - 1 + 1 by omega]
      rfl
    have hlow : V (2 ^ w) (g a) (N - 1) < (2 ^ w) ^ (N - 1) := V_lt fun i hi => ha.2 i (by omega)
    have hh : 2 ^ (w * N - 1) = 2 ^ (w - 1) * (2 ^ w) ^ (N - 1) := by
      rw [← pow_mul, ← pow_add]; congr 1
      obtain ⟨k, rfl⟩ : ∃ k, N = k + 1 := ⟨N - 1, by omega⟩
      rw [Nat.add_sub_cancel, Nat.mul_succ]; omega
    simp only [isNonneg, if_true, rd_eq (show N - 1 < a.length by rw [ha.1]; omega), Option.bind_eq_bind, Option.bind_some,
      shr_nat hp (show w - 1 < w by omega), Option.some.injEq]
    rw [decide_eq_decide.2 hv]
    by_cases h : g a (N - 1) < 2 ^ (w - 1)
    · rw [Nat.div_eq_of_lt h]
      have : (g a (N - 1) + 1) * (2 ^ w) ^ (N - 1) ≤ 2 ^ (w - 1) * (2 ^ w) ^ (N - 1) := Nat.mul_le_mul_right _ h
      rw [Nat.add_mul] at this
      rw [decide_eq_true (by omega)]; rfl
    · have h1 : g a (N - 1) / 2 ^ (w - 1) ≠ 0 := by
        have := (Nat.le_div_iff_mul_le (two_pos (w - 1)) (x := 1) (y := g a (N - 1))).2 (by omega)
        omega
      have : 2 ^ (w - 1) * (2 ^ w) ^ (N - 1) ≤ g a (N - 1) * (2 ^ w) ^ (N - 1) := Nat.mul_le_mul_right _ (by omega)
      rw [decide_eq_false (by omega)]
      rw [beq_eq_false_iff_ne]
      intro h'
      exact h1 (Int.ofNat.inj h')

theorem neg_value {I w N : Nat} {S : Bool} {a : List Nat} (hp : I ≠ w) (hw : 2 ≤ w) (hN : 0 < N) (ha : D (2 ^ w) N a) :
    ∃ r, neg I w N a = some r ∧ D (2 ^ w) N r ∧ (2 : Int) ^ (w * N) ∣ (uval w r : Int) + uval w a ∧
      value w N S r = wrap w N S (-value w N S a) := by
  obtain ⟨r, h1, h2, c, -, h4⟩ := neg_spec (I := I) hp (by omega) ha
  have hW := W_pos hw hN
  rw [← pow_mul, ← uval_D ha, ← uval_D h2] at h4
  have hd : (2 : Int) ^ (w * N) ∣ (uval w r : Int) + uval w a := by
    refine ⟨c, ?_⟩
    have : ((c * 2 ^ (w * N) : Nat) : Int) = (uval w a + uval w r : Nat) := by rw [h4]
    push_cast at this
    linear_combination -this
  refine ⟨r, h1, h2, hd, value_eq_wrap hW h2 ?_⟩
  have : (uval w r : Int) - -value w N S a = ((uval w r : Int) + uval w a) + (value w N S a - uval w a) := by ring
  rw [this]
  exact Int.dvd_add hd (value_dvd _ _ _ _)

/-- The magnitude of a negative value. -/
theorem neg_abs {I w N : Nat} {a : List Nat} (hp : I ≠ w) (hw : 2 ≤ w) (hN : 0 < N) (ha : D (2 ^ w) N a)
    (hneg : ¬ 0 ≤ value w N S a) :
    ∃ r, neg I w N a = some r ∧ D (2 ^ w) N r ∧ uval w r = (value w N S a).natAbs := by
  obtain ⟨r, h1, h2, h3, -⟩ := neg_value (I := I) (S := true) hp hw hN ha
  have hU := uval_lt ha
  have hR := uval_lt h2
  have e1 := cast_pow (w * N)
  have e2 := cast_pow (w * N - 1)
  have hpos := two_pos (w * N - 1)
  refine ⟨r, h1, h2, ?_⟩
  unfold value at hneg ⊢
  split at hneg
  · rename_i hs
    rw [if_pos hs]
    obtain ⟨k, hk⟩ := h3
    have hk1 : k = 1 := by
      have hlt : (2 : Int) ^ (w * N) * k < 2 ^ (w * N) * 2 := by omega
      have hgt : (2 : Int) ^ (w * N) * 0 < 2 ^ (w * N) * k := by omega
      have := lt_of_mul_lt_mul_left hlt (p_pos _).le
      have := lt_of_mul_lt_mul_left hgt (p_pos _).le
      omega
    subst hk1
    omega
  · omega

/-! ### Division -/

theorem div_nat {I w N : Nat} (hp : I ≠ w) (hI : 1 ≤ I) (hw : 2 ≤ w) (hN : 0 < N) {a b : List Nat}
    (ha : D (2 ^ w) N a) (hb : D (2 ^ w) N b) (hb0 : uval w b ≠ 0) :
    ∃ q r, unsignedDiv I w N a b = some (q, r) ∧ D (2 ^ w) N q ∧ D (2 ^ w) N r ∧
      uval w q = uval w a / uval w b ∧ uval w r = uval w a % uval w b := by
  rw [uval_D hb] at hb0
  obtain ⟨q, r, h1, h2, h3, h4, h5⟩ := unsignedDiv_spec hp hI hw hN ha hb hb0
  exact ⟨q, r, h1, h2, h3, by rw [uval_D h2, uval_D ha, uval_D hb, h4], by rw [uval_D h3, uval_D ha, uval_D hb, h5]⟩

theorem value_nonneg {w N : Nat} {S : Bool} {a : List Nat} (ha : D (2 ^ w) N a) (h : 0 ≤ value w N S a) :
    uval w a = (value w N S a).natAbs := by
  have hU := uval_lt ha
  have e1 := cast_pow (w * N)
  unfold value at h ⊢
  split at h
  · omega
  · rename_i hs
    rw [if_neg hs]; rfl

theorem tdiv_cases (x y : Int) : Int.tdiv x y =
    if 0 ≤ x then (if 0 ≤ y then ((x.natAbs / y.natAbs : Nat) : Int) else -((x.natAbs / y.natAbs : Nat) : Int))
    else (if 0 ≤ y then -((x.natAbs / y.natAbs : Nat) : Int) else ((x.natAbs / y.natAbs : Nat) : Int)) := by
  have hx : ∀ x : Int, ¬ 0 ≤ x → x = -(x.natAbs : Int) := fun x h => by omega
  have hx' : ∀ x : Int, 0 ≤ x → x = (x.natAbs : Int) := fun x h => by omega
  split <;> split <;> rename_i h1 h2
  · rw [Int.natCast_div, ← hx' x h1, ← hx' y h2, Int.tdiv_eq_ediv_of_nonneg h1]
  · conv_lhs => rw [hx' x h1, hx y h2]
    rw [Int.tdiv_neg, Int.natCast_div, Int.tdiv_eq_ediv_of_nonneg (by omega)]
  · conv_lhs => rw [hx x h1, hx' y h2]
    rw [Int.neg_tdiv, Int.natCast_div, Int.tdiv_eq_ediv_of_nonneg (by omega)]
  · conv_lhs => rw [hx x h1, hx y h2]
    rw [Int.neg_tdiv, Int.tdiv_neg, neg_neg, Int.natCast_div, Int.tdiv_eq_ediv_of_nonneg (by omega)]

theorem tmod_cases (x y : Int) : Int.tmod x y =
    if 0 ≤ x then ((x.natAbs % y.natAbs : Nat) : Int) else -((x.natAbs % y.natAbs : Nat) : Int) := by
  have key : ∀ (m : Nat), Int.tmod (m : Int) y = ((m % y.natAbs : Nat) : Int) := by
    intro m
    rw [Int.tmod_eq_emod_of_nonneg (by omega), Int.natCast_mod, Int.natCast_natAbs, Int.emod_abs]
  split <;> rename_i h
  · conv_lhs => rw [show x = (x.natAbs : Int) by omega]
    rw [key]
  · conv_lhs => rw [show x = -(x.natAbs : Int) by omega]
    rw [Int.neg_tmod, key]

theorem divmod_spec {I w N : Nat} {S : Bool} (hp : I ≠ w) (hI : 1 ≤ I) (hw : 2 ≤ w) (hN : 0 < N) {a b : List Nat}
    (ha : D (2 ^ w) N a) (hb : D (2 ^ w) N b) (hb0 : value w N S b ≠ 0) :
    ∃ q r, divmod I w N S a b = some (q, r) ∧ D (2 ^ w) N q ∧ D (2 ^ w) N r ∧
      value w N S q = wrap w N S (Int.tdiv (value w N S a) (value w N S b)) ∧
      value w N S r = Int.tmod (value w N S a) (value w N S b) := by
  have hW := W_pos hw hN
  have hfa := value_fits (S := S) hW ha
  have hfb := value_fits (S := S) hW hb
  -- operands of the unsigned division
  obtain ⟨a', ha'1, ha'2, ha'3⟩ : ∃ a', (if 0 ≤ value w N S a then some a else neg I w N a) = some a' ∧ D (2 ^ w) N a' ∧
      uval w a' = (value w N S a).natAbs := by
    by_cases h : 0 ≤ value w N S a
    · exact ⟨a, by rw [if_pos h], ha, value_nonneg ha h⟩
    · rw [if_neg h]; exact neg_abs hp hw hN ha h
  obtain ⟨b', hb'1, hb'2, hb'3⟩ : ∃ b', (if 0 ≤ value w N S b then some b else neg I w N b) = some b' ∧ D (2 ^ w) N b' ∧
      uval w b' = (value w N S b).natAbs := by
    by_cases h : 0 ≤ value w N S b
    · exact ⟨b, by rw [if_pos h], hb, value_nonneg hb h⟩
    · rw [if_neg h]; exact neg_abs hp hw hN hb h
  obtain ⟨q, r, d1, d2, d3, d4, d5⟩ := div_nat (I := I) hp hI hw hN ha'2 hb'2 (by omega)
  rw [ha'3, hb'3] at d4 d5
  obtain ⟨q', q1, q2, q3, -⟩ := neg_value (I := I) (S := S) hp hw hN d2
  obtain ⟨r', r1, r2, r3, -⟩ := neg_value (I := I) (S := S) hp hw hN d3
  have hq : value w N S q = wrap w N S (((value w N S a).natAbs / (value w N S b).natAbs : Nat) : Int) :=
    value_eq_wrap hW d2 (by rw [d4, sub_self]; exact dvd_zero _)
  have hq' : value w N S q' = wrap w N S (-(((value w N S a).natAbs / (value w N S b).natAbs : Nat) : Int)) :=
    value_eq_wrap hW q2 (by rw [← d4, sub_neg_eq_add]; exact q3)
  have hr : value w N S r = wrap w N S (((value w N S a).natAbs % (value w N S b).natAbs : Nat) : Int) :=
    value_eq_wrap hW d3 (by rw [d5, sub_self]; exact dvd_zero _)
  have hr' : value w N S r' = wrap w N S (-(((value w N S a).natAbs % (value w N S b).natAbs : Nat) : Int)) :=
    value_eq_wrap hW r2 (by rw [← d5, sub_neg_eq_add]; exact r3)
  have htd := tdiv_cases (value w N S a) (value w N S b)
  have htm := tmod_cases (value w N S a) (value w N S b)
  have hmlt : (value w N S a).natAbs % (value w N S b).natAbs < (value w N S b).natAbs := Nat.mod_lt _ (by omega)
  have hmle : (value w N S a).natAbs % (value w N S b).natAbs ≤ (value w N S a).natAbs := Nat.mod_le _ _
  have hfit : Fits w N S (Int.tmod (value w N S a) (value w N S b)) := by
    have e3 := half hW
    rw [htm]
    unfold Fits at hfa hfb ⊢
    cases S <;> simp only [Bool.false_eq_true, if_false, if_true] at hfa hfb ⊢ <;> split <;> omega
  simp only [divmod, isNonneg_spec hp hw hN ha, isNonneg_spec hp hw hN hb, Option.bind_eq_bind, Option.bind_some,
    decide_eq_true_eq]
  by_cases h1 : 0 ≤ value w N S a <;> by_cases h2 : 0 ≤ value w N S b <;>
    simp only [h1, h2, if_true, if_false, Option.some.injEq] at htd htm ha'1 hb'1 ⊢
  · subst ha'1; subst hb'1
    rw [htm] at hfit
    exact ⟨q, r, d1, d2, d3, by rw [htd, hq], by rw [htm, hr, wrap_of_fits hW hfit]⟩
  · subst ha'1
    rw [htm] at hfit
    rw [hb'1]
    simp only [Option.bind_some, d1, q1]
    exact ⟨q', r, rfl, q2, d3, by rw [htd, hq'], by rw [htm, hr, wrap_of_fits hW hfit]⟩
  · subst hb'1
    rw [htm] at hfit
    rw [ha'1]
    simp only [Option.bind_some, d1, q1, r1]
    exact ⟨q', r', rfl, q2, r2, by rw [htd, hq'], by rw [htm, hr', wrap_of_fits hW hfit]⟩
  · rw [htm] at hfit
    rw [ha'1, hb'1]
    simp only [Option.bind_some, d1, r1]
    exact ⟨q, r', rfl, d2, r2, by rw [htd, hq], by rw [htm, hr', wrap_of_fits hW hfit]⟩

/-! ### Bits -/

theorem bitsOf_mod (t : Ty) (x : Nat) : bitsOf t (x : Int) = x % 2 ^ t.width := by
  rw [bitsOf, ← cast_pow, ← Int.natCast_mod, Int.toNat_natCast]

theorem bits_spec {w N : Nat} {a b r : List Nat} (ha : D (2 ^ w) N a) (hb : D (2 ^ w) N b) (hr : D (2 ^ w) N r)
    {f : Nat → Nat → Nat} {p : Bool → Bool → Bool} (hf : ∀ x y i, (f x y).testBit i = p (x.testBit i) (y.testBit i))
    (hlt : ∀ n x y, x < 2 ^ n → y < 2 ^ n → f x y < 2 ^ n)
    (h : ∀ i < N, g r i = f (g a i) (g b i)) : uval w r = f (uval w a) (uval w b) := by
  have hl := hlt _ _ _ (uval_lt ha) (uval_lt hb)
  rw [uval_D hr, V_of_testBit (X := f (uval w a) (uval w b)) hr, Nat.mod_eq_of_lt hl]
  intro k hk j hj
  rw [h k hk, hf, hf, testBit_V ha hk hj, testBit_V hb hk hj, uval_D ha, uval_D hb]

end Verif.MulPrec
