import Verif.MulPrec.Shift
/-!
Properties of multiple precision integers.

`I` is the number of value bits of `int`, `w` the width of the part type, and `N` the number of parts. It is assumed that the
part type does not have exactly the same number of bits as `int` has value bits; no fundamental unsigned integer type of a
common platform does.
-/
namespace Verif.MulPrec
open Verif.Integer Verif.MulPrec.Spec

/-! ### C27 -/

section C27
variable {I w N : Nat} {S : Bool} (hp : I ≠ w) (hI : 1 ≤ I) (hw : 2 ≤ w) (hN : 0 < N) {a b : List Nat}
include hw hN

/-- What `wrap` means: the only value of the type that is congruent to the argument. -/
theorem C27_wrap (x y : Int) : y = wrap w N S x ↔ Fits w N S y ∧ (2 : Int) ^ (w * N) ∣ y - x := by
  have hW := W_pos hw hN
  constructor
  · rintro rfl
    exact ⟨wrap_fits hW, wrap_dvd⟩
  · rintro ⟨h1, h2⟩
    exact fits_unique hW h1 (wrap_fits hW) (by
      have : y - wrap w N S x = (y - x) - (wrap w N S x - x) := by ring
      rw [this]; exact Int.dvd_sub h2 wrap_dvd)

/-- Each object has a value of the type, and different objects have different values. -/
theorem C27_value (ha : Valid w N a) (hb : Valid w N b) :
    Fits w N S (value w N S a) ∧ (value w N S a = value w N S b → a = b) := by
  have hW := W_pos hw hN
  rw [D_iff] at ha hb
  refine ⟨value_fits hW ha, fun h => ?_⟩
  have h1 := value_dvd w N S a
  have h2 := value_dvd w N S b
  rw [h] at h1
  have h3 : (2 : Int) ^ (w * N) ∣ (uval w a : Int) - uval w b := by
    have : (uval w a : Int) - uval w b = (value w N S b - uval w b) - (value w N S b - uval w a) := by ring
    rw [this]; exact Int.dvd_sub h2 h1
  have ha' := uval_lt ha
  have hb' := uval_lt hb
  have e1 := cast_pow (w * N)
  have h4 : (uval w a : Int) = uval w b := by
    have : (uval w a : Int) - uval w b = 0 := by
      refine Int.eq_zero_of_abs_lt_dvd h3 ?_
      rw [abs_lt]; omega
    omega
  apply D_ext ha hb
  rw [← uval_D ha, ← uval_D hb]; exact_mod_cast h4

include hp

theorem C27_add (ha : Valid w N a) (hb : Valid w N b) :
    ∃ r, add I w N a b = some r ∧ Valid w N r ∧ value w N S r = wrap w N S (value w N S a + value w N S b) := by
  have hW := W_pos hw hN
  rw [D_iff] at ha hb
  obtain ⟨r, h1, h2, c, -, h4⟩ := add_spec (I := I) hp (by omega) ha hb
  rw [← uval_D ha, ← uval_D hb, ← uval_D h2, ← pow_mul] at h4
  refine ⟨r, h1, D_iff.2 h2, value_eq_wrap hW h2 ?_⟩
  have h5 : (uval w r : Int) + c * 2 ^ (w * N) = uval w a + uval w b := by exact_mod_cast h4
  have : (uval w r : Int) - (value w N S a + value w N S b) =
      -((value w N S a - uval w a) + (value w N S b - uval w b)) + 2 ^ (w * N) * (-c) := by linear_combination h5
  rw [this]
  exact Int.dvd_add ((Int.dvd_neg).2 (Int.dvd_add (value_dvd _ _ _ _) (value_dvd _ _ _ _))) (Int.dvd_mul_right _ _)

theorem C27_sub (ha : Valid w N a) (hb : Valid w N b) :
    ∃ r, sub I w N a b = some r ∧ Valid w N r ∧ value w N S r = wrap w N S (value w N S a - value w N S b) := by
  have hW := W_pos hw hN
  rw [D_iff] at ha hb
  obtain ⟨r, h1, h2, c, -, h4⟩ := sub_spec (I := I) hp (by omega) ha hb
  rw [← uval_D ha, ← uval_D hb, ← uval_D h2, ← pow_mul] at h4
  refine ⟨r, h1, D_iff.2 h2, value_eq_wrap hW h2 ?_⟩
  have h5 : (uval w a : Int) + c * 2 ^ (w * N) = uval w b + uval w r := by exact_mod_cast h4
  have : (uval w r : Int) - (value w N S a - value w N S b) =
      -((value w N S a - uval w a) - (value w N S b - uval w b)) + 2 ^ (w * N) * c := by linear_combination -h5
  rw [this]
  exact Int.dvd_add ((Int.dvd_neg).2 (Int.dvd_sub (value_dvd _ _ _ _) (value_dvd _ _ _ _))) (Int.dvd_mul_right _ _)

theorem C27_neg (ha : Valid w N a) :
    ∃ r, neg I w N a = some r ∧ Valid w N r ∧ value w N S r = wrap w N S (-value w N S a) := by
  obtain ⟨r, h1, h2, -, h4⟩ := neg_value (I := I) hp hw hN (D_iff.1 ha)
  exact ⟨r, h1, D_iff.2 h2, h4⟩

include hI in
theorem C27_mul (ha : Valid w N a) (hb : Valid w N b) :
    ∃ r, mul I w N a b = some r ∧ Valid w N r ∧ value w N S r = wrap w N S (value w N S a * value w N S b) := by
  have hW := W_pos hw hN
  rw [D_iff] at ha hb
  obtain ⟨r, h1, h2, h4⟩ := mul_spec hp hI hw hN ha hb
  rw [← uval_D ha, ← uval_D hb, ← uval_D h2] at h4
  refine ⟨r, h1, D_iff.2 h2, value_eq_wrap hW h2 ?_⟩
  have h5 : (uval w r : Int) = uval w a * uval w b - 2 ^ (w * N) * ((uval w a * uval w b) / 2 ^ (w * N)) := by
    rw [h4]
    push_cast
    rw [Int.emod_def]
  obtain ⟨s, hs⟩ := value_dvd w N S a
  obtain ⟨t, ht⟩ := value_dvd w N S b
  have e1 : value w N S a = uval w a + 2 ^ (w * N) * s := by linear_combination hs
  have e2 : value w N S b = uval w b + 2 ^ (w * N) * t := by linear_combination ht
  rw [h5, e1, e2]
  exact ⟨-((uval w a * uval w b) / 2 ^ (w * N)) - s * uval w b - t * uval w a - 2 ^ (w * N) * s * t, by ring⟩

/-- No overflow: the operations give the exact results. -/
theorem C27_exact (ha : Valid w N a) (hb : Valid w N b) :
    (Fits w N S (value w N S a + value w N S b) →
      ∃ r, add I w N a b = some r ∧ value w N S r = value w N S a + value w N S b) ∧
    (Fits w N S (value w N S a - value w N S b) →
      ∃ r, sub I w N a b = some r ∧ value w N S r = value w N S a - value w N S b) := by
  have hW := W_pos hw hN
  refine ⟨fun h => ?_, fun h => ?_⟩
  · obtain ⟨r, h1, -, h3⟩ := C27_add hp hw hN (S := S) ha hb
    exact ⟨r, h1, by rw [h3, wrap_of_fits hW h]⟩
  · obtain ⟨r, h1, -, h3⟩ := C27_sub hp hw hN (S := S) ha hb
    exact ⟨r, h1, by rw [h3, wrap_of_fits hW h]⟩

omit hw hN hp in
theorem C27_eq (hw : 2 ≤ w) (hN : 0 < N) (ha : Valid w N a) (hb : Valid w N b) :
    eq N a b = some (decide (value w N S a = value w N S b)) := by
  have hv := (C27_value hw hN (S := S) ha hb).2
  rw [D_iff] at ha hb
  rw [eq, eqLoop_spec ha hb N (Nat.le_refl _)]
  congr 1
  rw [decide_eq_decide]
  constructor
  · intro h
    rw [D_ext ha hb h]
  · intro h
    rw [hv h]

theorem C27_less (ha : Valid w N a) (hb : Valid w N b) :
    less I w N S a b = some (decide (value w N S a < value w N S b)) := by
  have hW := W_pos hw hN
  rw [D_iff] at ha hb
  have hfa := value_fits (S := S) hW ha
  have hfb := value_fits (S := S) hW hb
  have hU := uval_lt ha
  have hU' := uval_lt hb
  have e1 := cast_pow (w * N)
  simp only [less, unsignedLess, lessLoop_spec ha hb N (Nat.le_refl _), isNonneg_spec hp hw hN ha, isNonneg_spec hp hw hN hb,
    Option.bind_eq_bind, Option.bind_some, ← uval_D ha, ← uval_D hb]
  have ea : value w N S a = uval w a ∧ 0 ≤ value w N S a ∨ value w N S a = uval w a - 2 ^ (w * N) ∧ ¬ 0 ≤ value w N S a ∧
      S = true ∧ 2 ^ (w * N - 1) ≤ uval w a := by
    unfold value
    split
    · rename_i h; exact .inr ⟨rfl, by omega, h⟩
    · exact .inl ⟨rfl, by omega⟩
  have eb : value w N S b = uval w b ∧ 0 ≤ value w N S b ∨ value w N S b = uval w b - 2 ^ (w * N) ∧ ¬ 0 ≤ value w N S b ∧
      S = true ∧ 2 ^ (w * N - 1) ≤ uval w b := by
    unfold value
    split
    · rename_i h; exact .inr ⟨rfl, by omega, h⟩
    · exact .inl ⟨rfl, by omega⟩
  have e3 := half hW
  have e2 := cast_pow (w * N - 1)
  congr 1
  rcases ea with ⟨a1, a2⟩ | ⟨a1, a2, a3, a4⟩ <;> rcases eb with ⟨b1, b2⟩ | ⟨b1, b2, b3, b4⟩
  · rw [decide_eq_true a2, decide_eq_true b2, beq_self_eq_true, beq_true, decide_eq_decide]
    omega
  · rw [decide_eq_true a2, decide_eq_false b2]
    subst b3
    simp only [Fits, if_true] at hfa
    rw [decide_eq_true (show uval w a < uval w b by omega), decide_eq_false (by omega)]; rfl
  · rw [decide_eq_false a2, decide_eq_true b2]
    subst a3
    simp only [Fits, if_true] at hfb
    rw [decide_eq_false (show ¬ uval w a < uval w b by omega), decide_eq_true (by omega)]; rfl
  · rw [decide_eq_false a2, decide_eq_false b2, beq_self_eq_true, beq_true, decide_eq_decide]
    omega

theorem C27_compare (ha : Valid w N a) (hb : Valid w N b) :
    lessEqual I w N S a b = some (decide (value w N S a ≤ value w N S b)) ∧
    greater I w N S a b = some (decide (value w N S a > value w N S b)) ∧
    greaterEqual I w N S a b = some (decide (value w N S a ≥ value w N S b)) := by
  refine ⟨?_, ?_, ?_⟩
  · simp only [lessEqual, C27_less hp hw hN hb ha, Option.bind_eq_bind, Option.bind_some, ← decide_not, Int.not_lt]
  · simp only [greater, C27_less hp hw hN hb ha, gt_iff_lt]
  · simp only [greaterEqual, C27_less hp hw hN ha hb, Option.bind_eq_bind, Option.bind_some, ← decide_not, Int.not_lt, ge_iff_le]

/-! ### C28 -/

include hI

theorem C28_divmod (ha : Valid w N a) (hb : Valid w N b) (hb0 : value w N S b ≠ 0) :
    ∃ q r, divmod I w N S a b = some (q, r) ∧ Valid w N q ∧ Valid w N r ∧
      value w N S q = wrap w N S (Int.tdiv (value w N S a) (value w N S b)) ∧
      value w N S r = Int.tmod (value w N S a) (value w N S b) := by
  obtain ⟨q, r, h1, h2, h3, h4, h5⟩ := divmod_spec hp hI hw hN (D_iff.1 ha) (D_iff.1 hb) hb0
  exact ⟨q, r, h1, D_iff.2 h2, D_iff.2 h3, h4, h5⟩

/-- The division identity. The only case in which the quotient is not a value of the type is the least value divided by -1. -/
theorem C28_identity (ha : Valid w N a) (hb : Valid w N b) (hb0 : value w N S b ≠ 0) :
    ∃ q r, divmod I w N S a b = some (q, r) ∧
      (¬ (S = true ∧ value w N S a = -(2 ^ (w * N - 1)) ∧ value w N S b = -1) →
        value w N S a = value w N S q * value w N S b + value w N S r) ∧
      |value w N S r| < |value w N S b| ∧ (value w N S r ≠ 0 → (value w N S r < 0 ↔ value w N S a < 0)) := by
  obtain ⟨q, r, h1, -, -, h4, h5⟩ := C28_divmod hp hI hw hN ha hb hb0
  have hW := W_pos hw hN
  have hfa := value_fits (S := S) hW (D_iff.1 ha)
  have htm := tmod_cases (value w N S a) (value w N S b)
  have htd := tdiv_cases (value w N S a) (value w N S b)
  have hmlt : (value w N S a).natAbs % (value w N S b).natAbs < (value w N S b).natAbs := Nat.mod_lt _ (by omega)
  refine ⟨q, r, h1, fun hne => ?_, ?_, fun hr => ?_⟩
  · have hfit : Fits w N S (Int.tdiv (value w N S a) (value w N S b)) := by
      have e3 := half hW
      have hle := Nat.div_le_self (value w N S a).natAbs (value w N S b).natAbs
      have hp1 := p_pos (w * N - 1)
      have hlt : 2 ≤ (value w N S b).natAbs → 0 < (value w N S a).natAbs →
          (value w N S a).natAbs / (value w N S b).natAbs < (value w N S a).natAbs := fun h h' =>
        Nat.div_lt_self h' (by omega)
      have hz : (value w N S a).natAbs = 0 → (value w N S a).natAbs / (value w N S b).natAbs = 0 := fun h => by
        rw [h, Nat.zero_div]
      have hfb := value_fits (S := S) hW (D_iff.1 hb)
      rw [htd]
      clear htd htm h4 h5 hmlt
      generalize (value w N S a).natAbs / (value w N S b).natAbs = qd at *
      unfold Fits at hfa hfb ⊢
      cases S
      · simp only [Bool.false_eq_true, if_false] at hfa hfb ⊢
        simp only [hfa.1, hfb.1, if_true]
        omega
      · simp only [if_true] at hfa hfb ⊢
        have hne' : ¬ (value w N true a = -(2 ^ (w * N - 1)) ∧ value w N true b = -1) := fun h => hne ⟨rfl, h⟩
        by_cases h1 : 0 ≤ value w N true a <;> by_cases h2 : 0 ≤ value w N true b <;>
          simp only [h1, h2, if_true, if_false] <;> omega
    rw [h4, h5, wrap_of_fits hW hfit]
    exact (Int.tdiv_mul_add_tmod _ _).symm
  · rw [h5, htm, Int.abs_eq_natAbs, Int.abs_eq_natAbs]
    split <;> omega
  · rw [h5, htm] at hr ⊢
    split <;> rename_i h
    · omega
    · rw [if_neg h] at hr
      omega

/-- The exceptional case: the quotient wraps around and the remainder is zero. -/
theorem C28_overflow (ha : Valid w N a) (hb : Valid w N b) (hS : S = true) (ha1 : value w N S a = -(2 ^ (w * N - 1)))
    (hb1 : value w N S b = -1) :
    ∃ q r, divmod I w N S a b = some (q, r) ∧ value w N S q = value w N S a ∧ value w N S r = 0 := by
  subst hS
  have hW := W_pos hw hN
  obtain ⟨q, r, h1, -, -, h4, h5⟩ := C28_divmod hp hI hw hN ha hb (S := true) (by omega)
  refine ⟨q, r, h1, ?_, ?_⟩
  · rw [h4]
    symm
    rw [C27_wrap hw hN]
    refine ⟨value_fits hW (D_iff.1 ha), ?_⟩
    rw [ha1, hb1, Int.tdiv_neg, Int.tdiv_one]
    exact ⟨-1, by rw [half hW]; ring⟩
  · rw [h5, hb1]
    simp [Int.tmod_neg]

/-- Division by zero is undefined behavior. -/
theorem C28_zero (ha : Valid w N a) (hb : Valid w N b) (hb0 : value w N S b = 0) : divmod I w N S a b = none := by
  rw [D_iff] at ha hb
  have hu0 : uval w b = 0 := by
    have := value_nonneg (S := S) hb (by omega)
    rw [this, hb0]; rfl
  have key : ∀ a', D (2 ^ w) N a' → unsignedDiv I w N a' b = none := by
    intro a' ha'
    obtain ⟨as, ha1, ha2, ha3⟩ := scatter_spec hp hI hw hN ha'
    obtain ⟨bs, hb1, hb2, hb3⟩ := scatter_spec hp hI hw hN hb
    rw [← uval_D hb, hu0] at hb3
    have hpos : 0 < nsub w N := by
      have h1 := (nsub_bounds (N := N) hw).1
      have h2 := W_pos hw hN
      rcases Nat.eq_zero_or_pos (nsub w N) with h | h
      · rw [h, Nat.mul_zero] at h1; omega
      · exact h
    have hz : ∀ i < nsub w N, g bs i = 0 := V_inj hb2.2 (h := fun _ => 0) (fun i _ => two_pos _) (by rw [hb3, V_const_zero])
    obtain ⟨n, n1, n2, -, n4⟩ := numDigits_spec (b := bs) (nsub w N) (by rw [hb2.1])
    have hn0 : n = 0 := by
      by_contra h
      exact n4 (by omega) (hz (n - 1) (by omega))
    subst hn0
    have hsd : shortDiv I w N as 0 = none := by
      obtain ⟨k, hk⟩ : ∃ k, nsub w N = k + 1 := ⟨nsub w N - 1, by omega⟩
      have ht := ha2.2 (nsub w N - 1) (by omega)
      obtain ⟨z, z1, -⟩ := join_eq (I := I) (x := 0) hp hw (two_pos _) ht
      rw [shortDiv, hk, loop]
      simp only [Nat.add_sub_cancel, Nat.sub_zero, rd_eq (show k < as.length by rw [ha2.1]; omega), z1, Option.bind_eq_bind,
        Option.bind_some, divOp]
      rfl
    simp only [unsignedDiv, ha1, hb1, n1, Option.bind_eq_bind, Option.bind_some]
    rw [if_neg (by omega), rd_eq (by rw [hb2.1]; exact hpos), hz 0 hpos]
    simp only [Option.bind_some, hsd]
    rfl
  have hnb : isNonneg I w N S b = some true := by rw [isNonneg_spec hp hw hN hb, decide_eq_true (by omega)]
  simp only [divmod, isNonneg_spec hp hw hN ha, hnb, Option.bind_eq_bind, Option.bind_some, if_true]
  by_cases h : 0 ≤ value w N S a
  · rw [if_pos (decide_eq_true h), key a ha]
  · obtain ⟨a', h1, h2, -⟩ := neg_value (I := I) (S := S) hp hw hN ha
    rw [if_neg (by simpa using h), h1]
    simp only [Option.bind_some, key a' h2]
    rfl

end C27

/-! ### C64 -/

section C64
variable {I w N : Nat} {S : Bool} (hp : I ≠ w) (hw : 2 ≤ w) (hN : 0 < N) {a b : List Nat}
include hp

/-- The bitwise operations. -/
theorem C64_bits (ha : Valid w N a) (hb : Valid w N b) :
    (∃ r, band I w N a b = some r ∧ Valid w N r ∧ ∀ i, (uval w r).testBit i = ((uval w a).testBit i && (uval w b).testBit i)) ∧
    (∃ r, bor I w N a b = some r ∧ Valid w N r ∧ ∀ i, (uval w r).testBit i = ((uval w a).testBit i || (uval w b).testBit i)) ∧
    (∃ r, bxor I w N a b = some r ∧ Valid w N r ∧ ∀ i, (uval w r).testBit i = ((uval w a).testBit i ^^ (uval w b).testBit i)) := by
  rw [D_iff] at ha hb
  obtain ⟨r1, a1, a2, a3⟩ := band_spec hp ha hb
  obtain ⟨r2, b1, b2, b3⟩ := bor_spec hp ha hb
  obtain ⟨r3, c1, c2, c3⟩ := bxor_spec hp ha hb
  exact ⟨⟨r1, a1, D_iff.2 a2, fun i => by rw [a3, Nat.testBit_and]⟩, ⟨r2, b1, D_iff.2 b2, fun i => by rw [b3, Nat.testBit_or]⟩,
    ⟨r3, c1, D_iff.2 c2, fun i => by rw [c3, Nat.testBit_xor]⟩⟩

include hw hN

/-- The complement. -/
theorem C64_not (ha : Valid w N a) :
    ∃ r, bnot I w N a = some r ∧ Valid w N r ∧ value w N S r = wrap w N S (-value w N S a - 1) ∧
      ∀ i < w * N, (uval w r).testBit i = !(uval w a).testBit i := by
  have hW := W_pos hw hN
  rw [D_iff] at ha
  obtain ⟨r, h1, h2, h3⟩ := bnot_spec hp ha
  refine ⟨r, h1, D_iff.2 h2, value_eq_wrap hW h2 ?_, fun i hi => ?_⟩
  · have h4 : (uval w r : Int) + uval w a + 1 = 2 ^ (w * N) := by exact_mod_cast h3
    have : (uval w r : Int) - (-value w N S a - 1) = (value w N S a - uval w a) + 2 ^ (w * N) * 1 := by linear_combination h4
    rw [this]
    exact Int.dvd_add (value_dvd _ _ _ _) (Int.dvd_mul_right _ _)
  · have : uval w r = 2 ^ (w * N) - (uval w a + 1) := by omega
    rw [this, Nat.testBit_two_pow_sub_succ (uval_lt ha), decide_eq_true hi, Bool.true_and]

/-- Left shift by less than the width. -/
theorem C64_shift_left (ha : Valid w N a) (n : Nat) (hn : n < w * N) :
    ∃ r, shiftLeft I w N a n = some r ∧ Valid w N r ∧ value w N S r = wrap w N S (value w N S a * 2 ^ n) := by
  have hW := W_pos hw hN
  rw [D_iff] at ha
  obtain ⟨r, h1, h2, h3⟩ := shiftLeft_spec (n := n) hp hw hN ha
  rw [Nat.mod_eq_of_lt hn] at h3
  refine ⟨r, h1, D_iff.2 h2, value_eq_wrap hW h2 ?_⟩
  have h5 : (uval w r : Int) = uval w a * 2 ^ n - 2 ^ (w * N) * ((uval w a * 2 ^ n) / 2 ^ (w * N)) := by
    rw [h3]
    push_cast
    rw [Int.emod_def]
  obtain ⟨s, hs⟩ := value_dvd w N S a
  have e1 : value w N S a = uval w a + 2 ^ (w * N) * s := by linear_combination hs
  rw [h5, e1]
  exact ⟨-((uval w a * 2 ^ n) / 2 ^ (w * N)) - s * 2 ^ n, by ring⟩

/-- Right shift of a nonnegative value by less than the width. -/
theorem C64_shift_right (ha : Valid w N a) (n : Nat) (hn : n < w * N) (h0 : 0 ≤ value w N S a) :
    ∃ r, shiftRight I w N a n = some r ∧ Valid w N r ∧ value w N S r = value w N S a / 2 ^ n := by
  have hW := W_pos hw hN
  rw [D_iff] at ha
  obtain ⟨r, h1, h2, h3⟩ := shiftRight_spec (n := n) hp hw hN ha
  rw [Nat.mod_eq_of_lt hn] at h3
  have hv := value_nonneg ha h0
  have hval : ((uval w r : Nat) : Int) = value w N S a / 2 ^ n := by
    rw [h3, Int.natCast_div, hv, Int.natCast_natAbs, abs_of_nonneg h0, cast_pow]
  refine ⟨r, h1, D_iff.2 h2, ?_⟩
  rw [← hval]
  have hle : uval w r ≤ uval w a := by rw [h3]; exact Nat.div_le_self _ _
  unfold value at h0 ⊢
  have hU := uval_lt ha
  have e1 := cast_pow (w * N)
  split
  · rename_i hs
    rw [if_pos ⟨hs.1, by omega⟩] at h0
    omega
  · rfl

/-- Right shift of a negative value inserts zeros, and the shift amount is taken modulo the width. -/
theorem C64_shift_bits (ha : Valid w N a) (n : Nat) :
    (∃ r, shiftRight I w N a n = some r ∧ Valid w N r ∧ uval w r = uval w a / 2 ^ (n % (w * N))) ∧
    (∃ r, shiftLeft I w N a n = some r ∧ Valid w N r ∧ uval w r = uval w a * 2 ^ (n % (w * N)) % 2 ^ (w * N)) := by
  rw [D_iff] at ha
  obtain ⟨r, h1, h2, h3⟩ := shiftRight_spec (n := n) hp hw hN ha
  obtain ⟨r', h1', h2', h3'⟩ := shiftLeft_spec (n := n) hp hw hN ha
  exact ⟨⟨r, h1, D_iff.2 h2, h3⟩, r', h1', D_iff.2 h2', h3'⟩

/-- The extreme values. -/
theorem C64_min_max : ∃ lo hi, minVal I w N S = some lo ∧ maxVal I w N S = some hi ∧ Valid w N lo ∧ Valid w N hi ∧
    ∀ a, Valid w N a → value w N S lo ≤ value w N S a ∧ value w N S a ≤ value w N S hi := by
  have hW := W_pos hw hN
  obtain ⟨lo, l1, l2, l3⟩ := minVal_spec (S := S) hp hw hN
  obtain ⟨hi, m1, m2, m3⟩ := maxVal_spec (S := S) hp hw hN
  refine ⟨lo, hi, l1, m1, D_iff.2 l2, D_iff.2 m2, fun a ha => ?_⟩
  have hf := value_fits (S := S) hW (D_iff.1 ha)
  have e1 := cast_pow (w * N)
  have e2 := cast_pow (w * N - 1)
  have e3 := half hW
  have e4 := p_pos (w * N - 1)
  have hlo : value w N S lo = if S then -(2 ^ (w * N - 1)) else 0 := by
    unfold value
    cases S
    · simp only [Bool.false_eq_true, if_false, false_and] at l3 ⊢; omega
    · simp only [if_true, true_and] at l3 ⊢
      rw [if_pos (by omega)]; omega
  have hhi : value w N S hi = (if S then 2 ^ (w * N - 1) else 2 ^ (w * N)) - 1 := by
    unfold value
    cases S
    · simp only [Bool.false_eq_true, if_false, false_and] at m3 ⊢; omega
    · simp only [if_true, true_and] at m3 ⊢
      rw [if_neg (by omega)]; omega
  rw [hlo, hhi]
  unfold Fits at hf
  cases S <;> simp only [Bool.false_eq_true, if_false, if_true] at hf ⊢ <;> omega

omit hp in
/-- The position of the most significant bit. -/
theorem C64_msb (ha : Valid w N a) : ∃ p, findMsb w N a = some p ∧
    (value w N S a = 0 → p = -1) ∧
    (0 < value w N S a → ∃ m : Nat, p = m ∧ 2 ^ m ≤ value w N S a ∧ value w N S a < 2 ^ (m + 1)) ∧
    (value w N S a < 0 → p = w * N - 1) := by
  have hW := W_pos hw hN
  rw [D_iff] at ha
  obtain ⟨p, h1, h2⟩ := msbLoop_spec ha N (Nat.le_refl _)
  rw [← uval_D ha] at h2
  have hU := uval_lt ha
  have e1 := cast_pow (w * N)
  have hpos := two_pos (w * N - 1)
  refine ⟨p, h1, fun h => ?_, fun h => ?_, fun h => ?_⟩
  · have := value_nonneg (S := S) ha (by omega)
    rcases h2 with h2 | ⟨m, -, h2, -⟩
    · exact h2.2
    · have := two_pos m
      omega
  · have hv := value_nonneg (S := S) ha (by omega)
    rcases h2 with h2 | ⟨m, h2, h3, h4⟩
    · omega
    · refine ⟨m, h2, ?_, ?_⟩
      · have := cast_pow m
        omega
      · have := cast_pow (m + 1)
        omega
  · have hge : 2 ^ (w * N - 1) ≤ uval w a := by
      unfold value at h
      split at h
      · rename_i hs; exact hs.2
      · omega
    rcases h2 with h2 | ⟨m, h2, h3, h4⟩
    · omega
    · have h5 : m < w * N := (Nat.pow_lt_pow_iff_right (a := 2) (by omega)).1 (by omega)
      have h6 : w * N - 1 < m + 1 := (Nat.pow_lt_pow_iff_right (a := 2) (by omega)).1 (by omega)
      have : m = w * N - 1 := by omega
      rw [h2, this]
      push_cast [Nat.cast_sub hW]
      omega

end C64

/-! ### Concrete instances -/

/-- Three parts of eight bits on a platform with 32-bit `int`: 0xFF00FF + 0x01FF01. -/
example : add 31 8 3 [0xFF, 0x00, 0xFF] [0x01, 0xFF, 0x01] = some [0x00, 0x00, 0x01] := by decide +kernel
example : value 8 3 true [0xFF, 0x00, 0xFF] = -65281 ∧ value 8 3 true [0x01, 0xFF, 0x01] = 130817 ∧
    value 8 3 true [0x00, 0x00, 0x01] = 65536 := by decide +kernel
example : mul 31 8 3 [0x34, 0x12, 0x00] [0x11, 0x00, 0x00] = some [0x74, 0x35, 0x01] := by decide +kernel
example : less 31 8 2 true [0, 0x80] [0, 0x7F] = some true ∧ less 31 8 2 false [0, 0x80] [0, 0x7F] = some false := by decide +kernel
example : sub 31 32 2 [0, 1] [1, 0] = some [0xFFFFFFFF, 0] := by decide +kernel

example : divmod 31 8 2 true [0xF9, 0xFF] [0x02, 0x00] = some ([0xFD, 0xFF], [0xFF, 0xFF]) := by decide +kernel  -- -7 / 2
example : divmod 31 8 2 true [0x00, 0x80] [0xFF, 0xFF] = some ([0x00, 0x80], [0, 0]) := by decide +kernel
example : divmod 31 8 2 false [5, 0] [0, 0] = none := by decide +kernel

example : shiftLeft 31 8 3 [0x81, 0x42, 0x24] 9 = some [0x00, 0x02, 0x85] ∧
    shiftRight 31 8 3 [0x81, 0x42, 0x24] 9 = some [0x21, 0x12, 0x00] := by decide +kernel
example : minVal 31 8 2 true = some [0, 0x80] ∧ maxVal 31 8 2 true = some [0xFF, 0x7F] := by decide +kernel
example : findMsb 8 3 [0xFF, 0x05, 0x00] = some 10 ∧ bnot 31 8 2 [0x0F, 0x00] = some [0xF0, 0xFF] := by decide +kernel

/-- 0x4000 / 0x80F with digits of four bits: the estimate 8 of the quotient is too large, so the divisor is added back. -/
example : estimate 31 8 0x4 0x0 0x0 0x8 0x0 = some 8 ∧
    (do let (_, c) ← subDigits 31 8 3 0 [0x0, 0x0, 0x0, 0x4] (← mulDigit 31 8 2 3 [0xF, 0x0, 0x8, 0x0] 8); some c) = some 1 ∧
    unsignedDiv 31 8 2 [0x00, 0x40] [0x0F, 0x08] = some ([0x07, 0x00], [0x97, 0x07]) := by
  decide +kernel

end Verif.MulPrec
