import Verif.SuperInt.Lemmas2

/-!
# Properties of super integers (C103, C104, C105)

`a.num N` is the number that is represented by a super integer `a`, where `N` is the number of value
bits: the value bits form a natural number, from which `2 ^ N` is subtracted if the sign bit is set.
-/

namespace Verif.SuperInt

open Spec

/-- A type with eight value bits to stand in for `std::uintmax_t` in examples. -/
def Ex.int8 : Integer.Ty := ⟨true, 7⟩

/-- The super integer of a number, with eight value bits. -/
def Ex.s (v : Int) : SuperInt := ofInt 8 ⟨true, 8⟩ v

/-! ### Representation and arithmetic with wrapping (C103) -/

/-- Super integers represent precisely the integers from `-2 ^ N` to `2 ^ N - 1`, each one in exactly one
way. -/
theorem C103_represent (N : Nat) :
    (∀ a, Valid N a → Representable N (a.num N)) ∧
    (∀ x, Representable N x → ∃ a, Valid N a ∧ a.num N = x ∧ ∀ b, Valid N b → b.num N = x → b = a) ∧
    (min.num N = -2 ^ N ∧ (max N).num N = 2 ^ N - 1 ∧ zero.num N = 0) := by
  have hp := pow_pos' N
  have e1 : ((2 ^ N : Nat) : Int) = 2 ^ N := by push_cast; rfl
  refine ⟨fun a ha => num_representable ha, fun x hx => ?_, ?_, ?_, ?_⟩
  · obtain ⟨h1, h2⟩ := ofInt_spec (N := N) (T := ⟨true, N⟩) (le_refl N) (v := x) (by
      rw [Integer.In_s]; exact ⟨hx.1, by have := hx.2; omega⟩)
    exact ⟨_, h1, h2, fun b hb h => num_inj hb h1 (h.trans h2.symm)⟩
  · rw [num_true rfl]; simp [min]
  · rw [num_false rfl]
    simp only [max, umax]; omega
  · rw [num_false rfl]; rfl

example : (Ex.s (-3)).num 8 = -3 ∧ (Ex.s (-3)).value = 253 ∧ (Ex.s (-3)).sign = true := by decide

/-- Comparison operators compare the represented numbers. -/
theorem C103_compare {N : Nat} {a b : SuperInt} (ha : Valid N a) (hb : Valid N b) :
    (eq a b = true ↔ a.num N = b.num N) ∧ (ne a b = true ↔ a.num N ≠ b.num N) ∧
    (lt a b = true ↔ a.num N < b.num N) ∧ (le a b = true ↔ a.num N ≤ b.num N) ∧
    (gt a b = true ↔ a.num N > b.num N) ∧ (ge a b = true ↔ a.num N ≥ b.num N) := by
  have h1 := eq_iff ha hb
  have h2 := lt_iff ha hb
  have h3 := lt_iff hb ha
  refine ⟨h1, ?_, h2, ?_, h3, ?_⟩
  · unfold ne; rw [Bool.not_eq_true', ← Bool.not_eq_true, h1]
  · unfold le; rw [Bool.not_eq_true', ← Bool.not_eq_true, h3]; omega
  · unfold ge; rw [Bool.not_eq_true', ← Bool.not_eq_true, h2]; omega

example : lt (Ex.s (-3)) (Ex.s 2) = true ∧ lt (Ex.s (-3)) (Ex.s (-4)) = false := by decide

/-- Addition, subtraction, multiplication, and negation produce the exact result reduced to the
representable range modulo `2 ^ (N + 1)`. -/
theorem C103_wrap {N : Nat} (hN : 0 < N) {a b : SuperInt} (ha : Valid N a) (hb : Valid N b) :
    (Valid N (add N a b) ∧ IsWrap N (a.num N + b.num N) ((add N a b).num N)) ∧
    (Valid N (sub N a b) ∧ IsWrap N (a.num N - b.num N) ((sub N a b).num N)) ∧
    (Valid N (mul N a b) ∧ IsWrap N (a.num N * b.num N) ((mul N a b).num N)) ∧
    (Valid N (neg N a) ∧ IsWrap N (-a.num N) ((neg N a).num N)) ∧
    pos a = a := by
  refine ⟨⟨add_valid N a b, wrap_of_rep (add_valid N a b) (add_rep ha hb)⟩,
    ⟨sub_valid N a b, wrap_of_rep (sub_valid N a b) (sub_rep ha hb)⟩, mul_wrap hN ha hb, ?_, rfl⟩
  have h0 : Valid N zero := pow_pos' N
  refine ⟨sub_valid N zero a, ?_⟩
  have h := wrap_of_rep (sub_valid N zero a) (sub_rep h0 ha)
  have hz : zero.num N = 0 := by rw [num_false rfl]; rfl
  rw [hz, zero_sub] at h
  exact h

example : (add 8 (Ex.s 200) (Ex.s 100)).num 8 = -212 ∧ (mul 8 (Ex.s (-100)) (Ex.s 7)).num 8 = -188 := by
  decide

/-- Reduction to the representable range has only one result. In particular, when the exact result of an
operation is representable, it is the result. -/
theorem C103_wrap_unique {N : Nat} {x y : Int} (h : IsWrap N x y) :
    (∀ z, IsWrap N x z → z = y) ∧ (Representable N x → y = x) :=
  ⟨fun _ hz => wrap_unique hz h, fun hx => wrap_unique h (wrap_self hx)⟩

example : IsWrap 8 300 (-212) := ⟨by unfold Representable; omega, -1, by norm_num⟩

/-- Bitwise operators operate on each bit of the two's complement representation of the represented
numbers. -/
theorem C103_bits {N : Nat} {a b : SuperInt} (ha : Valid N a) (hb : Valid N b) (i : Nat) :
    (Valid N (not N a) ∧ ((not N a).num N).testBit i = !(a.num N).testBit i) ∧
    (Valid N (and a b) ∧ ((and a b).num N).testBit i = ((a.num N).testBit i && (b.num N).testBit i)) ∧
    (Valid N (or a b) ∧ ((or a b).num N).testBit i = ((a.num N).testBit i || (b.num N).testBit i)) ∧
    (Valid N (xor a b) ∧ ((xor a b).num N).testBit i = ((a.num N).testBit i ^^ (b.num N).testBit i)) := by
  have ha' := ha
  unfold Valid at ha'
  refine ⟨⟨not_valid N a, ?_⟩, ⟨and_valid ha, ?_⟩, ⟨or_valid ha hb, ?_⟩, ⟨xor_valid ha hb, ?_⟩⟩
  · rw [testBit_num (not_valid N a), testBit_num ha]
    by_cases h : i < N
    · rw [if_pos h, if_pos h]
      show (unot N a.value).testBit i = _
      unfold unot
      rw [show 2 ^ N - 1 - a.value = 2 ^ N - (a.value + 1) by omega, Nat.testBit_two_pow_sub_succ ha']
      simp [h]
    · rw [if_neg h, if_neg h]; rfl
  · rw [testBit_num (and_valid ha), testBit_num ha, testBit_num hb]
    by_cases h : i < N
    · rw [if_pos h, if_pos h, if_pos h]; exact Nat.testBit_and _ _ _
    · rw [if_neg h, if_neg h, if_neg h]; rfl
  · rw [testBit_num (or_valid ha hb), testBit_num ha, testBit_num hb]
    by_cases h : i < N
    · rw [if_pos h, if_pos h, if_pos h]; exact Nat.testBit_or _ _ _
    · rw [if_neg h, if_neg h, if_neg h]; rfl
  · rw [testBit_num (xor_valid ha hb), testBit_num ha, testBit_num hb]
    by_cases h : i < N
    · rw [if_pos h, if_pos h, if_pos h]; exact Nat.testBit_xor _ _ _
    · rw [if_neg h, if_neg h, if_neg h]; show (a.sign != b.sign) = (a.sign ^^ b.sign); cases a.sign <;> cases b.sign <;> rfl

example : (and (Ex.s (-4)) (Ex.s 7)).num 8 = 4 ∧ (not 8 (Ex.s 5)).num 8 = -6 := by decide

/-! ### Detection of overflow, and division (C104) -/

/-- Addition, subtraction, and multiplication with detection of overflow report overflow precisely when the
exact result is not representable. If there is overflow, the object is left unchanged. Otherwise, it holds
the exact result. -/
theorem C104_overflow {N : Nat} (hN : 0 < N) {a b : SuperInt} (ha : Valid N a) (hb : Valid N b) :
    (∃ o r, addOverflow N a b = (o, r) ∧ Valid N r ∧ (o = true ↔ ¬ Representable N (a.num N + b.num N)) ∧
      (o = true → r = a) ∧ (o = false → r.num N = a.num N + b.num N)) ∧
    (∃ o r, subOverflow N a b = (o, r) ∧ Valid N r ∧ (o = true ↔ ¬ Representable N (a.num N - b.num N)) ∧
      (o = true → r = a) ∧ (o = false → r.num N = a.num N - b.num N)) ∧
    (∃ o r, mulOverflow N a b = some (o, r) ∧ Valid N r ∧
      (o = true ↔ ¬ Representable N (a.num N * b.num N)) ∧
      (o = true → r = a) ∧ (o = false → r.num N = a.num N * b.num N)) := by
  obtain ⟨w1, w2, w3, -, -⟩ := C103_wrap hN ha hb
  refine ⟨?_, ?_, ?_⟩
  · by_cases h : Representable N (a.num N + b.num N)
    · exact ⟨_, _, (addOverflow_spec ha hb).1 h, w1.1, by simp [h], by simp,
        fun _ => (C103_wrap_unique w1.2).2 h⟩
    · exact ⟨_, _, (addOverflow_spec ha hb).2 h, ha, by simp [h], by simp, by simp⟩
  · by_cases h : Representable N (a.num N - b.num N)
    · exact ⟨_, _, (subOverflow_spec ha hb).1 h, w2.1, by simp [h], by simp,
        fun _ => (C103_wrap_unique w2.2).2 h⟩
    · exact ⟨_, _, (subOverflow_spec ha hb).2 h, ha, by simp [h], by simp, by simp⟩
  · by_cases h : Representable N (a.num N * b.num N)
    · exact ⟨_, _, (mulOverflow_spec hN ha hb).1 h, w3.1, by simp [h], by simp,
        fun _ => (C103_wrap_unique w3.2).2 h⟩
    · exact ⟨_, _, (mulOverflow_spec hN ha hb).2 h, ha, by simp [h], by simp, by simp⟩

example : (addOverflow 8 (Ex.s (-200)) (Ex.s (-56))).1 = false ∧
    (addOverflow 8 (Ex.s (-200)) (Ex.s (-57))).1 = true ∧
    mulOverflow 8 (Ex.s (-16)) (Ex.s (-16)) = some (true, Ex.s (-16)) ∧
    mulOverflow 8 (Ex.s (-16)) (Ex.s 16) = some (false, Ex.s (-256)) := by decide +kernel

/-- Division with detection of overflow, for nonzero divisor, reports overflow precisely when the quotient is
not representable, which is when the lowest number is divided by -1. If there is overflow, the object is left
unchanged. Otherwise, it holds the quotient, truncated towards zero. -/
theorem C104_divide {N : Nat} (hN : 0 < N) {a b : SuperInt} (ha : Valid N a) (hb : Valid N b)
    (h0 : b.num N ≠ 0) :
    ∃ q r, IsQuotRem (a.num N) (b.num N) q r ∧
    ∃ o x, divOverflow N a b = some (o, x) ∧ Valid N x ∧ (o = true ↔ ¬ Representable N q) ∧
      (o = true ↔ a.num N = -2 ^ N ∧ b.num N = -1) ∧ (o = true → x = a) ∧ (o = false → x.num N = q) := by
  have e1 : ((2 ^ N : Nat) : Int) = 2 ^ N := by push_cast; rfl
  have hp := pow_pos' N
  have hmin : min.num N = -(2 ^ N : Nat) := by rw [num_true rfl]; simp [min]
  refine ⟨_, _, quotRem_tdiv h0, ?_⟩
  rcases divOverflow_spec hN ha hb h0 with ⟨q, h1, h2, h3⟩ | ⟨h1, h2, h3⟩
  · have hrep : Representable N ((a.num N).tdiv (b.num N)) := h3 ▸ num_representable h2
    refine ⟨_, _, h1, h2, by simp [hrep], ?_, by simp, fun _ => h3⟩
    refine ⟨by simp, fun h => ?_⟩
    rw [h.1, h.2, ← e1, Int.tdiv_neg, Int.tdiv_one, representable_iff] at hrep
    omega
  · refine ⟨_, _, h1, ha, ?_, ?_, fun _ => rfl, by simp⟩
    · rw [h2, h3, hmin, Int.tdiv_neg, Int.tdiv_one, representable_iff]
      simp only [true_iff]; omega
    · rw [h2, h3, hmin, ← e1]; simp

example : divOverflow 8 (Ex.s (-256)) (Ex.s (-1)) = some (true, Ex.s (-256)) ∧
    divOverflow 8 (Ex.s (-256)) (Ex.s (-3)) = some (false, Ex.s 85) ∧
    divOverflow 8 (Ex.s 7) (Ex.s (-2)) = some (false, Ex.s (-3)) := by decide +kernel

/-- The quotient and remainder operators, for nonzero divisor, produce the quotient truncated towards zero,
reduced to the representable range, and the remainder. No assertion fails. -/
theorem C104_operators {N I : Nat} (hN : 0 < N) (hI : I ≤ N) {a b : SuperInt} (ha : Valid N a)
    (hb : Valid N b) (h0 : b.num N ≠ 0) :
    ∃ q r, IsQuotRem (a.num N) (b.num N) q r ∧
    (∃ x, div N I a b = some x ∧ Valid N x ∧ IsWrap N q (x.num N)) ∧
    (∃ y, mod N I a b = some y ∧ Valid N y ∧ y.num N = r) := by
  have e1 : ((2 ^ N : Nat) : Int) = 2 ^ N := by push_cast; rfl
  have hp := pow_pos' N
  have hmin : min.num N = -(2 ^ N : Nat) := by rw [num_true rfl]; simp [min]
  have hvmin : Valid N min := hp
  have hone : Integer.Ty.In (int I) (-1) := by
    unfold int; rw [Integer.In_s]
    have : (0 : Int) < 2 ^ I := by positivity
    omega
  obtain ⟨m1, m2⟩ := ofInt_spec (N := N) (T := int I) hI hone
  refine ⟨_, _, quotRem_tdiv h0, ?_⟩
  unfold div mod
  rcases divOverflow_spec hN ha hb h0 with ⟨q, h1, h2, h3⟩ | ⟨h1, h2, h3⟩
  · rw [h1]
    simp only
    refine ⟨⟨q, rfl, h2, ?_⟩, _, rfl, sub_valid _ _ _, ?_⟩
    · rw [h3]; exact wrap_self (h3 ▸ num_representable h2)
    · obtain ⟨v1, w1⟩ := mul_wrap hN h2 hb
      obtain ⟨w2⟩ := wrap_of_rep (sub_valid N a (mul N q b)) (sub_rep ha v1)
      have hw := wrap_of_rep (sub_valid N a (mul N q b)) (sub_rep ha v1)
      have hr : (a.num N).tmod (b.num N) = a.num N - q.num N * b.num N := by
        have := Int.mul_tdiv_add_tmod (a.num N) (b.num N)
        rw [h3, mul_comm]; omega
      have hrange : Representable N ((a.num N).tmod (b.num N)) := by
        have hA := num_representable ha
        have hq := quotRem_tdiv (x := a.num N) h0
        have hl : ((a.num N).tmod (b.num N)).natAbs ≤ (a.num N).natAbs := by
          rw [Int.natAbs_tmod]; exact Nat.mod_le _ _
        rw [representable_iff] at hA ⊢
        rcases le_or_gt 0 (a.num N) with h | h
        · have := Int.tmod_nonneg (b.num N) h; omega
        · have h5 : 0 ≤ (-a.num N).tmod (b.num N) := Int.tmod_nonneg _ (by omega)
          rw [Int.neg_tmod] at h5; omega
      have hexact : IsWrap N (a.num N - (mul N q b).num N) ((a.num N).tmod (b.num N)) := by
        obtain ⟨-, k, hk⟩ := w1
        exact ⟨hrange, k, by rw [hk, hr]; ring⟩
      exact wrap_unique hw hexact
  · rw [h1, h2]
    simp only
    have c1 : eq min min = true := by decide
    have c2 : eq b (ofInt N (int I) (-1)) = true := (eq_iff hb m1).mpr (by rw [m2, h3])
    rw [c1, c2]
    refine ⟨⟨min, rfl, hvmin, ?_⟩, ⟨zero, rfl, hp, ?_⟩⟩
    · refine ⟨num_representable hvmin, -1, ?_⟩
      rw [hmin, h3, Int.tdiv_neg, Int.tdiv_one]
      push_cast; ring
    · rw [h3, Int.tmod_neg, Int.tmod_one, num_false rfl]; rfl

example : mod 8 31 (Ex.s (-7)) (Ex.s 3) = some (Ex.s (-1)) ∧
    div 8 7 (Ex.s (-256)) (Ex.s (-1)) = some (Ex.s (-256)) ∧
    mod 8 7 (Ex.s (-256)) (Ex.s (-1)) = some (Ex.s 0) := by decide +kernel

/-- Truncated quotient and remainder are unique. -/
theorem C104_unique {x y q r q' r' : Int} (h : IsQuotRem x y q r) (h' : IsQuotRem x y q' r') :
    q = q' ∧ r = r' := by
  obtain ⟨h1, h2, h3⟩ := h
  obtain ⟨g1, g2, g3⟩ := h'
  have hd : (q - q') * y = r' - r := by linear_combination g1 - h1
  have hb : (r' - r).natAbs < y.natAbs := by
    rcases lt_trichotomy x 0 with hx | hx | hx
    · have a1 : r ≤ 0 := by by_contra hc; have := mul_neg_of_neg_of_pos hx (show 0 < r by omega); omega
      have a2 : r' ≤ 0 := by by_contra hc; have := mul_neg_of_neg_of_pos hx (show 0 < r' by omega); omega
      omega
    · subst hx
      have aux : ∀ q r : Int, 0 = q * y + r → r.natAbs < y.natAbs → r = 0 := by
        intro q r e1 e2
        by_contra hne
        have hq : q ≠ 0 := by rintro rfl; omega
        have : r.natAbs = q.natAbs * y.natAbs := by rw [← Int.natAbs_mul]; omega
        have : 1 * y.natAbs ≤ q.natAbs * y.natAbs := Nat.mul_le_mul_right _ (by omega)
        omega
      rw [aux q r h1 h2, aux q' r' g1 g2]; omega
    · have a1 : 0 ≤ r := by by_contra hc; have := mul_neg_of_pos_of_neg hx (show r < 0 by omega); omega
      have a2 : 0 ≤ r' := by by_contra hc; have := mul_neg_of_pos_of_neg hx (show r' < 0 by omega); omega
      omega
  have hq : q - q' = 0 := by
    by_contra hne
    have : (r' - r).natAbs = (q - q').natAbs * y.natAbs := by rw [← Int.natAbs_mul, hd]
    have : 1 * y.natAbs ≤ (q - q').natAbs * y.natAbs := Nat.mul_le_mul_right _ (by omega)
    omega
  rw [hq, zero_mul] at hd
  exact ⟨by omega, by omega⟩

example : IsQuotRem (-7) 3 (-2) (-1) := by unfold IsQuotRem; decide

/-- Division by zero is undefined behavior. -/
theorem C104_zero {N I : Nat} {a b : SuperInt} (hb : Valid N b) (h0 : b.num N = 0) :
    divOverflow N a b = none ∧ div N I a b = none ∧ mod N I a b = none := by
  have := divOverflow_zero (a := a) hb h0
  refine ⟨this, ?_, ?_⟩
  · unfold div; rw [this]
  · unfold mod; rw [this]

example : div 8 31 (Ex.s 5) (Ex.s 0) = none := by decide +kernel

/-! ### Conversion, shift, and output (C105) -/

/-- A value of a built-in integer type is represented exactly, provided that `std::uintmax_t` has at least as
many value bits as the type. -/
theorem C105_construct {N : Nat} {T : Integer.Ty} (hT : T.bits ≤ N) {v : Int} (hv : Integer.Spec.Fits T v) :
    Valid N (ofInt N T v) ∧ (ofInt N T v).num N = v := ofInt_spec hT (Integer.fits_iff.mp hv)

example : (ofInt 8 ⟨false, 8⟩ 255).num 8 = 255 ∧ (ofInt 8 ⟨true, 7⟩ (-128)).num 8 = -128 := by decide

/-- Conversion to a built-in integer type succeeds, and then produces the represented number, precisely when
that number is representable in that type. There is no undefined behavior. -/
theorem C105_get_as {N I : Nat} {T : Integer.Ty} (hT : T.bits ≤ N) {a : SuperInt} (ha : Valid N a) :
    (Integer.Spec.Fits T (a.num N) → getAs N I T a = some (some (a.num N)) ∧ castHasOverflow N T a = false) ∧
    (¬ Integer.Spec.Fits T (a.num N) → getAs N I T a = some none ∧ castHasOverflow N T a = true) := by
  rw [Integer.fits_iff, getAs_spec hT ha]
  have := castHasOverflow_spec hT ha
  constructor
  · intro h
    rw [if_pos h]
    refine ⟨rfl, ?_⟩
    rw [← Bool.not_eq_true, this]; simpa using h
  · intro h
    rw [if_neg h]
    exact ⟨rfl, this.mpr h⟩

example : getAs 8 31 Ex.int8 (Ex.s (-128)) = some (some (-128)) ∧ getAs 8 31 Ex.int8 (Ex.s (-129)) = some none := by
  decide +kernel

/-- Left shift by less than `N` places multiplies by a power of two, and reduces the result to the
representable range. -/
theorem C105_shift_left {N n : Nat} (hn : n < N) {a : SuperInt} (ha : Valid N a) :
    ∃ r, shl N a n = some r ∧ Valid N r ∧ IsWrap N (a.num N * 2 ^ n) (r.num N) := by
  rcases Nat.eq_zero_or_pos n with h | h
  · subst h
    refine ⟨a, by unfold shl; rw [if_neg (by omega)], ha, ?_⟩
    rw [pow_zero, mul_one]; exact wrap_self (num_representable ha)
  · exact shl_spec h hn ha

example : shl 8 (Ex.s (-3)) 5 = some (Ex.s (-96)) ∧ shl 8 (Ex.s 100) 2 = some (Ex.s (-112)) := by decide +kernel

/-- Right shift of a non-negative number by less than `N` places divides by a power of two, and rounds
down. -/
theorem C105_shift_right_partial {N n : Nat} (hn : n < N) {a : SuperInt} (ha : Valid N a)
    (h0 : 0 ≤ a.num N) :
    ∃ r, shr N a n = some r ∧ Valid N r ∧ r.num N = (a.num N).fdiv (2 ^ n) := by
  have hs : a.sign = false := by
    have ha' := ha
    unfold Valid at ha'
    cases hs : a.sign
    · rfl
    · rw [num_true hs] at h0; omega
  rcases Nat.eq_zero_or_pos n with h | h
  · subst h
    exact ⟨a, by unfold shr; rw [if_neg (by omega)], ha, by simp⟩
  · obtain ⟨r, h1, h2, h3, h4⟩ := shr_spec h hn ha
    refine ⟨r, h1, h2, ?_⟩
    rw [num_false h3, num_false hs, h4]
    have : a.rep N = a.value := by unfold SuperInt.rep; rw [hs]; simp
    rw [this, Int.fdiv_eq_ediv_of_nonneg _ (by positivity)]
    push_cast; rfl

example : shr 8 (Ex.s 200) 3 = some (Ex.s 25) := by decide +kernel

/-- Right shift of a negative number by at least one place produces the number whose bits, with zeros shifted
in, are those of the two's complement representation with sign bit. That is a non-negative number, and so,
not the number divided by a power of two. -/
theorem C105_shift_right_negative {N n : Nat} (h : 0 < n) (hn : n < N) {a : SuperInt} (ha : Valid N a)
    (h0 : a.num N < 0) :
    ∃ r, shr N a n = some r ∧ Valid N r ∧ r.num N = (a.num N + 2 ^ (N + 1)).fdiv (2 ^ n) ∧
      r.num N ≠ (a.num N).fdiv (2 ^ n) := by
  have hs : a.sign = true := by
    cases hs : a.sign
    · rw [num_false hs] at h0; omega
    · rfl
  obtain ⟨r, h1, h2, h3, h4⟩ := shr_spec h hn ha
  have hrep : (a.rep N : Int) = a.num N + 2 ^ (N + 1) := by
    rw [num_true hs]; unfold SuperInt.rep; rw [hs]; push_cast; simp; ring
  refine ⟨r, h1, h2, ?_, ?_⟩
  · rw [num_false h3, h4, ← hrep, Int.fdiv_eq_ediv_of_nonneg _ (by positivity)]
    push_cast; rfl
  · have : (a.num N).fdiv (2 ^ n) < 0 := Int.fdiv_neg_of_neg_of_pos h0 (by positivity)
    rw [num_false h3]; omega

example : shr 8 (Ex.s (-2)) 1 = some (Ex.s 255) := by decide +kernel

/-- A shift by a number of places that is not positive has no effect, and a shift by `N` places or more is
undefined behavior, even if there are `N + 1` bits. -/
theorem C105_shift_limits {N : Nat} (a : SuperInt) (n : Int) :
    (n ≤ 0 → shl N a n = some a ∧ shr N a n = some a) ∧
    (N ≤ n → 0 < n → shl N a n = none ∧ shr N a n = none) := by
  constructor
  · intro h
    unfold shl shr
    rw [if_neg (by omega), if_neg (by omega)]
    exact ⟨rfl, rfl⟩
  · intro h h0
    unfold shl shr ushl ushr
    rw [if_pos h0, if_pos h0]
    have hc : ¬ (0 ≤ n ∧ n < (N : Int)) := by omega
    simp only [if_neg hc]
    refine ⟨?_, trivial⟩
    split <;> rfl

example : shl 8 (Ex.s 1) 8 = none ∧ shl 8 (Ex.s 1) (-1) = some (Ex.s 1) := by decide +kernel

/-- The output operator writes the decimal numeral of the represented number. The hypotheses about sizes
say that the text is not too long to be represented in memory. -/
theorem C105_output {C : Type} {N I M : Nat} (hI : 7 ≤ I) (hNI : N + 1 < 2 ^ I) (hM : N + 2 ≤ M)
    (hMI : I + 2 ≤ M) (d : C) (widen : Nat → C) (mem : List C) (hmem : mem.length ≤ M) {a : SuperInt}
    (ha : Valid N a) :
    output N I M d widen mem a = .ok ((IntText.Spec.numeral false 10 1 (a.num N)).map widen) := by
  have ha' := ha
  unfold Valid at ha'
  have hI2 : (128 : Int) ≤ 2 ^ I := Integer.p_le (a := 7) hI
  have hII : I + 1 < 2 ^ I := by
    have h1 : ∀ k, k + 7 + 1 < 2 ^ (k + 7) := by
      intro k
      induction k with
      | zero => decide
      | succ k ih => rw [show k + 1 + 7 = k + 7 + 1 by omega, pow_succ]; omega
    have := h1 (I - 7)
    rwa [show I - 7 + 7 = I by omega] at this
  have key : ∀ (T : Integer.Ty) (v : Int) (mem : List C), mem.length ≤ M → Integer.Spec.Fits T v →
      T.bits + 1 < 2 ^ I → T.bits + 2 ≤ M → ∃ mem' : List C, mem'.length ≤ M ∧
        IntText.format I T M d widen false 10 1 v mem =
          .ok (mem', (IntText.Spec.numeral false 10 1 v).map widen) := by
    intro T v mem hm hf hb hbM
    obtain ⟨n, mem', h1, -, h2, h3⟩ := IntText.C26_format I hI T M d widen false 10 (by decide) (by decide) 1
      (by omega) v hf mem hm hb (by simp; omega)
    have : n = 1 := by have := h1 (by decide); omega
    subst this
    exact ⟨mem', h2, h3⟩
  have fu : ∀ v : Nat, v < 2 ^ N → Integer.Spec.Fits ⟨false, N⟩ (v : Int) := by
    intro v hv
    rw [Integer.fits_iff, Integer.In_u]
    have e1 : ((2 ^ N : Nat) : Int) = 2 ^ N := by push_cast; rfl
    omega
  have fi : ∀ v : Nat, v < 10 → Integer.Spec.Fits (int I) (v : Int) := by
    intro v hv
    unfold int
    rw [Integer.fits_iff, Integer.In_s]
    omega
  unfold output
  simp only
  cases hs : a.sign
  · simp only [Bool.false_eq_true, if_false]
    obtain ⟨mem', -, h1⟩ := key ⟨false, N⟩ a.value mem hmem (fu _ ha') hNI hM
    rw [h1, num_false hs]
    rfl
  · simp only [if_true]
    obtain ⟨l, h1, h2, h3, h4⟩ := splitNegative_spec ha'
    have hnum : a.num N = -((10 * (splitNegative N a.value).1 + l : Nat) : Int) := by
      rw [num_true hs, h3]; omega
    rw [hnum, numeral_split h2 (by omega), h1]
    by_cases ho : (splitNegative N a.value).1 > 0
    · rw [if_pos ho, if_pos ho]
      obtain ⟨mem1, hm1, g1⟩ := key ⟨false, N⟩ _ mem hmem (fu _ h4) hNI hM
      obtain ⟨mem2, -, g2⟩ := key (int I) l mem1 hm1 (fi l h2) hII hMI
      rw [g1, Buffer.bind_ok]
      dsimp only
      rw [g2, Buffer.bind_ok]
      simp
    · rw [if_neg ho, if_neg ho]
      obtain ⟨mem2, -, g2⟩ := key (int I) l mem hmem (fi l h2) hII hMI
      rw [g2, Buffer.bind_ok]
      simp

example : (match output 8 31 100 0 id [] (Ex.s (-256)) with
    | .ok s => String.ofList (s.map Char.ofNat)
    | .error _ => "?") = "-256" := by decide +kernel

end Verif.SuperInt
