import Verif.FloatInt.Model

/-!
# Specification of comparison and conversion between floating-point and integer values
-/

namespace Verif.FloatInt.Spec

/-- The basic requirements for floating-point types (`/repo/src/archon/core/float_traits.hpp:61-161`). -/
structure Conforms (F : FloatType) : Prop where
  /-- Valid specializations: The radix is at least 2. -/
  radix_ge : 2 ≤ F.radix
  /-- Requirement 1. -/
  rep_zero : F.rep 0
  rep_one : F.rep 1
  rep_neg_one : F.rep (-1)
  rep_radix : F.rep F.radix
  /-- Requirement 6. -/
  div_exact : ∀ a b, F.rep a → F.rep b → b ≠ 0 → F.rep (a / b) → F.div (.fin a) (.fin b) = .fin (a / b)
  /-- Requirement 7. -/
  rep_floor : ∀ a, F.rep a → F.rep ⌊a⌋
  rep_ceil : ∀ a, F.rep a → F.rep ⌈a⌉
  /-- Requirement 9. -/
  ofInt_exact : ∀ i : ℤ, F.rep i → F.ofInt i = .fin i
  ofInt_between : ∀ (i : ℤ) (a b : ℚ), F.rep a → F.rep b → a < i → (i : ℚ) < b → (∀ c, F.rep c → c ≤ a ∨ b ≤ c) →
    F.ofInt i = .fin a ∨ F.ofInt i = .fin b
  /-- Requirement 10. -/
  rep_div : ∀ a, F.rep a → 1 < a ∨ a < -1 → F.rep (a / F.radix)
  /-- Requirement 11. -/
  int_above : ∀ (i : ℤ) (b : ℚ), 0 < i → ¬F.rep i → F.rep b → (i : ℚ) < b → (∀ c, F.rep c → (i : ℚ) < c → b ≤ c) →
    ∃ k : ℤ, b / F.radix = k
  int_below : ∀ (i : ℤ) (a : ℚ), i < 0 → ¬F.rep i → F.rep a → a < i → (∀ c, F.rep c → c < i → c ≤ a) →
    ∃ k : ℤ, a / F.radix = k
  /-- Valid specializations: `nextafter(f, 0)`. -/
  next_pos : ∀ a, F.rep a → 0 < a → ∃ b, F.next (.fin a) = .fin b ∧ F.rep b ∧ b < a ∧ ∀ c, F.rep c → c < a → c ≤ b
  next_neg : ∀ a, F.rep a → a < 0 → ∃ b, F.next (.fin a) = .fin b ∧ F.rep b ∧ a < b ∧ ∀ c, F.rep c → a < c → b ≤ c

/-- Properties of standard integer types. -/
structure Std (I : IntType) : Prop where
  lo_nonpos : I.lo ≤ 0
  hi_pos : 0 < I.hi
  plo_le : I.plo ≤ I.lo
  le_phi : I.hi ≤ I.phi
  unsigned : I.signed = false → I.lo = 0

/-- The finite range of the floating-point type covers the range of the integer type. -/
def Covers (F : FloatType) (I : IntType) : Prop := (∃ a, F.rep a ∧ a ≤ I.lo) ∧ ∃ b, F.rep b ∧ (I.hi : ℚ) ≤ b

/-- A value of the floating-point type. -/
def IsVal (F : FloatType) : Val → Prop
  | .fin q => F.rep q
  | _ => True

/-- Comparison in the mathematical sense. -/
def Equal : Val → ℤ → Prop
  | .fin q, n => q = n
  | _, _ => False

@[inherit_doc Equal] def Less : Val → ℤ → Prop
  | .fin q, n => q < n
  | .ninf, _ => True
  | _, _ => False

@[inherit_doc Equal] def Greater : Val → ℤ → Prop
  | .fin q, n => n < q
  | .pinf, _ => True
  | _, _ => False

/-- Truncation in the mathematical sense: `t` is the integer nearest to `q` among those that are not further from zero. -/
def IsTrunc (q : ℚ) (t : ℤ) : Prop := (0 ≤ q → (0 ≤ t ∧ (t : ℚ) ≤ q ∧ q < t + 1)) ∧ (q ≤ 0 → (t ≤ 0 ∧ q ≤ t ∧ (t : ℚ) - 1 < q))

/-- The finite values of a binary floating-point format with `p` bits in the significand, where the exponent (of the last bit of the
significand) is in the range from `emin` to `emax`. -/
def binaryRep (p : ℕ) (emin emax : ℤ) (q : ℚ) : Prop := ∃ m e : ℤ, |m| < 2 ^ p ∧ emin ≤ e ∧ e ≤ emax ∧ q = m * 2 ^ e

end Verif.FloatInt.Spec
