import Verif.InexactCompare.Model
import Verif.InexactCompare.Spec
import Mathlib.Tactic.Linarith
import Mathlib.Tactic.Ring
import Mathlib.Tactic.NormNum
import Mathlib.Algebra.Order.Field.Rat
import Mathlib.Algebra.Order.Ring.Abs
/-!
Property C226: inexact comparison of floating-point numbers.
-/
namespace Verif.InexactCompare
open Spec

theorem Spec.Rounding.zero {rnd : Rat → Rat} (h : Rounding rnd) : rnd 0 = 0 := by
  have := h.odd 0
  rw [neg_zero] at this
  linarith

theorem Spec.Rounding.nonneg {rnd : Rat → Rat} (h : Rounding rnd) {x : Rat} (hx : 0 ≤ x) : 0 ≤ rnd x := by
  have := h.mono 0 x hx
  rwa [h.zero] at this

theorem bound_nonneg (a b : Rat) {e : Rat} (he : 0 ≤ e) : 0 ≤ max |a| |b| * e :=
  mul_nonneg (le_trans (abs_nonneg a) (le_max_left _ _)) he

theorem rnd_sub {rnd : Rat → Rat} (h : Rounding rnd) (a b : Rat) : rnd (b - a) = -rnd (a - b) := by
  rw [← h.odd]; congr 1; ring

/-- C226: precisely one of the three holds: definitely less, approximately equal, and definitely greater. -/
theorem C226_trichotomy {rnd : Rat → Rat} (h : Rounding rnd) (a b e : Rat) (he : 0 ≤ e) :
    OneOf (definitelyLess rnd a b e) (approximatelyEqual rnd a b e) (definitelyGreater rnd a b e) := by
  unfold OneOf definitelyGreater definitelyLess approximatelyEqual
  rw [max_comm |b| |a|, rnd_sub h a b, abs_le]
  have h0 := h.nonneg (bound_nonneg a b he)
  generalize rnd (max |a| |b| * e) = m at *
  generalize rnd (a - b) = x at *
  by_cases h1 : x < -m
  · exact Or.inl ⟨by linarith, fun hc => by linarith [hc.1], by intro hc; linarith⟩
  · by_cases h2 : m < x
    · exact Or.inr (Or.inr ⟨by intro hc; linarith, fun hc => by linarith [hc.2], h2⟩)
    · exact Or.inr (Or.inl ⟨by intro hc; apply h1; linarith, ⟨by linarith, by linarith⟩, h2⟩)

/-- C226: the two kinds of equality are symmetric and reflexive, and essential equality implies approximate equality. -/
theorem C226_equality {rnd : Rat → Rat} (h : Rounding rnd) (a b e : Rat) (he : 0 ≤ e) :
    (approximatelyEqual rnd a b e ↔ approximatelyEqual rnd b a e) ∧ (essentiallyEqual rnd a b e ↔ essentiallyEqual rnd b a e) ∧
    approximatelyEqual rnd a a e ∧ essentiallyEqual rnd a a e ∧ (essentiallyEqual rnd a b e → approximatelyEqual rnd a b e) := by
  unfold approximatelyEqual essentiallyEqual
  refine ⟨?_, ?_, ?_, ?_, fun hc => le_trans hc ?_⟩
  · rw [max_comm |b| |a|, rnd_sub h a b, abs_neg]
  · rw [min_comm |b| |a|, rnd_sub h a b, abs_neg]
  · rw [sub_self, h.zero, abs_zero]
    exact h.nonneg (bound_nonneg a a he)
  · rw [sub_self, h.zero, abs_zero, min_self]
    exact h.nonneg (mul_nonneg (abs_nonneg a) he)
  · exact h.mono _ _ (mul_le_mul_of_nonneg_right (le_trans (min_le_left _ _) (le_max_left _ _)) he)

theorem less_lt {rnd : Rat → Rat} (h : Rounding rnd) {a b e : Rat} (he : 0 ≤ e) (hl : definitelyLess rnd a b e) : a < b := by
  by_contra hn
  have h1 : rnd (b - a) ≤ rnd 0 := h.mono _ _ (by linarith)
  have h2 := h.nonneg (bound_nonneg a b he)
  rw [h.zero] at h1
  unfold definitelyLess at hl
  linarith

/-- C226: a number that is definitely less than another one is less than it, and the relation is a strict order. -/
theorem C226_order {rnd : Rat → Rat} (h : Rounding rnd) (a b c e : Rat) (he : 0 ≤ e) :
    (definitelyLess rnd a b e → a < b) ∧ (definitelyGreater rnd a b e → b < a) ∧ ¬ definitelyLess rnd a a e ∧
    (definitelyLess rnd a b e → definitelyLess rnd b c e → definitelyLess rnd a c e) := by
  refine ⟨less_lt h he, less_lt h he, fun hc => lt_irrefl a (less_lt h he hc), fun h1 h2 => ?_⟩
  have l1 := less_lt h he h1
  have l2 := less_lt h he h2
  unfold definitelyLess at *
  rcases le_total |a| |c| with hac | hac
  · rw [max_eq_right hac]
    have m1 : rnd (c - b) ≤ rnd (c - a) := h.mono _ _ (by linarith)
    have m2 : rnd (|c| * e) ≤ rnd (max |b| |c| * e) := h.mono _ _ (mul_le_mul_of_nonneg_right (le_max_right _ _) he)
    linarith
  · rw [max_eq_left hac]
    have m1 : rnd (b - a) ≤ rnd (c - a) := h.mono _ _ (by linarith)
    have m2 : rnd (|a| * e) ≤ rnd (max |a| |b| * e) := h.mono _ _ (mul_le_mul_of_nonneg_right (le_max_left _ _) he)
    linarith

/-- C226: with a greater tolerance, more numbers are equal, and fewer are definitely less. -/
theorem C226_tolerance {rnd : Rat → Rat} (h : Rounding rnd) (a b e f : Rat) (hef : e ≤ f) :
    (approximatelyEqual rnd a b e → approximatelyEqual rnd a b f) ∧ (essentiallyEqual rnd a b e → essentiallyEqual rnd a b f) ∧
    (definitelyLess rnd a b f → definitelyLess rnd a b e) := by
  have m1 : rnd (max |a| |b| * e) ≤ rnd (max |a| |b| * f) :=
    h.mono _ _ (mul_le_mul_of_nonneg_left hef (le_trans (abs_nonneg a) (le_max_left _ _)))
  have m2 : rnd (min |a| |b| * e) ≤ rnd (min |a| |b| * f) := h.mono _ _ (mul_le_mul_of_nonneg_left hef (le_min (abs_nonneg a) (abs_nonneg b)))
  exact ⟨fun hc => le_trans hc m1, fun hc => le_trans hc m2, fun hc => lt_of_le_of_lt m1 hc⟩

/-- C226: in the absence of rounding, the relations have their documented meanings. -/
theorem C226_exact (a b e : Rat) (he : 0 ≤ e) :
    (approximatelyEqual id a b e ↔ |a - b| ≤ |a| * e ∨ |a - b| ≤ |b| * e) ∧
    (essentiallyEqual id a b e ↔ |a - b| ≤ |a| * e ∧ |a - b| ≤ |b| * e) ∧
    (definitelyLess id a b e ↔ b - a > |a| * e ∧ b - a > |b| * e) ∧
    (definitelyGreater id a b e ↔ a - b > |a| * e ∧ a - b > |b| * e) := by
  have hM : max |a| |b| * e = max (|a| * e) (|b| * e) := max_mul_of_nonneg _ _ he
  have hm : min |a| |b| * e = min (|a| * e) (|b| * e) := min_mul_of_nonneg _ _ he
  unfold definitelyGreater definitelyLess approximatelyEqual essentiallyEqual
  rw [max_comm |b| |a|, hM, hm]
  simp only [id, le_max_iff, le_min_iff, gt_iff_lt, max_lt_iff, and_self]

/-- C226: in the absence of rounding, the relations do not depend on the unit of measurement. -/
theorem C226_scale (k a b e : Rat) (hk : 0 < k) :
    (approximatelyEqual id (k * a) (k * b) e ↔ approximatelyEqual id a b e) ∧
    (essentiallyEqual id (k * a) (k * b) e ↔ essentiallyEqual id a b e) ∧
    (definitelyLess id (k * a) (k * b) e ↔ definitelyLess id a b e) := by
  have habs : ∀ x : Rat, |k * x| = k * |x| := fun x => by rw [abs_mul, abs_of_pos hk]
  unfold definitelyLess approximatelyEqual essentiallyEqual
  simp only [id, gt_iff_lt]
  rw [← mul_sub, ← mul_sub, habs, habs, habs, ← mul_max_of_nonneg _ _ hk.le, ← mul_min_of_nonneg _ _ hk.le, mul_assoc, mul_assoc]
  exact ⟨mul_le_mul_iff_right₀ hk, mul_le_mul_iff_right₀ hk, mul_lt_mul_iff_right₀ hk⟩

/-- Approximate equality is not transitive. -/
theorem C226_not_transitive :
    approximatelyEqual id 8 9 (1 / 8) ∧ approximatelyEqual id 9 10 (1 / 8) ∧ ¬ approximatelyEqual id 8 10 (1 / 8) := by
  unfold approximatelyEqual
  simp only [id]
  norm_num [abs_of_pos, abs_of_neg, max_def]

example : Rounding id := ⟨fun _ _ h => h, fun _ => rfl⟩
example : approximatelyEqual id 8 9 (1 / 9) ∧ ¬ essentiallyEqual id 8 9 (1 / 9) ∧ definitelyLess id 8 9 (1 / 10) := by
  unfold approximatelyEqual essentiallyEqual definitelyLess
  simp only [id]
  norm_num [abs_of_pos, abs_of_neg, max_def, min_def]

end Verif.InexactCompare
