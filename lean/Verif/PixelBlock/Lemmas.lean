import Verif.PixelBlock.Model
import Verif.PixelBlock.Spec
import Verif.ImageIter.Props
import Verif.Integer.Props
import Mathlib.Tactic.Ring
import Mathlib.Tactic.Linarith
/-!
Lemmas about blocks of pixels.
-/
namespace Verif.PixelBlock
open Verif.Integer Verif.PixelBox Verif.ImageIter Verif.ImageIter.Spec Spec
open Verif.Integer.Spec (Fits)

theorem fits_ptrdiff {D : Nat} {x : Int} : Fits (ptrdiffTy D) x ↔ -2 ^ D ≤ x ∧ x < 2 ^ D := by simp [Fits, ptrdiffTy]
theorem fits_size {S : Nat} {x : Int} : Fits (sizeTy S) x ↔ 0 ≤ x ∧ x < 2 ^ S := by simp [Fits, sizeTy]
theorem fits_int {I : Nat} {x : Int} : Fits (intTy I) x ↔ -2 ^ I ≤ x ∧ x < 2 ^ I := by simp [Fits, intTy]

theorem intMul_eq {I : Nat} {L R : Ty} {x y : Int} (hx : Fits L x) (hy : Fits R y) :
    intMul I L R x y = some (if Fits L (x * y) then .ok (x * y) else .error .overflow) := by
  unfold intMul
  rw [C20_mul I L R x y hx hy]
  unfold Integer.Spec.checked
  by_cases h : Fits L (x * y)
  · rw [if_pos h, if_pos h]; rfl
  · rw [if_neg h, if_neg h]; rfl

theorem intCast_eq {I : Nat} {T F : Ty} {x : Int} (hx : Fits F x) :
    intCast I T F x = if Fits T x then .ok x else .error .overflow := by
  unfold intCast
  rw [(C21_cast I T F x hx).2]
  by_cases h : Fits T x
  · rw [if_pos h, if_pos h]
  · rw [if_neg h, if_neg h]

theorem determine_eq {I D S n : Nat} {w h : Int} (hD : 1 ≤ D) (hn : Fits (intTy I) n) (hw : Fits (intTy I) w) (hh : Fits (intTy I) h) :
    determineBufferSize I D S n w h =
      some (if (Fits (ptrdiffTy D) n ∧ Fits (ptrdiffTy D) (n * w) ∧ Fits (ptrdiffTy D) (n * w * h)) ∧ Fits (sizeTy S) (n * w * h)
        then .ok (n * w * h) else .error .overflow) := by
  have h1 : Fits (ptrdiffTy D) 1 := by
    rw [fits_ptrdiff]
    have : (2 : Int) ^ 1 ≤ 2 ^ D := pow_le_pow_right₀ (by decide) hD
    omega
  unfold determineBufferSize
  rw [intMul_eq h1 hn, one_mul]
  by_cases k1 : Fits (ptrdiffTy D) n
  · rw [if_pos k1]; simp only [andThen]
    rw [intMul_eq k1 hw]
    by_cases k2 : Fits (ptrdiffTy D) (n * w)
    · rw [if_pos k2]; simp only [andThen]
      rw [intMul_eq k2 hh]
      by_cases k3 : Fits (ptrdiffTy D) (n * w * h)
      · rw [if_pos k3]; simp only [andThen]
        rw [intCast_eq k3]
        by_cases k4 : Fits (sizeTy S) (n * w * h)
        · rw [if_pos k4, if_pos ⟨⟨k1, k2, k3⟩, k4⟩]
        · rw [if_neg k4, if_neg fun h => k4 h.2]
      · rw [if_neg k3, if_neg fun h => k3 h.1.2.2]
    · rw [if_neg k2, if_neg fun h => k2 h.1.2.1]
  · rw [if_neg k1, if_neg fun h => k1 h.1.1]; rfl

/-- For sizes that are not negative. -/
theorem determine_nonneg {I D S n : Nat} {w h : Int} (hD : 1 ≤ D) (hS : D ≤ S) (hn : (n : Int) < 2 ^ I) (hnD : (n : Int) < 2 ^ D)
    (hw0 : 0 ≤ w) (hh0 : 0 ≤ h) (hw : w < 2 ^ I) (hh : h < 2 ^ I) :
    determineBufferSize I D S n w h =
      some (if n * w < 2 ^ D ∧ n * w * h < 2 ^ D then .ok (n * w * h) else .error .overflow) := by
  have hp : (0 : Int) < 2 ^ I := by positivity
  have hpD : (0 : Int) < 2 ^ D := by positivity
  have hle : (2 : Int) ^ D ≤ 2 ^ S := pow_le_pow_right₀ (by decide) hS
  have p1 : 0 ≤ (n : Int) * w := mul_nonneg (by omega) hw0
  have p2 : 0 ≤ (n : Int) * w * h := mul_nonneg p1 hh0
  rw [determine_eq hD (fits_int.mpr (by omega)) (fits_int.mpr (by omega)) (fits_int.mpr (by omega))]
  congr 1
  simp only [fits_ptrdiff, fits_size]
  apply if_congr _ rfl rfl
  constructor
  · rintro ⟨⟨-, h2, h3⟩, -⟩; exact ⟨h2.2, h3.2⟩
  · rintro ⟨h2, h3⟩; exact ⟨⟨by omega, by omega, by omega⟩, by omega⟩

theorem cast_fits {t : Ty} {x : Int} (h : Fits t x) : Integer.cast t x = x := by
  obtain ⟨s, b⟩ := t
  unfold Integer.cast
  cases s
  · simp only [Fits, Bool.false_eq_true, if_false] at h ⊢
    exact Int.emod_eq_of_lt h.1 h.2
  · simp only [Fits, if_true] at h ⊢
    rw [Int.emod_eq_of_lt (by omega) (by rw [pow_succ]; omega)]; omega

theorem tray_eq {I D n : Nat} {b : Block} (hn : Fits (ptrdiffTy D) n) (hw : Fits (ptrdiffTy D) (n * b.w)) :
    b.tray I D n = some ⟨⟨b.data, n, n * b.w⟩, b.w, b.h⟩ := by
  unfold Block.tray
  have hc : Integer.cast (ptrdiffTy D) (n : Int) = n := cast_fits hn
  have ha : arith I (ptrdiffTy D) (b.w * n) = some (n * b.w) := by
    rw [mul_comm]
    have hw' := fits_ptrdiff.mp hw
    unfold arith promote
    by_cases hp : (ptrdiffTy D).bits ≤ I
    · rw [if_pos hp]
      have hle : (2 : Int) ^ D ≤ 2 ^ I := pow_le_pow_right₀ (by decide) hp
      simp only [intTy, if_true, Ty.In, Ty.min, Ty.max]
      rw [if_pos (by omega)]
    · rw [if_neg hp]
      simp only [ptrdiffTy, if_true, Ty.In, Ty.min, Ty.max]
      rw [if_pos (by omega)]
  rw [hc]
  simp only [ha, Option.bind_eq_bind, Option.bind_some]
  rw [cast_fits hw]

theorem addr_index (n : Nat) (w data x y : Int) (c : Nat) : addr ⟨data, n, n * w⟩ x y c = data + index n w x y c := by
  simp only [addr, index]; ring

/-- Items in the array are in the buffer. -/
theorem index_range {n : Nat} {w h x y : Int} {c : Nat} (hp : InArray w h x y) (hc : c < n) :
    0 ≤ index n w x y c ∧ index n w x y c < n * w * h := by
  obtain ⟨h1, h2, h3, h4⟩ := hp
  simp only [index]
  have e1 : 0 ≤ y * w := mul_nonneg h3 (by omega)
  have e2 : (y + 1) * w ≤ h * w := mul_le_mul_of_nonneg_right (by omega) (by omega)
  have e3 : (y * w + x + 1) * n ≤ (h * w) * n := mul_le_mul_of_nonneg_right (by linarith) (by omega)
  have e4 : 0 ≤ (y * w + x) * n := mul_nonneg (by omega) (by omega)
  constructor
  · omega
  · have : (n : Int) * w * h = h * w * n := by ring
    have : (y * w + x + 1) * n = (y * w + x) * n + n := by ring
    omega

/-- The pixels of a block are distinct. -/
theorem block_grid {α : Type} {n : Nat} {b : Block} {m : Mem α}
    (hm : ∀ i : Int, 0 ≤ i → i < n * b.w * b.h → m (b.data + i) ≠ none) : Grid ⟨b.data, n, n * b.w⟩ n ⟨0, 0, b.w, b.h⟩ m := by
  apply C91_layout _ _ _ _ _ _ _ le_rfl (by rw [mul_comm])
  intro a h1 h2
  have := hm (a - b.data) (by omega) (by rw [mul_comm b.h] at h2; omega)
  rwa [show b.data + (a - b.data) = a by omega] at this

theorem pixel_iff {w h x y : Int} : PixelBox.Spec.Pixel ⟨0, 0, w, h⟩ x y ↔ InArray w h x y := by
  simp only [PixelBox.Spec.Pixel, InArray]; omega

end Verif.PixelBlock
