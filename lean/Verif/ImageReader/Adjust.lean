import Verif.ImageReader.Spec
import Verif.ImageIter.Props
import Verif.Integer.Div
/-!
Adjustment of coordinates.
-/
namespace Verif.ImageReader
open Verif.Integer Verif.PixelBox Verif.ImageIter Spec

/-- What holds when a coordinate is adjusted: the new position of the read box `p`, the position `q` and the size `s` of the progenitor
sub-box. -/
structure Adjusted (I : Nat) (mode : Mode) (size pos len p q s : Int) : Prop where
  q0 : 0 ≤ q
  q1 : q < size
  s0 : 0 < s
  s1 : s ≤ size
  d0 : p ≤ q
  d1 : q - p + s ≤ len
  pr : -2 ^ I < p ∧ p < 2 ^ I
  /-- Inside -/
  inside : ∀ t : Int, q - p ≤ t → t < q - p + s → seen mode size (pos + t) = some (if p + t < size then p + t else p + t - size)
  /-- Outside -/
  bg : mode = .background → ∀ t : Int, 0 ≤ t → t < len → (t < q - p ∨ q - p + s ≤ t) → seen mode size (pos + t) = none
  edge1 : mode = .edge → ∀ t : Int, 0 ≤ t → t < q - p → seen mode size (pos + t) = seen mode size (pos + (q - p))
  edge2 : mode = .edge → ∀ t : Int, q - p + s ≤ t → t < len → seen mode size (pos + t) = seen mode size (pos + (q - p + s - 1))
  rep1 : mode = .repeat → 0 < q - p → s = size ∧ q - p ≤ size
  rep2 : mode = .repeat → q - p + s < len → s = size
  split : size < q + s → p = q

theorem seen_repeat {size v : Int} (k : Int) : seen .repeat size (v + size * k) = seen .repeat size v := by
  simp only [seen, Int.add_mul_emod_self_left]

theorem background_spec {I : Nat} {size pos len : Int} (hs0 : 0 < size) (hs1 : size < 2 ^ I) (hl0 : 0 < len) (hl1 : len < 2 ^ I)
    (hp0 : -2 ^ I ≤ pos) (hp1 : pos + len < 2 ^ I) :
    (adjustBackground I size pos len = some none ∧ ∀ t : Int, 0 ≤ t → t < len → seen .background size (pos + t) = none) ∨
    ∃ p q s : Int, adjustBackground I size pos len = some (some (p, q, s)) ∧ Adjusted I .background size pos len p q s := by
  have build : ∀ q s : Int, 0 ≤ q → 0 < s → pos ≤ q → q - pos + s ≤ len → q + s ≤ size → -2 ^ I < pos →
      (∀ t : Int, 0 ≤ t → t < len → (t < q - pos ∨ q - pos + s ≤ t) → pos + t < 0 ∨ size ≤ pos + t) →
      Adjusted I .background size pos len pos q s := by
    intro q s h1 h2 h3 h4 h5 h6 h7
    refine ⟨h1, by omega, h2, by omega, h3, h4, by omega, ?_, ?_, by simp, by simp, by simp, by simp, by omega⟩
    · intro t k1 k2
      rw [if_pos (by omega)]
      simp only [seen]
      rw [if_pos (by omega)]
    · intro _ t k1 k2 k3
      have := h7 t k1 k2 k3
      simp only [seen]
      rw [if_neg (by omega)]
  have nothing : (∀ t : Int, 0 ≤ t → t < len → pos + t < 0 ∨ size ≤ pos + t) →
      ∀ t : Int, 0 ≤ t → t < len → seen .background size (pos + t) = none := by
    intro h t k1 k2
    have := h t k1 k2
    simp only [seen]
    rw [if_neg (by omega)]
  unfold adjustBackground
  by_cases c1 : pos ≥ 0
  · rw [if_pos c1]
    by_cases c2 : pos < size
    · rw [if_pos c2, sub_ok (by omega) (by omega)]
      simp only [Option.bind_eq_bind, Option.bind_some]
      by_cases c3 : len ≤ size - pos
      · rw [if_pos c3]
        exact Or.inr ⟨_, _, _, rfl, build _ _ (by omega) (by omega) (by omega) (by omega) (by omega) (by omega) (by omega)⟩
      · rw [if_neg c3]
        exact Or.inr ⟨_, _, _, rfl, build _ _ (by omega) (by omega) (by omega) (by omega) (by omega) (by omega) (by omega)⟩
    · rw [if_neg c2]
      exact Or.inl ⟨rfl, nothing (by omega)⟩
  · rw [if_neg c1, sub_ok (by omega) (by omega)]
    simp only [Option.bind_eq_bind, Option.bind_some]
    by_cases c2 : pos > 0 - len
    · rw [if_pos c2, add_ok (by omega) (by omega)]
      simp only [Option.bind_some]
      by_cases c3 : pos + len ≤ size
      · rw [if_pos c3]
        exact Or.inr ⟨_, _, _, rfl, build _ _ (by omega) (by omega) (by omega) (by omega) (by omega) (by omega) (by omega)⟩
      · rw [if_neg c3]
        exact Or.inr ⟨_, _, _, rfl, build _ _ (by omega) (by omega) (by omega) (by omega) (by omega) (by omega) (by omega)⟩
    · rw [if_neg c2]
      exact Or.inl ⟨rfl, nothing (by omega)⟩

theorem edge_spec {I : Nat} {size pos len : Int} (hs0 : 0 < size) (hs1 : size < 2 ^ I) (hl0 : 0 < len) (hl1 : len < 2 ^ I)
    (hp0 : -2 ^ I ≤ pos) (hp1 : pos + len < 2 ^ I) :
    ∃ p q s : Int, adjustEdge I size pos len = some (some (p, q, s)) ∧ Adjusted I .edge size pos len p q s := by
  have h2 : (0 : Int) < 2 ^ I := by positivity
  have build : ∀ p q s : Int, 0 ≤ q → 0 < s → p ≤ q → q - p + s ≤ len → q + s ≤ size → -2 ^ I < p ∧ p < 2 ^ I →
      (∀ t : Int, q - p ≤ t → t < q - p + s → (pos + t = p + t ∨ (q = 0 ∧ s = 1 ∧ pos + t ≤ 0) ∨ (q = size - 1 ∧ s = 1 ∧ size - 1 ≤ pos + t))) →
      (∀ t : Int, 0 ≤ t → t < q - p → pos + t ≤ 0 ∧ q = 0) →
      (∀ t : Int, q - p + s ≤ t → t < len → size - 1 ≤ pos + t ∧ q + s = size) →
      Adjusted I .edge size pos len p q s := by
    intro p q s h1 h2 h3 h4 h5 h6 h7 h8 h9
    have hin : ∀ t : Int, q - p ≤ t → t < q - p + s → seen .edge size (pos + t) = some (p + t) := by
      intro t k1 k2
      have := h7 t k1 k2
      simp only [seen, Option.some.injEq]
      omega
    refine ⟨h1, by omega, h2, by omega, h3, h4, h6, ?_, by simp, ?_, ?_, by simp, by simp, by omega⟩
    · intro t k1 k2
      rw [hin t k1 k2, if_pos (by omega)]
    · intro _ t k1 k2
      rw [hin _ (le_refl _) (by omega)]
      have := h8 t k1 k2
      simp only [seen, Option.some.injEq]
      omega
    · intro _ t k1 k2
      rw [hin (q - p + s - 1) (by omega) (by omega)]
      have := h9 t k1 k2
      simp only [seen, Option.some.injEq]
      omega
  unfold adjustEdge
  by_cases c1 : pos ≥ 0
  · rw [if_pos c1]
    by_cases c2 : pos < size
    · rw [if_pos c2, sub_ok (by omega) (by omega)]
      simp only [Option.bind_eq_bind, Option.bind_some]
      by_cases c3 : len ≤ size - pos
      · rw [if_pos c3]
        exact ⟨_, _, _, rfl, build _ _ _ (by omega) (by omega) (by omega) (by omega) (by omega) (by omega) (by omega) (by omega) (by omega)⟩
      · rw [if_neg c3]
        exact ⟨_, _, _, rfl, build _ _ _ (by omega) (by omega) (by omega) (by omega) (by omega) (by omega) (by omega) (by omega) (by omega)⟩
    · rw [if_neg c2, sub_ok (by omega) (by omega)]
      exact ⟨_, _, _, rfl, build _ _ _ (by omega) (by omega) (by omega) (by omega) (by omega) (by omega) (by omega) (by omega) (by omega)⟩
  · rw [if_neg c1, sub_ok (by omega) (by omega)]
    simp only [Option.bind_eq_bind, Option.bind_some]
    by_cases c2 : pos > 0 - len
    · rw [if_pos c2, add_ok (by omega) (by omega)]
      simp only [Option.bind_some]
      by_cases c3 : pos + len ≤ size
      · rw [if_pos c3]
        exact ⟨_, _, _, rfl, build _ _ _ (by omega) (by omega) (by omega) (by omega) (by omega) (by omega) (by omega) (by omega) (by omega)⟩
      · rw [if_neg c3]
        exact ⟨_, _, _, rfl, build _ _ _ (by omega) (by omega) (by omega) (by omega) (by omega) (by omega) (by omega) (by omega) (by omega)⟩
    · rw [if_neg c2, sub_ok (by omega) (by omega)]
      exact ⟨_, _, _, rfl, build _ _ _ (by omega) (by omega) (by omega) (by omega) (by omega) (by omega) (by omega) (by omega) (by omega)⟩

theorem repeat_spec {I : Nat} {size pos len : Int} (hs0 : 0 < size) (hs1 : size < 2 ^ I) (hl0 : 0 < len) (hl1 : len < 2 ^ I)
    (hp0 : -2 ^ I ≤ pos) (hp1 : pos + len < 2 ^ I) :
    ∃ p q s : Int, adjustRepeat I size pos len = some (some (p, q, s)) ∧ Adjusted I .repeat size pos len p q s := by
  have h2 : (0 : Int) < 2 ^ I := by positivity
  obtain ⟨rem, e, hd, hr⟩ := periodicMod_spec I (intTy I) (intTy I) pos size (by unfold intTy; rw [In_s]; omega) (by unfold intTy; rw [In_s]; omega) (by omega)
  have hrem : 0 ≤ rem ∧ rem < size := by omega
  have build : ∀ p q s : Int, size ∣ pos - p → 0 ≤ q → q < size → 0 < s → s ≤ size → p ≤ q → q - p + s ≤ len → -2 ^ I < p ∧ p < 2 ^ I →
      (0 < q - p → s = size ∧ q - p ≤ size) → (q - p + s < len → s = size) → (size < q + s → p = q) →
      Adjusted I .repeat size pos len p q s := by
    intro p q s h0 h1 h1' h2 h2' h3 h4 h6 h7 h8 h9
    refine ⟨h1, h1', h2, h2', h3, h4, h6, ?_, by simp, by simp, by simp, fun _ => h7, fun _ => h8, h9⟩
    intro t k1 k2
    obtain ⟨k, hk⟩ := h0
    have e1 : pos + t = (p + t) + size * k := by omega
    rw [e1, seen_repeat]
    simp only [seen, Option.some.injEq]
    split
    · rw [Int.emod_eq_of_lt (by omega) (by omega)]
    · have : p + t = (p + t - size) + size * 1 := by ring
      rw [this, Int.add_mul_emod_self_left, Int.emod_eq_of_lt (by omega) (by omega)]
      ring
  unfold adjustRepeat
  rw [e]
  simp only [Option.bind_eq_bind, Option.bind_some]
  rw [sub_ok (by omega) (by omega)]
  simp only [Option.bind_some]
  by_cases c1 : len ≤ size - rem
  · rw [if_pos c1]
    exact ⟨_, _, _, rfl, build _ _ _ hd (by omega) (by omega) (by omega) (by omega) (by omega) (by omega) (by omega) (by omega) (by omega) (by omega)⟩
  · rw [if_neg c1, sub_ok (by omega) (by omega)]
    simp only [Option.bind_some]
    by_cases c2 : len - (size - rem) ≥ size
    · rw [if_pos c2, sub_ok (by omega) (by omega)]
      refine ⟨_, _, _, rfl, build _ _ _ ?_ (by omega) (by omega) (by omega) (by omega) (by omega) (by omega) (by omega) (by omega) (by omega) (by omega)⟩
      have : pos - (rem - size) = (pos - rem) + size := by ring
      rw [this]; exact Int.dvd_add hd (Int.dvd_refl _)
    · rw [if_neg c2]
      exact ⟨_, _, _, rfl, build _ _ _ hd (by omega) (by omega) (by omega) (by omega) (by omega) (by omega) (by omega) (by omega) (by omega) (by omega)⟩

theorem adjust_spec {I : Nat} {mode : Mode} {size pos len : Int} (hs0 : 0 < size) (hs1 : size < 2 ^ I) (hl0 : 0 < len) (hl1 : len < 2 ^ I)
    (hp0 : -2 ^ I ≤ pos) (hp1 : pos + len < 2 ^ I) :
    (adjust I mode size pos len = some none ∧ ∀ t : Int, 0 ≤ t → t < len → seen mode size (pos + t) = none) ∨
    ∃ p q s : Int, adjust I mode size pos len = some (some (p, q, s)) ∧ Adjusted I mode size pos len p q s := by
  unfold adjust
  rw [if_pos ⟨hs0, hl0⟩]
  cases mode with
  | background => exact background_spec hs0 hs1 hl0 hl1 hp0 hp1
  | edge => exact Or.inr (edge_spec hs0 hs1 hl0 hl1 hp0 hp1)
  | «repeat» => exact Or.inr (repeat_spec hs0 hs1 hl0 hl1 hp0 hp1)

end Verif.ImageReader
