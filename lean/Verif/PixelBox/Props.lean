import Verif.PixelBox.Spec
import Verif.Integer.Props
/-!
Property C48: /repo/src/archon/util/pixel_box.hpp.
-/
namespace Verif.PixelBox
open Verif.Integer

instance (I : Nat) (v : Int) : Decidable (Spec.Rep I v) := by unfold Spec.Rep; infer_instance
instance (I : Nat) (b : Box) : Decidable (Spec.Valid I b) := by unfold Spec.Valid; infer_instance

theorem rep_iff {I : Nat} {v : Int} : (intTy I).In v ↔ Spec.Rep I v := by
  unfold intTy Spec.Rep; rw [In_s]

theorem sub_eq (I : Nat) (a b : Int) :
    sub I a b = if -2 ^ I ≤ a - b ∧ a - b ≤ 2 ^ I - 1 then some (a - b) else none := by
  unfold sub arith
  have hp : promote I (intTy I) = intTy I := by unfold promote intTy; simp
  rw [hp]
  unfold intTy
  simp only [if_true, In_s]

theorem bind_sub {I : Nat} {a b : Int} {f : Int → Option α} (h1 : -2 ^ I ≤ a - b) (h2 : a - b ≤ 2 ^ I - 1) :
    (sub I a b >>= f) = f (a - b) := by
  rw [sub_eq, if_pos ⟨h1, h2⟩]; rfl

theorem bind_sub_none {I : Nat} {a b : Int} {f : Int → Option α} (h : ¬ (-2 ^ I ≤ a - b ∧ a - b ≤ 2 ^ I - 1)) :
    (sub I a b >>= f) = none := by
  rw [sub_eq, if_neg h]; rfl

theorem some_decide {p q : Prop} [Decidable p] [Decidable q] (h : p ↔ q) : some (decide p) = some (decide q) := by
  simp [h]

theorem intersectsAxis_eq {I : Nat} {p s p' s' : Int} (hs : 0 ≤ s) (hs' : 0 ≤ s') :
    intersectsAxis I p s p' s' =
      if |p - p'| ≤ 2 ^ I - 1 then some (decide (p < p' + s' ∧ p' < p + s ∧ 0 < s ∧ 0 < s')) else none := by
  have hp := p_pos I
  unfold intersectsAxis
  rcases abs_cases (p - p') with ⟨h1, h2⟩ | ⟨h1, h2⟩ <;> rw [h1]
  · rw [if_neg (by omega)]
    by_cases h : p - p' ≤ 2 ^ I - 1
    · rw [if_pos h, bind_sub (by omega) h]
      exact some_decide (by omega)
    · rw [if_neg h, bind_sub_none (fun h' => h h'.2)]
  · rw [if_pos (by omega)]
    by_cases h : -(p - p') ≤ 2 ^ I - 1
    · rw [if_pos h, bind_sub (by omega) (by omega)]
      exact some_decide (by omega)
    · rw [if_neg h, bind_sub_none (fun h' => h (by omega))]

theorem containsAxis_eq {I : Nat} {p s p' s' : Int} (hs' : 0 ≤ s') (hr : Spec.Rep I s)
    (hnear : |p - p'| ≤ 2 ^ I - 1) :
    containsAxis I p s p' s' = some (decide (p ≤ p' ∧ p' + s' ≤ p + s)) := by
  have hp := p_pos I
  unfold Spec.Rep at hr
  unfold containsAxis
  have h1 := neg_abs_le (p - p')
  by_cases h : p' ≥ p ∧ s' ≤ s
  · rw [if_pos h, bind_sub (by omega) (by omega), bind_sub (by omega) (by omega)]
    exact some_decide (by omega)
  · rw [if_neg h]
    have : ¬ (p ≤ p' ∧ p' + s' ≤ p + s) := by omega
    simp [this]

theorem clipAxis_eq {I : Nat} {p s p' s' : Int} (hs : 0 ≤ s) (hs' : 0 ≤ s') (hr : Spec.Rep I s) (hr' : Spec.Rep I s')
    (hnear : |p - p'| ≤ 2 ^ I - 1) :
    clipAxis I p s p' s' = some (if p < p' + s' ∧ p' < p + s ∧ 0 < s ∧ 0 < s' then
      some (max p p', min (p + s) (p' + s') - max p p') else none) := by
  have hp := p_pos I
  unfold Spec.Rep at hr hr'
  unfold clipAxis
  have h1 := neg_abs_le (p - p')
  have h2 := le_abs_self (p - p')
  by_cases h : p' ≥ p
  · rw [if_pos h, bind_sub (by omega) (by omega), bind_sub (by omega) (by omega)]
    by_cases h3 : s - (p' - p) ≤ 0 ∨ s' ≤ 0
    · rw [if_pos h3, if_neg (by omega)]
    · rw [if_neg h3, if_pos (by omega)]
      congr 3 <;> omega
  · rw [if_neg h, bind_sub (by omega) (by omega), bind_sub (by omega) (by omega)]
    by_cases h3 : s' - (p - p') ≤ 0 ∨ s ≤ 0
    · rw [if_pos h3, if_neg (by omega)]
    · rw [if_neg h3, if_pos (by omega)]
      congr 3 <;> omega

theorem pixel_common (a b : Box) : (∃ px py, Spec.Pixel a px py ∧ Spec.Pixel b px py) ↔
    (a.x < b.x + b.w ∧ b.x < a.x + a.w ∧ 0 < a.w ∧ 0 < b.w) ∧
    (a.y < b.y + b.h ∧ b.y < a.y + a.h ∧ 0 < a.h ∧ 0 < b.h) := by
  unfold Spec.Pixel
  constructor
  · rintro ⟨px, py, h⟩; omega
  · intro h; exact ⟨max a.x b.x, max a.y b.y, by omega⟩

/-- C48: whether two valid boxes intersect, in the sense that they have a pixel in common. The behavior is undefined
exactly if the boxes are too far apart. -/
theorem C48_intersects (I : Nat) (a b : Box) (ha : Spec.Valid I a) (hb : Spec.Valid I b) :
    (Spec.Near I a b → ∃ r, a.intersects I b = some r ∧
      (r = true ↔ ∃ px py, Spec.Pixel a px py ∧ Spec.Pixel b px py)) ∧
    (¬ Spec.Near I a b → a.intersects I b = none) := by
  unfold Box.intersects
  rw [intersectsAxis_eq ha.1 hb.1, intersectsAxis_eq ha.2.1 hb.2.1]
  constructor
  · intro h
    rw [if_pos h.1, if_pos h.2]
    refine ⟨_, rfl, ?_⟩
    rw [pixel_common]
    simp only [Bool.and_eq_true, decide_eq_true_eq]
  · intro h
    by_cases h1 : |a.x - b.x| ≤ 2 ^ I - 1
    · rw [if_pos h1, if_neg (fun h2 => h ⟨h1, h2⟩)]; rfl
    · rw [if_neg h1]; rfl

theorem contains_eq {I : Nat} {a b : Box} (hb : 0 ≤ b.w ∧ 0 ≤ b.h) (hr : Spec.Exists I a)
    (hn : Spec.Near I a b) :
    ∃ r, a.contains I b = some r ∧
      (r = true ↔ (a.x ≤ b.x ∧ b.x + b.w ≤ a.x + a.w) ∧ (a.y ≤ b.y ∧ b.y + b.h ≤ a.y + a.h)) := by
  unfold Box.contains
  rw [containsAxis_eq hb.1 hr.2.2.1 hn.1, containsAxis_eq hb.2 hr.2.2.2 hn.2]
  exact ⟨_, rfl, by simp⟩

/-- C48: containment of valid boxes that are not too far apart. For a box that is not empty, it is inclusion of pixels.
In any case, it is inclusion of extents. `contained_in()` is the converse. -/
theorem C48_contains (I : Nat) (a b : Box) (hea : Spec.Exists I a) (ha : Spec.Valid I a)
    (hb : Spec.Valid I b) (hn : Spec.Near I a b) :
    ∃ r, a.contains I b = some r ∧ b.containedIn I a = some r ∧
      (r = true ↔ (a.x ≤ b.x ∧ b.x + b.w ≤ a.x + a.w) ∧ (a.y ≤ b.y ∧ b.y + b.h ≤ a.y + a.h)) ∧
      (b.isEmpty = false → (r = true ↔ ∀ px py, Spec.Pixel b px py → Spec.Pixel a px py)) := by
  obtain ⟨r, h1, h2⟩ := contains_eq ⟨hb.1, hb.2.1⟩ hea hn
  refine ⟨r, h1, h1, h2, fun he => ?_⟩
  rw [h2]
  unfold Box.isEmpty at he
  simp only [decide_eq_false_iff_not] at he
  obtain ⟨hw, hh, -⟩ := hb
  unfold Spec.Pixel
  constructor
  · intro h px py h3; omega
  · intro h
    have h3 := h b.x b.y (by omega)
    have h4 := h (b.x + b.w - 1) (b.y + b.h - 1) (by omega)
    omega

/-- C48: containment of a pixel. -/
theorem C48_contains_pixel (I : Nat) (a : Box) (px py : Int) (hea : Spec.Exists I a) (ha : Spec.Valid I a)
    (hn : Spec.Near I a ⟨px, py, 1, 1⟩) :
    ∃ r, a.containsPixelAt I px py = some r ∧ (r = true ↔ Spec.Pixel a px py) := by
  obtain ⟨r, h1, h2⟩ := contains_eq (b := ⟨px, py, 1, 1⟩) (by simp) hea hn
  refine ⟨r, h1, ?_⟩
  rw [h2]
  unfold Spec.Pixel
  simp only
  omega

/-- C48: clipping of a valid box. If there is a common pixel, the result is a nonempty valid box that consists of the
common pixels. Otherwise, the box is left as it is. -/
theorem C48_clip (I : Nat) (a b : Box) (hea : Spec.Exists I a) (heb : Spec.Exists I b) (ha : Spec.Valid I a)
    (hb : Spec.Valid I b) (hn : Spec.Near I a b) :
    ∃ r b', a.clip I b = some (r, b') ∧
      (r = true ↔ ∃ px py, Spec.Pixel a px py ∧ Spec.Pixel b px py) ∧
      (r = false → b' = b) ∧
      (r = true → Spec.Valid I b' ∧ b'.isEmpty = false ∧
        ∀ px py, Spec.Pixel b' px py ↔ Spec.Pixel a px py ∧ Spec.Pixel b px py) := by
  unfold Box.clip
  rw [clipAxis_eq ha.1 hb.1 hea.2.2.1 heb.2.2.1 hn.1, clipAxis_eq ha.2.1 hb.2.1 hea.2.2.2 heb.2.2.2 hn.2, pixel_common]
  by_cases hx : a.x < b.x + b.w ∧ b.x < a.x + a.w ∧ 0 < a.w ∧ 0 < b.w
  · by_cases hy : a.y < b.y + b.h ∧ b.y < a.y + a.h ∧ 0 < a.h ∧ 0 < b.h
    · rw [if_pos hx, if_pos hy]
      refine ⟨_, _, rfl, by simp only [hx, hy, and_self], by simp, fun _ => ?_⟩
      unfold Spec.Valid Spec.Rep at *
      generalize (2 : Int) ^ I = M at *
      refine ⟨?_, ?_, ?_⟩
      · simp only; omega
      · unfold Box.isEmpty; simp only [decide_eq_false_iff_not]; omega
      · intro px py; unfold Spec.Pixel; simp only; omega
    · rw [if_pos hx, if_neg hy]
      exact ⟨_, _, rfl, by simp [hy], fun _ => rfl, by simp⟩
  · rw [if_neg hx]
    exact ⟨_, _, rfl, by simp [hx], fun _ => rfl, by simp⟩

/-- C48: the validity check is the documented condition, and a valid box is reported to be empty exactly if it has no
pixels. -/
theorem C48_valid (I : Nat) (b : Box) (hb : Spec.Exists I b) :
    (∃ r, b.isValid I = some r ∧ (r = true ↔ Spec.Valid I b)) ∧
    (Spec.Valid I b → (b.isEmpty = true ↔ ¬ ∃ px py, Spec.Pixel b px py)) := by
  constructor
  · have e : ∀ p s, Spec.Rep I p → Spec.Rep I s → canAdd I p s = some (decide (Spec.Rep I (p + s))) := by
      intro p s hp hs
      unfold canAdd
      rw [tryAdd_spec _ _ _ _ _ (rep_iff.2 hp) (rep_iff.2 hs)]
      by_cases h : Spec.Rep I (p + s)
      · rw [checked_yes (rep_iff.2 h)]; simp [h]
      · rw [checked_no (fun h' => h (rep_iff.1 h'))]; simp [h]
    unfold Box.isValid
    rw [e _ _ hb.1 hb.2.2.1, e _ _ hb.2.1 hb.2.2.2]
    unfold Spec.Valid
    by_cases h1 : b.w ≥ 0 ∧ b.h ≥ 0
    · rw [if_pos h1]
      by_cases h2 : Spec.Rep I (b.x + b.w)
      · by_cases h3 : Spec.Rep I (b.y + b.h) <;> simp [h2, h3, h1.1, h1.2]
      · simp [h2]
    · rw [if_neg h1]
      refine ⟨_, rfl, ?_⟩
      simp only [Bool.false_eq_true, false_iff]
      intro h; exact h1 ⟨h.1, h.2.1⟩
  · rintro ⟨h1, h2, -⟩
    unfold Box.isEmpty Spec.Pixel
    simp only [decide_eq_true_eq]
    constructor
    · rintro h ⟨px, py, h3⟩; omega
    · intro h
      by_contra hc
      exact h ⟨b.x, b.y, by omega⟩

-- Boxes that touch have no pixel in common.
example : Box.intersects 31 ⟨0, 0, 10, 10⟩ ⟨10, 0, 5, 5⟩ = some false ∧
    Box.intersects 31 ⟨0, 0, 10, 10⟩ ⟨9, 9, 5, 5⟩ = some true := by decide +kernel
example : Box.clip 31 ⟨0, 0, 10, 10⟩ ⟨-3, 7, 5, 5⟩ = some (true, ⟨0, 7, 2, 3⟩) ∧
    Box.clip 31 ⟨0, 0, 10, 10⟩ ⟨-3, 10, 5, 5⟩ = some (false, ⟨-3, 10, 5, 5⟩) := by decide +kernel
example : Box.contains 31 ⟨0, 0, 10, 10⟩ ⟨5, 5, 5, 5⟩ = some true ∧
    Box.contains 31 ⟨0, 0, 10, 10⟩ ⟨5, 5, 6, 5⟩ = some false ∧
    Box.contains 31 ⟨0, 0, 10, 10⟩ ⟨20, 5, 0, 5⟩ = some false := by decide +kernel
-- Both boxes are valid, but comparing them is undefined behavior.
example : Box.intersects 31 ⟨-2147483648, 0, 1, 1⟩ ⟨1, 0, 1, 1⟩ = none ∧
    Spec.Valid 31 ⟨-2147483648, 0, 1, 1⟩ ∧ Spec.Valid 31 ⟨1, 0, 1, 1⟩ := by decide +kernel
example : Box.isValid 31 ⟨2147483647, 0, 1, 1⟩ = some false ∧ Box.isValid 31 ⟨2147483646, 0, 1, 1⟩ = some true := by
  decide +kernel

end Verif.PixelBox
