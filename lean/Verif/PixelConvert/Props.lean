import Verif.PixelConvert.Main
import Mathlib.Tactic.Ring
import Mathlib.Tactic.LinearCombination
import Mathlib.Algebra.Field.Rat
/-!
C96: conversion of pixels.
-/
namespace Verif.PixelConvert
open Verif.ImageIter Spec

variable {α δ φ : Type} [DecidableEq α]

/-- What the numbers are for the examples: integers 0 to 4 stand for 0 to 1. -/
private def quarter : Repr Int Rat := ⟨false, 4, fun c => c / 4, fun c => c / 4, fun v => (v * 4).floor, fun v => (v * 4).floor⟩

private def arr (l : List α) : Mem α := fun a => if 0 ≤ a then (l[a.toNat]?).map some else none

private def blank (n : Nat) : Mem α := fun a => if 0 ≤ a ∧ a < n then some none else none

private def shown (m : Option (Mem α)) (n : Nat) : Option (List (Option (Option α))) := m.map fun m => (List.range n).map fun i => m i

private theorem quarter_ok : Lawful fieldArith quarter where
  toMax := by simp [quarter, fieldArith]
  fromOne := by decide +kernel
  mulOne := by simp [fieldArith]
  unmulOne := by simp [fieldArith]
  floatTo := by simp [quarter]
  floatFrom := by simp [quarter]

/-- C96: Conversion with possibly different color spaces. Unless both formats are integer formats, the color spaces are the same, and the
color is opaque or there is an alpha channel in the destination format, what the resulting pixel means is what the original pixel means,
moved to the other color space. In the excepted case, the components are converted one by one, and an added alpha component is the highest
value. The intermediate array needs no more components than what is documented. Assumes that there is at least one component in
each of the two formats. -/
theorem C96_convert_partial {ar : Arith φ} {R : Repr α φ} {S : Repr δ φ} (hR : Lawful ar R) (hS : Lawful ar S) (g : α → δ) {route : Route φ}
    (hk : RouteOk route) (p : Pixel α) (hp : p.color.length = route.origin.channels) (b' : Bool) {m : Mem δ} {im : Mem φ}
    (h0 : 0 < route.origin.channels + p.alpha.isSome.toNat) (h0' : 0 < route.destin.channels + b'.toNat)
    (hr : Room (route.destin.channels + b'.toNat) m)
    (hi : Room (max (route.origin.channels + p.alpha.isSome.toNat) (route.destin.channels + b'.toNat)) im) :
    ∃ m', pixelConvertA ar R S g route (fun i => p.comps[i]?) p.alpha.isSome m b' im = some m' ∧
      (R.isFloat = false → S.isFloat = false → route.isSame → (Solid R p ∨ b' = true) →
        Wrote (p.color.map g ++ if b' then [(p.alpha.map g).getD S.max] else []) m m') ∧
      (¬(R.isFloat = false ∧ S.isFloat = false ∧ route.isSame ∧ (Solid R p ∨ b' = true)) →
        Wrote (express ar S b' (moved route (p.meaning ar R))).comps m m') := by
  obtain ⟨mf, ef, wf⟩ := floatConvert_ok hR hS (g := g) hk p hp (origin := fun i => p.comps[i]?) (fun _ _ => rfl) rfl h0 h0' hr hi
  unfold pixelConvertA
  simp only [Option.bind_eq_bind]
  by_cases hf : R.isFloat = false ∧ S.isFloat = false
  · rw [if_pos hf]
    have hs : (if p.alpha.isSome then (p.comps[route.origin.channels + p.alpha.isSome.toNat - 1]?).map fun a => decide (a = R.max) else some true) =
        some (match p.alpha with | none => true | some a => decide (a = R.max)) := by
      cases ha : p.alpha with
      | none => rfl
      | some a => simp [comps_some ha, ← hp]
    rw [hs, Option.bind_some]
    have hsol : (match p.alpha with | none => true | some a => decide (a = R.max)) = true ↔ Solid R p := by
      unfold Solid
      cases ha : p.alpha <;> simp
    by_cases hc : route.isSame = true ∧ (Solid R p ∨ b' = true)
    · rw [if_pos (by simp [hc.1, hsol, hc.2])]
      obtain ⟨s, rfl⟩ : ∃ s, route = .same s := by
        cases route with
        | same s => exact ⟨s, rfl⟩
        | other => exact absurd hc.1 (by simp [Route.isSame])
      obtain ⟨m', e, w⟩ := intConvert_ok (S := S) (g := g) p (n := s.channels) hp (origin := fun i => p.comps[i]?) (fun _ _ => rfl) hr
      refine ⟨m', e, fun _ _ _ _ => ?_, fun h => absurd ⟨hf.1, hf.2, hc.1, hc.2⟩ h⟩
      cases b' <;> simpa [kept, Pixel.comps] using w
    · rw [if_neg (by simp only [Bool.and_eq_true, Bool.or_eq_true, hsol]; exact hc)]
      exact ⟨mf, ef, fun _ _ h3 h4 => absurd ⟨h3, h4⟩ hc, fun _ => wf⟩
  · rw [if_neg hf]
    exact ⟨mf, ef, fun h1 h2 => absurd ⟨h1, h2⟩ hf, fun _ => wf⟩

/-- Half transparent gray to RGB without alpha channel. -/
example : shown (pixelConvertA fieldArith quarter quarter id (.other (lum 0 1 0) rgb none) (fun i => [4, 2][i]?) true (blank 4) false (blank 3)) 4 =
    some [some (some 2), some (some 2), some (some 2), some none] := by decide +kernel

/-- C96: Conversion within a color space, with the same outcome as conversion with possibly different color spaces. -/
theorem C96_direct_partial {ar : Arith φ} {R : Repr α φ} {S : Repr δ φ} (hR : Lawful ar R) (hS : Lawful ar S) (g : α → δ) (p : Pixel α)
    (b' : Bool) {m : Mem δ} (h0 : 0 < p.color.length) (hr : Room (p.color.length + b'.toNat) m) :
    ∃ m', pixelConvert ar R S g (fun i => p.comps[i]?) p.alpha.isSome m b' p.color.length = some m' ∧
      (R.isFloat = false → S.isFloat = false → (Solid R p ∨ b' = true) →
        Wrote (p.color.map g ++ if b' then [(p.alpha.map g).getD S.max] else []) m m') ∧
      (¬(R.isFloat = false ∧ S.isFloat = false ∧ (Solid R p ∨ b' = true)) → Wrote (express ar S b' (p.meaning ar R)).comps m m') := by
  have hlen := comps_length p
  have key : ∃ m', shortConvert ar R S g (fun i => p.comps[i]?) p.alpha.isSome m b' p.color.length = some m' ∧
        Wrote (directly ar R S g b' p).comps m m' := shortConvert_ok ar R S g p h0 b' hr
  unfold pixelConvert
  simp only [Option.bind_eq_bind]
  by_cases hsh : R.isFloat = true ∨ p.alpha.isSome = false ∨ b' = true
  · rw [if_pos (by simpa [or_assoc] using hsh), Option.bind_some, if_pos rfl]
    obtain ⟨m', e, w⟩ := key
    refine ⟨m', e, fun h1 h2 h3 => ?_, fun h => ?_⟩
    · rw [directly_int hR hS g p h1 h2] at w
      cases b' <;> simpa [kept, Pixel.comps] using w
    · rwa [directly_eq hR hS g p (by
        rcases hsh with k | k | k
        · exact .inl k
        · exact .inr (.inr (.inl fun a ha => by rw [ha] at k; simp at k))
        · exact .inr (.inr (.inr k))) h] at w
  · push Not at hsh
    obtain ⟨h1, h2, h3⟩ := hsh
    simp only [Bool.not_eq_true] at h1 h3
    obtain ⟨a, ha⟩ := Option.ne_none_iff_exists'.mp (by simpa using h2)
    subst h3
    have hca := comps_some ha
    rw [if_neg (by simp [h1, ha])]
    have hget : p.comps[p.color.length]? = some a := by simp [hca]
    rw [hget, Option.map_some, Option.bind_some]
    by_cases hm : a = R.max
    · have hsol : Solid R p := by intro a' ha'; rw [ha] at ha'; cases ha'; exact hm
      rw [if_pos (by simp [hm])]
      obtain ⟨m', e, w⟩ := key
      refine ⟨m', e, fun h1 h2 h3 => ?_, fun h => ?_⟩
      · rw [directly_int hR hS g p h1 h2] at w
        simpa [kept, Pixel.comps] using w
      · rwa [directly_eq hR hS g p (.inr (.inr (.inl hsol))) h] at w
    · have hns : ¬Solid R p := fun h => hm (h a ha)
      rw [if_neg (by simp [hm])]
      obtain ⟨m', e, w⟩ := fill_wrote (f := fun i => (p.comps[i]?).map fun c => S.fromColor (ar.mul (R.toAlpha a) (R.toColor c)))
        (l := p.color.map fun c => S.fromColor (ar.mul (R.toAlpha a) (R.toColor c))) (m := m) (n := p.color.length) (by simp)
        (fun j hj => hr j (by omega)) (fun j hj => by
          show (p.comps[j]?).map _ = _
          rw [hca, List.getElem?_append_left hj, List.getElem?_map])
      refine ⟨m', ?_, fun _ _ h => ?_, fun _ => ?_⟩
      · simp only [removeAlpha, h1, hget, Option.bind_eq_bind, Option.bind_some]
        exact e
      · rcases h with h | h
        · exact absurd h hns
        · exact absurd h (by decide)
      · simpa [express, Pixel.meaning, ha, h1, Pixel.comps, Function.comp_def] using w

/-- Half transparent gray without its alpha channel. -/
example : shown (pixelConvert fieldArith quarter quarter id (fun i => [4, 2][i]?) true (blank 2) false 1) 2 = some [some (some 2), some none] := by
  decide +kernel

/-- C96: The two conversion functions produce the same pixel when the color spaces are the same. -/
theorem C96_agree_partial {ar : Arith φ} {R : Repr α φ} {S : Repr δ φ} (hR : Lawful ar R) (hS : Lawful ar S) (g : α → δ) (s : Space φ) (p : Pixel α)
    (hp : p.color.length = s.channels) (b' : Bool) {m : Mem δ} {im : Mem φ} (h0 : 0 < s.channels) (hr : Room (s.channels + b'.toNat) m)
    (hi : Room (max (s.channels + p.alpha.isSome.toNat) (s.channels + b'.toNat)) im) :
    ∃ m', pixelConvertA ar R S g (.same s) (fun i => p.comps[i]?) p.alpha.isSome m b' im = some m' ∧
      pixelConvert ar R S g (fun i => p.comps[i]?) p.alpha.isSome m b' s.channels = some m' := by
  obtain ⟨m1, e1, k1, k2⟩ := C96_convert_partial hR hS g (route := .same s) trivial p hp b' (m := m) (im := im) (Nat.add_pos_left h0 _)
    (Nat.add_pos_left h0 _) hr hi
  obtain ⟨m2, e2, l1, l2⟩ := C96_direct_partial hR hS g p b' (m := m) (by omega) (hp ▸ hr)
  rw [hp] at e2
  have : m1 = m2 := by
    by_cases h : R.isFloat = false ∧ S.isFloat = false ∧ (Solid R p ∨ b' = true)
    · funext a
      rw [k1 h.1 h.2.1 rfl h.2.2 a, l1 h.1 h.2.1 h.2.2 a]
    · funext a
      rw [k2 (fun h' => h ⟨h'.1, h'.2.1, h'.2.2.2⟩) a, l2 h a]
      rfl
  subst this
  exact ⟨m1, e1, e2⟩

/-- Both functions, to a format with alpha channel. -/
example : shown (pixelConvertA fieldArith quarter (floatRepr fieldArith) quarter.toColor (.same (lum 0 1 0)) (fun i => [4, 2][i]?) true (blank 2) true (blank 2)) 2 =
      some [some (some (1/2)), some (some (1/2))] ∧
    shown (pixelConvert fieldArith quarter (floatRepr fieldArith) quarter.toColor (fun i => [4, 2][i]?) true (blank 2) true 1) 2 =
      some [some (some (1/2)), some (some (1/2))] := by decide +kernel

/-- C96: With the same representation scheme and the same color space, the color components are unchanged, unless an alpha channel is
removed from a color that is not opaque in an integer format. The alpha component, if there is one in both formats, is also unchanged. -/
theorem C96_lossless_partial {ar : Arith φ} {R : Repr α φ} (hR : Lawful ar R) (hx : R.isFloat = true → ∀ c, R.fromColor (R.toColor c) = c)
    (s : Space φ) (p : Pixel α) (hp : p.color.length = s.channels) (b' : Bool) {m : Mem α} {im : Mem φ} (h0 : 0 < s.channels)
    (hr : Room (s.channels + b'.toNat) m) (hi : Room (max (s.channels + p.alpha.isSome.toNat) (s.channels + b'.toNat)) im)
    (hs : R.isFloat = true ∨ b' = true ∨ Solid R p) :
    ∃ m', pixelConvertA ar R R id (.same s) (fun i => p.comps[i]?) p.alpha.isSome m b' im = some m' ∧
      pixelConvert ar R R id (fun i => p.comps[i]?) p.alpha.isSome m b' s.channels = some m' ∧
      Wrote (p.color ++ if b' then [p.alpha.getD R.max] else []) m m' := by
  obtain ⟨m', e, e2⟩ := C96_agree_partial hR hR id s p hp b' h0 hr hi
  obtain ⟨m1, e1, k1, k2⟩ := C96_convert_partial hR hR id (route := .same s) trivial p hp b' (m := m) (im := im) (Nat.add_pos_left h0 _)
    (Nat.add_pos_left h0 _) hr hi
  obtain rfl : m1 = m' := by rw [e] at e1; cases e1; rfl
  refine ⟨m1, e, e2, ?_⟩
  cases hf : R.isFloat with
  | false =>
    have := k1 hf hf rfl (by rcases hs with h | h | h; · rw [hf] at h; cases h
                             · exact .inr h
                             · exact .inl h)
    simpa using this
  | true =>
    have := k2 (fun h => by rw [hf] at h; cases h.1)
    have hc : ∀ l : List α, l.map (fun c => R.fromColor (R.toColor c)) = l := by intro l; simp [hx hf]
    cases b' <;> cases ha : p.alpha <;>
      simpa [express, Pixel.meaning, moved, Pixel.comps, hf, ha, hc, Function.comp_def, hR.floatFrom hf, hR.floatTo hf, hx hf, ← hR.fromOne] using this

/-- An alpha channel is added. -/
example : shown (pixelConvertA fieldArith quarter quarter id (.same rgb) (fun i => [4, 2, 3][i]?) false (blank 4) true (blank 4)) 4 =
    some [some (some 4), some (some 2), some (some 3), some (some 4)] := by decide +kernel

/-- C96: Removal of the alpha channel from a color in an integer format that is not opaque amounts to having black behind, and it is so
with both functions. -/
theorem C96_over_black_partial [Field φ] {R : Repr α φ} {S : Repr δ φ} (hR : Lawful fieldArith R) (hS : Lawful fieldArith S) (g : α → δ) (s : Space φ)
    (c : List α) (a : α) (hp : c.length = s.channels) {m : Mem δ} {im : Mem φ} (h0 : 0 < s.channels) (hr : Room s.channels m)
    (hi : Room (s.channels + 1) im) (hf : R.isFloat = false) (ha : a ≠ R.max) :
    ∃ m', pixelConvertA fieldArith R S g (.same s) (fun i => (c ++ [a])[i]?) true m false im = some m' ∧
      pixelConvert fieldArith R S g (fun i => (c ++ [a])[i]?) true m false s.channels = some m' ∧
      Wrote ((over (R.toAlpha a) (c.map R.toColor) (List.replicate c.length 0)).map S.fromColor) m m' := by
  obtain ⟨m', e, e2⟩ := C96_agree_partial hR hS g s ⟨c, some a⟩ hp false (m := m) (im := im) h0 (by simpa using hr) (by simpa using hi)
  obtain ⟨m1, e1, _, k2⟩ := C96_convert_partial hR hS g (route := .same s) trivial ⟨c, some a⟩ hp false (m := m) (im := im) (Nat.add_pos_left h0 _)
    (Nat.add_pos_left h0 _) (by simpa [Route.destin] using hr) (by simpa [Route.destin, Route.origin] using hi)
  obtain rfl : m1 = m' := by rw [e] at e1; cases e1; rfl
  refine ⟨m1, e, e2, ?_⟩
  have := k2 (by
    rintro ⟨_, _, _, h | h⟩
    · exact ha (h a rfl)
    · cases h)
  have hl : express fieldArith S false (moved (.same s) (Pixel.meaning fieldArith R ⟨c, some a⟩)) =
      ⟨(over (R.toAlpha a) (c.map R.toColor) (List.replicate c.length 0)).map S.fromColor, none⟩ := by
    simp only [express, moved, Pixel.meaning, hf, fieldArith]
    have : (over (R.toAlpha a) (c.map R.toColor) (List.replicate c.length 0)) = c.map fun v => R.toAlpha a * R.toColor v := by
      apply List.ext_getElem
      · simp [over]
      · intro i h1 h2
        simp [over]
    rw [this]
    simp
  rw [hl] at this
  simpa [Pixel.comps] using this

/-- Color 3/4 with opacity 1/2 in front of black, rounded down. -/
example : shown (pixelConvertA fieldArith quarter quarter id (.same (lum 0 1 0)) (fun i => [3, 2][i]?) true (blank 1) false (blank 2)) 1 =
      some [some (some 1)] ∧ (over (1/2 : Rat) [3/4] [0]) = [3/8] := by decide +kernel

/-- C96: Conversion between the luminance and RGB color spaces does not depend on the opacity: converting a color that is multiplied by
opacity gives the converted color multiplied by the opacity. -/
theorem C96_opacity {φ : Type} [Field φ] (wr wg wb : φ) (o d : Space φ) (ho : o ∈ [rgb, lum wr wg wb]) (hd : d ∈ [rgb, lum wr wg wb]) (c : List φ)
    (hc : c.length = o.channels) (a : φ) :
    (moved (.other o d none) (c.map (a * ·), a)).1 = (moved (.other o d none) (c, 1)).1.map (a * ·) := by
  simp only [List.mem_cons, List.not_mem_nil, or_false] at ho hd
  rcases ho with rfl | rfl <;> rcases hd with rfl | rfl
  · simp [moved, rgb, List.map_take]
  · obtain ⟨x, y, z, rfl⟩ : ∃ x y z, c = [x, y, z] := by
      match c, hc with
      | [x, y, z], _ => exact ⟨x, y, z, rfl⟩
    simp only [moved, rgb, lum, List.map_cons, List.map_nil, List.take, List.getD_cons_zero, List.getD_cons_succ]
    congr 1
    ring
  · obtain ⟨x, rfl⟩ := List.length_eq_one_iff.mp hc
    simp [moved, rgb, lum]
  · obtain ⟨x, rfl⟩ := List.length_eq_one_iff.mp hc
    simp [moved, lum]
    ring

/-- From luminance 1/2 with opacity 1/2 to RGB. -/
example : (moved (.other (lum (0 : Rat) 1 0) rgb none) ([1/4], 1/2)).1 = [1/4, 1/4, 1/4] := by decide +kernel

/-- C96 does not hold for the degenerate color space, in which the only color is white: the outcome of conversion to another color space is
not multiplied by the opacity, so the outcome is a pixel that does not mean white with the specified opacity, and becomes opaque white
when the alpha channel is removed. -/
theorem C96_degenerate [Field φ] [DecidableEq φ] (a : φ) (b' : Bool) :
    ∃ m', pixelConvertA fieldArith (floatRepr fieldArith) (floatRepr fieldArith) id (.other degen rgb none) (fun i => [a][i]?) true (blank 4) b' (blank 4) = some m' ∧
      (∀ i : Nat, i < 3 → m' i = some (some 1)) ∧ (b' = true → m' 3 = some (some a)) := by
  cases b'
  · refine ⟨_, rfl, fun i hi => ?_, fun h => by cases h⟩
    obtain rfl | rfl | rfl : i = 0 ∨ i = 1 ∨ i = 2 := by omega
    all_goals rfl
  · refine ⟨_, rfl, fun i hi => ?_, fun _ => rfl⟩
    obtain rfl | rfl | rfl : i = 0 ∨ i = 1 ∨ i = 2 := by omega
    all_goals rfl

/-- White with opacity 1/2 in a floating-point format is 1/2 in every channel. -/
example : (⟨[4, 4, 4], some 2⟩ : Pixel Int).meaning fieldArith quarter = ([1/2, 1/2, 1/2], 1/2) := by decide +kernel

/-- C96 does not hold if there are no components in one of the formats: an assertion fails, except where no conversion to floating-point is
needed. -/
theorem C96_no_components (R S : Repr α φ) (ar : Arith φ) (g : α → α) (s : Space φ) (hs : s.channels = 0) (a : α) (m : Mem α) (im : Mem φ)
    (h : R.isFloat = true ∨ S.isFloat = true ∨ a ≠ R.max) :
    pixelConvertA ar R S g (.same s) (fun i => [a][i]?) true m false im = none ∧
    pixelConvertA ar R S g (.same s) (fun i => ([] : List α)[i]?) false m false im =
      if R.isFloat = false ∧ S.isFloat = false then some m else none := by
  have key : ∀ (o : Nat → Option α) b, floatConvert ar R S g (.same s) o b m false im = none := by
    intro o b
    unfold floatConvert
    simp only [Option.bind_eq_bind, Route.destin, hs, compReprConvert]
    simp
  constructor
  · unfold pixelConvertA
    simp only [key, Option.bind_eq_bind]
    split
    · rename_i hf
      have : a ≠ R.max := by
        rcases h with h | h | h
        · rw [hf.1] at h; cases h
        · rw [hf.2] at h; cases h
        · exact h
      simp [Route.origin, hs, this]
    · rfl
  · unfold pixelConvertA
    simp only [key, Option.bind_eq_bind]
    split
    · simp [Route.origin, Route.destin, hs, Route.isSame, intConvert, fill]
    · rfl

end Verif.PixelConvert
