import Verif.ReverseLookup.Main
import Mathlib.Algebra.Order.Field.Rat
/-!
C97: reverse palette lookup, and color distance.
-/
namespace Verif.ReverseLookup
open Verif.ImageIter Verif.PixelConvert Verif.PixelConvert.Spec Spec

variable {α β φ : Type}

private def blank (n : Nat) : Mem φ := fun a => if 0 ≤ a ∧ a < n then some none else none

/-- For the examples: integers 0 to 4 stand for 0 to 1. -/
private def quarter : PixelConvert.Repr Int Rat := ⟨false, 4, fun c => c / 4, fun c => c / 4, fun v => (v * 4).floor, fun v => (v * 4).floor⟩

private def bySorting (w : Writer Rat) (_call dim _n : Nat) (l : List Nat) : List Nat :=
  l.foldr (fun p s => s.takeWhile (fun x => w.env.comp x dim < w.env.comp p dim) ++ p :: s.dropWhile (fun x => w.env.comp x dim < w.env.comp p dim)) []

section
set_option linter.unusedSectionVars false
variable [CommRing φ] [LinearOrder φ] [IsStrictOrderedRing φ]

/-- C97: For every sequence of lookups with the same writer, every lookup gives the index of a color of the palette that is not further away
from the specified color than any other color of the palette, as measured in the color space of the image, or zero if the image has no
palette, or has an empty palette. Assumes that the image has no alpha channel, or that the specified color has an
alpha component and is from a color space with the same number of channels as that of the image. -/
theorem C97_lookup_partial (ar : Arith φ) (sqrt : φ → φ) (nth : Nat → Nat → Nat → List Nat → List Nat) (w : Writer φ) (palette : List (List φ))
    (hw : Spec.Has w palette) (hn : NthOk nth w) (qs : List (Query α φ)) (hq : ∀ q ∈ qs, QueryOk ar w q ∧ (w.hasAlpha = false ∨ InPlace q)) :
    ∃ is tree, lookups ar sqrt nth w qs none = some (is, tree) ∧ is.length = qs.length ∧
      ∀ (n : Nat) (q : Query α φ) (i : Nat), qs[n]? = some q → is[n]? = some i →
        (w.indexed = true → Nearest palette w.numChannels (native ar q) i) ∧ (w.indexed = false → i = 0) := by
  suffices ∀ tree, TreeOk w tree → ∃ is tree', lookups ar sqrt nth w qs tree = some (is, tree') ∧ is.length = qs.length ∧
      ∀ (n : Nat) (q : Query α φ) (i : Nat), qs[n]? = some q → is[n]? = some i →
        (w.indexed = true → Nearest palette w.numChannels (native ar q) i) ∧ (w.indexed = false → i = 0) from
    this none (fun _ h => by cases h)
  induction qs with
  | nil => exact fun tree _ => ⟨[], tree, rfl, rfl, fun n q i h => by simp at h⟩
  | cons q qs ih =>
    intro tree ht
    obtain ⟨ho, hi⟩ := hq q (by simp)
    obtain ⟨m, e1, h1, hl, h2⟩ := toNative_ok ho
    have hone : ∃ i tree', doLookupA sqrt nth w tree m = some (i, tree') ∧ TreeOk w tree' ∧
        (w.indexed = true → Nearest palette w.numChannels (native ar q) i) ∧ (w.indexed = false → i = 0) := by
      unfold doLookupA
      cases hx : w.indexed with
      | false => exact ⟨0, tree, rfl, ht, fun h => absurd h (by decide), fun _ => rfl⟩
      | true =>
        obtain ⟨t, e2, ht2⟩ := ensureTree_ok hw hn ht
        have hcases : ∃ l, PixelConvert.Has l m ∧ w.numChannels ≤ l.length ∧ l.take w.numChannels = (native ar q).take w.numChannels := by
          have hd := ho.destin
          rcases hi with hi | hi
          · have hk : w.numChannels = q.route.destin.channels := by simp [Writer.numChannels, hi]; omega
            refine ⟨_, h1, by omega, ?_⟩
            simp only [native]
            rw [List.take_append_of_le_length (by omega)]
          · refine ⟨_, toNative_inPlace ho hi h1 hl h2, ?_, rfl⟩
            have : w.numChannels ≤ w.ext := by unfold Writer.numChannels; split <;> omega
            simp only [native, List.length_append, hl, List.length_singleton]
            omega
        obtain ⟨l, hm, hle, htk⟩ := hcases
        obtain ⟨i, e3, hnear⟩ := doLookup_ok hw sqrt ht2 hm hle
        refine ⟨i, some t, ?_, ht2, fun _ => ?_, fun h => by cases h⟩
        · simp only [if_true, e2, e3, Option.bind_eq_bind, Option.bind_some]
        · unfold Nearest at hnear ⊢
          rwa [htk] at hnear
    obtain ⟨i, tree', e2, ht', hres⟩ := hone
    obtain ⟨is, tree'', e3, hlen, hall⟩ := ih (fun q hq' => hq q (by simp [hq'])) tree' ht'
    refine ⟨i :: is, tree'', ?_, by simp [hlen], ?_⟩
    · simp only [lookups, lookup, e1, Option.bind_eq_bind, Option.bind_some, e2, e3]
    · intro n q' i' hq' hi'
      cases n with
      | zero =>
        simp only [List.getElem?_cons_zero, Option.some.injEq] at hq' hi'
        subst hq' hi'
        exact hres
      | succ n => exact hall n q' i' (by simpa using hq') (by simpa using hi')

/-- C97: The square distance between two colors is the square of the Euclidean distance in the color space of the image, with the opacity as an
additional dimension. Assumes that both colors are specified with an alpha component and are from color spaces
with the same number of channels as that of the image. -/
theorem C97_sqdist_partial (ar : Arith φ) (w : Writer φ) (q : Query α φ) (q' : Query β φ) (hq : QueryOk ar w q) (hq' : QueryOk ar w q') (hi : InPlace q)
    (hi' : InPlace q') : sqdist ar w q q' = some (sqDist (native ar q) (native ar q')) := by
  obtain ⟨m, e, h1, hl, h2⟩ := toNative_ok hq
  obtain ⟨m', e', h1', hl', h2'⟩ := toNative_ok hq'
  have g := toNative_inPlace hq hi h1 hl h2
  have g' := toNative_inPlace hq' hi' h1' hl' h2'
  have k : (native ar q).length = w.ext := by simp [native, hl, hq.destin]
  have k' : (native ar q').length = w.ext := by simp [native, hl', hq'.destin]
  simp only [sqdist, e, e', doSqdist, Option.bind_eq_bind, Option.bind_some, loadN_has g k.ge, loadN_has g' k'.ge, zip_dist]
  rw [List.take_of_length_le k.le, List.take_of_length_le k'.le]

theorem loadN_blank {m : Mem φ} {n j : Nat} (hj : j < n) (h : load m j = none) : loadN m n = none := by
  unfold loadN
  induction n with
  | zero => omega
  | succ n ih =>
    rw [List.range_succ, List.mapM_append]
    by_cases e : j = n
    · subst e
      cases (List.range j).mapM fun (i : Nat) => load m i <;> simp [h]
    · rw [ih (by omega)]
      rfl

/-- C97 does not hold for a color that is specified without an alpha component, and with no more color components than
there are in the color space of the image: an alpha component that was never set is used to compute the distance, and also for lookup if the image
has an alpha channel. -/
theorem C97_no_alpha (ar : Arith φ) (sqrt : φ → φ) (nth : Nat → Nat → Nat → List Nat → List Nat) (w : Writer φ) (q : Query α φ)
    (q' : Query β φ) (hq : QueryOk ar w q) (ha : q.hasAlpha = false) (hd : q.route.origin.channels ≤ q.route.destin.channels)
    (hb : q.buffer q.route.destin.channels = some none) :
    sqdist ar w q q' = none ∧
    ∀ palette, Spec.Has w palette → NthOk nth w → palette ≠ [] → w.indexed = true → w.hasAlpha = true → lookup ar sqrt nth w q none = none := by
  obtain ⟨m, e, h1, hl, h2⟩ := toNative_ok hq
  have hco := hq.comps
  rw [ha] at hco
  have hx : load m q.route.destin.channels = none := by
    unfold load
    rw [h2 _ (le_refl _), if_neg (by simp at hco; omega), hb]
    rfl
  have hde := hq.destin
  have hn := loadN_blank (n := w.ext) (by omega) hx
  constructor
  · simp only [sqdist, e, Option.bind_eq_bind, Option.bind_some, doSqdist, hn]
    cases toNative ar q'.repr q'.route (fun i => q'.comps[i]?) q'.hasAlpha q'.buffer <;> rfl
  · intro palette hw hnth hp hix hal
    obtain ⟨t, e2, ht⟩ := ensureTree_ok hw hnth (tree := none) (fun _ h => by cases h)
    have hlen : t.length ≠ 0 := by
      rw [(ht t rfl).1.length_eq, List.length_range, hw.size]
      exact fun h => hp (List.length_eq_zero_iff.mp h)
    have hk : w.numChannels = w.ext := by simp [Writer.numChannels, hal]
    simp only [lookup, e, doLookupA, hix, Option.bind_eq_bind, Option.bind_some, e2, doLookup, if_neg hlen, hk, hn, if_true, Option.bind_none]

end

/-! ### Examples -/

/-- A luminance image with alpha channel, and a palette with opaque black, opaque white, and half transparent white. -/
private def gray : Writer Rat := ⟨true, 3, 2, true, [0, 1, 1, 1, 1/2, 1/2], 8⟩

private def gray_q (c a : Int) : Query Int Rat := ⟨quarter, .same (lum 0 1 0), [c, a], true, blank 2⟩

/-- Light gray, dark gray, and very transparent white. -/
example : (lookups fieldArith id (bySorting gray) gray [gray_q 3 4, gray_q 1 4, gray_q 4 1] none).map (·.1) = some [1, 0, 2] ∧
    sqdist fieldArith gray (gray_q 3 4) (gray_q 4 2) = some (1/4 * (1/4) + 1/2 * (1/2)) := by decide +kernel

private def gray2 : Writer Rat := ⟨true, 3, 2, false, [0, 1, 1, 1, 1/2, 1], 8⟩

/-- The same image without alpha channel, and RGB colors without alpha component. -/
example : (lookups fieldArith id (bySorting gray2) gray2
      [⟨quarter, .other rgb (lum 0 1 0) none, [4, 2, 0], false, blank 3⟩, (⟨quarter, .other rgb (lum 0 1 0) none, [4, 4, 0], false, blank 3⟩ : Query Int Rat)]
      none).map (·.1) = some [2, 1] := by decide +kernel

/-- A color without alpha component. -/
example : sqdist fieldArith gray (⟨quarter, .same (lum 0 1 0), [3], false, blank 2⟩ : Query Int Rat) (gray_q 4 4) = none := by decide +kernel

/-- C97 does not hold for a color from a color space with more channels than that of the image, even if it is specified with an alpha component: another component is taken for
the alpha component. Here, the distance from opaque black, specified as an RGB color, to opaque black, specified as a luminance color, is one, and
the color of the palette that is found for an opaque RGB color of luminance 3/4 is half transparent white, although opaque white is closer. -/
theorem C97_other_channels :
    sqdist fieldArith gray (⟨quarter, .other rgb (lum 0 1 0) none, [0, 0, 0, 4], true, blank 4⟩ : Query Int Rat) (gray_q 0 4) = some 1 ∧
    (lookup fieldArith id (bySorting gray) gray (⟨quarter, .other rgb (lum 0 (1/2) (1/2)) none, [0, 2, 4, 4], true, blank 4⟩ : Query Int Rat) none).map (·.1) = some 2 ∧
    native fieldArith (⟨quarter, .other rgb (lum 0 (1/2) (1/2)) none, [0, 2, 4, 4], true, blank 4⟩ : Query Int Rat) = [3/4, 1] ∧
    ¬Nearest [[0, 1], [1, 1], [(1 : Rat)/2, 1/2]] 2 [3/4, 1] 2 := by
  refine ⟨by decide +kernel, by decide +kernel, by decide +kernel, ?_⟩
  rintro (⟨h, _⟩ | ⟨c, h1, h2⟩)
  · cases h
  · cases h1
    have := h2 [1, 1] (by simp)
    revert this
    decide +kernel

/-- The assumptions are satisfied in the example. -/
example : Spec.Has gray [[0, 1], [1, 1], [1/2, 1/2]] ∧ ∀ c a, QueryOk fieldArith gray (gray_q c a) ∧ InPlace (gray_q c a) := by
  refine ⟨⟨rfl, rfl, by decide, by decide, by decide⟩, fun c a => ⟨⟨?_, trivial, rfl, Nat.zero_lt_two, rfl, ?_⟩, rfl, rfl⟩⟩
  · exact ⟨show quarter.toAlpha quarter.max = 1 by decide +kernel, show quarter.fromAlpha 1 = quarter.max by decide +kernel, by simp [fieldArith], by simp [fieldArith], by simp [gray_q, quarter], by simp [gray_q, quarter]⟩
  · intro j hj
    have : j < 2 := hj
    simp only [gray_q, blank]
    rw [if_pos (by omega)]
    simp

end Verif.ReverseLookup
