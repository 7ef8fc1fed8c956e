import Verif.ReverseLookup.Spec
import Verif.PixelConvert.Main
import Verif.KdTree.Props
import Mathlib.Algebra.BigOperators.Group.List.Basic
import Mathlib.Tactic.Ring
/-!
Lemmas about the model of reverse palette lookup.
-/
namespace Verif.ReverseLookup
open Verif.ImageIter Verif.PixelConvert Verif.PixelConvert.Spec Spec

variable {α β φ : Type}

theorem pixel_comps {ar : Arith φ} {w : Writer φ} {q : Query α φ} (h : QueryOk ar w q) :
    (pixel q).comps = q.comps ∧ (pixel q).alpha.isSome = q.hasAlpha ∧ (pixel q).color.length = q.route.origin.channels := by
  have := h.comps
  unfold pixel
  cases hb : q.hasAlpha with
  | false =>
    rw [hb] at this
    simp only [Bool.toNat_false, Nat.add_zero] at this
    exact ⟨by simp [Pixel.comps, ← this], rfl, by simp [← this]⟩
  | true =>
    rw [hb] at this
    simp only [Bool.toNat_true] at this
    have hl : q.comps[q.route.origin.channels]? = some q.comps[q.route.origin.channels] := List.getElem?_eq_getElem (by omega)
    refine ⟨?_, by simp [hl], by simp [this]⟩
    simp only [Pixel.comps, if_true, hl, Option.toList_some]
    rw [← List.take_succ_eq_append_getElem, List.take_of_length_le (by omega)]

/-- The outcome of conversion to the color space of the writer. -/
theorem toNative_ok {ar : Arith φ} {w : Writer φ} {q : Query α φ} (h : QueryOk ar w q) :
    ∃ m', toNative ar q.repr q.route (fun i => q.comps[i]?) q.hasAlpha q.buffer = some m' ∧
      Has (moved q.route ((pixel q).meaning ar q.repr)).1 m' ∧ (moved q.route ((pixel q).meaning ar q.repr)).1.length = q.route.destin.channels ∧
      ∀ j : Nat, q.route.destin.channels ≤ j → m' j =
        if j < q.comps.length then some (((pixel q).meaning ar q.repr).1 ++ ((pixel q).alpha.map q.repr.toAlpha).toList)[j]? else q.buffer j := by
  obtain ⟨hc, ha, hp⟩ := pixel_comps h
  obtain ⟨m1, e1, w1⟩ := compReprConvert_ok ar q.repr (floatRepr ar) q.repr.toColor (pixel q) (origin := fun i => q.comps[i]?) (m := q.buffer)
    (n := q.route.origin.channels + q.hasAlpha.toNat) (b := q.hasAlpha) (by rw [hc, h.comps]) (by rw [← h.comps]; exact h.pos) ha.symm
    (fun j _ => by rw [hc]) (fun j hj => h.room j (by have := h.comps; omega))
  rw [toFloat_eq h.lawful] at w1
  have hr1 := Wrote.room w1 h.room
  have hm1 := Wrote.has w1
  simp only [Pixel.comps] at hm1
  have hml := meaning_length ar q.repr (pixel q)
  have hal : (if q.hasAlpha then load m1 ((q.route.origin.channels + q.hasAlpha.toNat - 1 : Nat) : Int) else some ar.one) =
      some ((pixel q).meaning ar q.repr).2 := by
    rw [meaning_alpha]
    cases hx : (pixel q).alpha with
    | none =>
      rw [hx] at ha
      rw [← ha]
      rfl
    | some a =>
      rw [hx] at ha hm1
      rw [← ha]
      simp only [Option.isSome_some, if_true, Bool.toNat_true, Nat.add_sub_cancel]
      rw [Has.load hm1 (by simp [hml, hp])]
      rw [← hp, ← hml]
      simp
  obtain ⟨m2, e2, hm2, hr2, hl2, ho2⟩ := colorSpaceConvert_ok h.route (a := ((pixel q).meaning ar q.repr).2) (hml.trans hp) hm1 hr1
    (by have := h.destin; omega)
  refine ⟨m2, ?_, hm2, hl2, fun j hj => ?_⟩
  · simp only [toNative, e1, Option.bind_eq_bind, Option.bind_some, hal]
    exact e2
  · rw [ho2 j (by omega), w1]
    have hlen : (Pixel.comps ⟨((pixel q).meaning ar q.repr).1, (pixel q).alpha.map q.repr.toAlpha⟩).length = q.comps.length := by
      rw [comps_length, h.comps, hml, hp, ← ha]
      simp
    by_cases hj2 : j < q.comps.length
    · rw [dif_pos (by omega), if_pos hj2]
      simp only [Pixel.comps, Int.toNat_natCast]
      rw [List.getElem?_eq_getElem]
    · rw [dif_neg (by omega), if_neg hj2]

/-- With the alpha component in place, the whole of the color is right. -/
theorem toNative_inPlace {ar : Arith φ} {w : Writer φ} {q : Query α φ} (h : QueryOk ar w q) (hi : InPlace q) {m' : Mem φ}
    (h1 : Has (moved q.route ((pixel q).meaning ar q.repr)).1 m') (hl : (moved q.route ((pixel q).meaning ar q.repr)).1.length = q.route.destin.channels)
    (h2 : ∀ j : Nat, q.route.destin.channels ≤ j → m' j =
        if j < q.comps.length then some (((pixel q).meaning ar q.repr).1 ++ ((pixel q).alpha.map q.repr.toAlpha).toList)[j]? else q.buffer j) :
    Has (native ar q) m' := by
  obtain ⟨hc, ha, hp⟩ := pixel_comps h
  have hco := h.comps
  rw [hi.1] at hco ha
  simp only [Bool.toNat_true] at hco
  obtain ⟨a, hx⟩ := Option.isSome_iff_exists.mp ha
  have hml := meaning_length ar q.repr (pixel q)
  have hal := meaning_alpha ar q.repr (pixel q)
  intro j hj
  simp only [native, List.length_append, hl, List.length_singleton] at hj
  by_cases hj2 : j < q.route.destin.channels
  · rw [h1 j (by omega)]
    simp only [native]
    rw [List.getElem?_append_left (by omega)]
  · have e : j = q.route.destin.channels := by omega
    subst e
    rw [h2 _ (le_refl _), if_pos (by rw [hco, hi.2]; omega)]
    simp only [native, moved_snd, hal, hx, Option.map_some, Option.toList_some, Option.getD_some]
    conv_lhs => rw [← hi.2, ← hp, ← hml]
    conv_rhs => rw [← hl]
    simp

theorem loadN_has {l : List φ} {m : Mem φ} (h : Has l m) {n : Nat} (hn : n ≤ l.length) : loadN m n = some (l.take n) := by
  refine ColorSlot.mapM_range (by simp [hn]) fun j hj => ?_
  rw [h.load (by omega), List.getElem?_take_of_lt hj]

/-! ### Distance -/

theorem foldl_add_sum [CommRing φ] (l : List φ) (s : φ) : l.foldl (fun s x => s + x) s = s + l.sum := by
  induction l generalizing s with
  | nil => simp
  | cons x l ih => rw [List.foldl_cons, ih, List.sum_cons]; ring

theorem zip_dist [CommRing φ] (a b : List φ) : (List.zip a b).foldl (fun s p => s + (p.1 - p.2) * (p.1 - p.2)) 0 = sqDist a b := by
  have : ∀ (l : List (φ × φ)) (s : φ), l.foldl (fun s p => s + (p.1 - p.2) * (p.1 - p.2)) s = s + (l.map fun p => (p.1 - p.2) ^ 2).sum := by
    intro l
    induction l with
    | nil => simp
    | cons x l ih => intro s; rw [List.foldl_cons, ih, List.map_cons, List.sum_cons]; ring
  rw [this, zero_add, sqDist, ← List.map_uncurry_zip_eq_zipWith]
  rfl

theorem sqdist_dist [CommRing φ] (k : Nat) (comp : Nat → Nat → φ) (c q : List φ) (i : Nat) (hc : c.length = k) (hq : q.length = k)
    (h : ∀ j, j < k → comp i j = c.getD j 0) : KdTree.Spec.sqdist k comp (fun j => q.getD j 0) i = sqDist c q := by
  unfold KdTree.Spec.sqdist sqDist
  rw [Finset.sum_congr rfl (g := fun j => (c.getD j 0 - q.getD j 0) ^ 2) (fun j hj => by rw [h j (Finset.mem_range.mp hj)])]
  clear h
  induction k generalizing c q with
  | zero =>
    obtain rfl := List.length_eq_zero_iff.mp hc
    simp
  | succ k ih =>
    match c, q, hc, hq with
    | x :: c, y :: q, hc, hq =>
      rw [Finset.sum_range_succ', List.zipWith_cons_cons, List.sum_cons, ← ih c q (by simpa using hc) (by simpa using hq)]
      simp only [List.getD_cons_succ, List.getD_cons_zero]
      ring

theorem flatten_getD [Zero φ] {palette : List (List φ)} {n : Nat} (h : ∀ c ∈ palette, c.length = n) {i j : Nat} {c : List φ}
    (hi : palette[i]? = some c) (hj : j < n) : palette.flatten.getD (i * n + j) 0 = c.getD j 0 := by
  induction palette generalizing i with
  | nil => simp at hi
  | cons d palette ih =>
    have hd := h d (by simp)
    cases i with
    | zero =>
      simp only [List.getElem?_cons_zero, Option.some.injEq] at hi
      subst hi
      simp only [Nat.zero_mul, Nat.zero_add, List.flatten_cons, List.getD_eq_getElem?_getD]
      rw [List.getElem?_append_left (by omega)]
    | succ i =>
      have := ih (fun c hc => h c (by simp [hc])) (i := i) (by simpa using hi)
      rw [← this]
      simp only [List.flatten_cons, List.getD_eq_getElem?_getD]
      rw [List.getElem?_append_right (by rw [hd]; nlinarith), hd, show (i + 1) * n + j - n = i * n + j by
        have : (i + 1) * n = i * n + n := by ring
        omega]

variable [CommRing φ] [LinearOrder φ]

/-- The tree, if there is one, is in the right order. -/
def TreeOk (w : Writer φ) (tree : Option (List Nat)) : Prop :=
  ∀ t, tree = some t → t.Perm (List.range w.size) ∧ KdTree.Spec.Organized w.env.k w.env.comp 0 t

/-- What is assumed about `std::nth_element()`. -/
def NthOk (nth : Nat → Nat → Nat → List Nat → List Nat) (w : Writer φ) : Prop :=
  ∀ call dim n l, n < l.length → KdTree.Spec.NthElement w.env.comp dim n l (nth call dim n l)

theorem ensureTree_ok {nth : Nat → Nat → Nat → List Nat → List Nat} {w : Writer φ} {palette : List (List φ)} (hw : Spec.Has w palette)
    (hn : NthOk nth w) {tree : Option (List Nat)} (ht : TreeOk w tree) : ∃ t, ensureTree nth w tree = some t ∧ TreeOk w (some t) := by
  cases tree with
  | some t => exact ⟨t, rfl, ht⟩
  | none =>
    obtain ⟨t, e, h1, h2⟩ := KdTree.C42_sort w.env nth (List.range w.size) (fun _ => by have := hw.channels; exact Nat.ne_of_gt this)
      (by rw [List.length_range, hw.size]; exact hw.levels) hn
    refine ⟨t, e, ?_⟩
    rintro _ ⟨⟩
    exact ⟨h1, h2⟩

theorem doLookup_ok [IsStrictOrderedRing φ] {w : Writer φ} {palette : List (List φ)} (hw : Spec.Has w palette) (sqrt : φ → φ) {t : List Nat}
    (ht : TreeOk w (some t)) {q : List φ} {m : Mem φ} (hm : PixelConvert.Has q m) (hq : w.numChannels ≤ q.length) :
    ∃ i, doLookup sqrt w t m = some i ∧ Nearest palette w.numChannels q i := by
  obtain ⟨hp, ho⟩ := ht t rfl
  have hlen : t.length = palette.length := by rw [hp.length_eq]; simp [hw.size]
  by_cases h0 : t.length = 0
  · refine ⟨0, ?_, .inl ⟨?_, rfl⟩⟩
    · have : t = [] := List.length_eq_zero_iff.mp h0
      subst this
      simp [doLookup, KdTree.find]
    · exact List.length_eq_zero_iff.mp (by omega)
  · have hext : w.numChannels ≤ w.ext := by unfold Writer.numChannels; split <;> omega
    have hcomp : ∀ i c, palette[i]? = some c →
        KdTree.Spec.sqdist w.env.k w.env.comp (fun j => (q.take w.numChannels).getD j 0) i = sqDist (c.take w.numChannels) (q.take w.numChannels) := by
      intro i c hi
      have hc : c.length = w.ext := hw.ext c (List.mem_of_getElem? hi)
      refine sqdist_dist w.numChannels w.env.comp (c.take w.numChannels) (q.take w.numChannels) i (by simp; omega) (by simp; omega) fun j hj => ?_
      show w.cache.getD (i * w.ext + j) 0 = _
      rw [hw.cache, flatten_getD hw.ext hi (by omega)]
      simp only [List.getD_eq_getElem?_getD]
      rw [List.getElem?_take_of_lt hj]
    rcases KdTree.C41_find w.env sqrt t (fun j => (q.take w.numChannels).getD j 0) none (fun _ => by have := hw.channels; exact Nat.ne_of_gt this)
      (by rw [hlen]; exact hw.levels) ho with ⟨p, e, hmem, hle, _⟩ | ⟨_, h⟩
    · refine ⟨p, ?_, .inr ?_⟩
      · simp only [doLookup, if_neg h0, loadN_has hm hq, Option.bind_eq_bind, Option.bind_some, e]
      · have hidx : ∀ i, i ∈ t ↔ i < palette.length := fun i => by rw [hp.mem_iff, List.mem_range, hw.size]
        have hpl := (hidx p).mp hmem
        refine ⟨palette[p], List.getElem?_eq_getElem hpl, fun c' hc' => ?_⟩
        obtain ⟨j, hj, rfl⟩ := List.getElem_of_mem hc'
        have := hle j ((hidx j).mpr hj)
        rwa [hcomp p palette[p] (List.getElem?_eq_getElem hpl), hcomp j palette[j] (List.getElem?_eq_getElem hj)] at this
    · obtain ⟨x, hx⟩ := List.exists_mem_of_length_pos (Nat.pos_of_ne_zero h0)
      obtain ⟨_, h, _⟩ := h x hx
      cases h

end Verif.ReverseLookup
