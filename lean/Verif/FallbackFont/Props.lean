import Verif.FallbackFont.Main
/-!
Properties of the fallback font (C213, C214).
-/
namespace Verif.FallbackFont
open Verif.PixelBox Verif.Integer

/-- The run on a specification that has at least four lines, up to the line with the fallback glyph. -/
theorem run_head {I : Nat} (l1 l2 l3 : Line) (ls : List Line) (h2 : Spec.RangesOk l2) :
    ∃ s, run I State.init (l1 :: l2 :: l3 :: ls) = run I s ls ∧
      s.name = some l1.name ∧ s.haveMetrics = true ∧ s.haveFallback = false ∧ s.glyphs = [] ∧ s.map = [] ∧
      s.width = l3.width ∧ s.height = l3.height ∧
      (s.error = false ↔ (∃ rs, l2.ranges = some rs ∧ rs.Pairwise (fun a b => a.2 < b.1)) ∧ l3.metricsOk = true) ∧
      ∀ rs, l2.ranges = some rs → s.ranges = rs := by
  cases hr : l2.ranges with
  | none =>
    refine ⟨⟨some l1.name, true, [], true, l3.width, l3.height, false, [], [], true⟩, ?_, rfl, rfl, rfl, rfl, rfl, rfl,
      rfl, by simp, by simp⟩
    simp [run, step, State.init, hr]
  | some rs =>
    refine ⟨⟨some l1.name, true, rs, true, l3.width, l3.height, false, [], [],
      !checkRanges none rs || !l3.metricsOk⟩, ?_, rfl, rfl, rfl, rfl, rfl, rfl, rfl, ?_, ?_⟩
    · simp [run, step, State.init, hr]
    · simp only [Bool.or_eq_false_iff, Bool.not_eq_false']
      rw [checkRanges_ok rs none (h2 rs hr)]
      simp
    · intro rs' h; injection h

/-- C213: a font specification is accepted exactly if it has the form that is described in `Spec.Describes`, and what is
loaded is what is described: glyph zero is the fallback glyph, a code point is looked up to the glyph whose line has it,
and any other code point is looked up to glyph zero. -/
theorem C213_accepted (I : Nat) (lines : List Line) (hr : ∀ l ∈ lines, Spec.RangesOk l) (hb : Spec.BoxesOk I lines) :
    ∃ r, loadSpec I lines = some r ∧
      (r.isSome = true → ∃ name rs w h g gs, Spec.Describes lines name rs w h g gs) ∧
      (∀ name rs w h g gs, Spec.Describes lines name rs w h g gs → ∃ f, r = some f ∧
        f.name = name ∧ f.ranges = rs ∧ f.width = w ∧ f.height = h ∧ f.glyphs = g :: gs.map Prod.fst ∧
        (∀ (i : Nat) (e : Glyph × List Nat) (c : Nat), gs[i]? = some e → c ∈ e.2 → f.findGlyph c = i + 1) ∧
        (∀ c, c ∉ (gs.map Prod.snd).flatten → f.findGlyph c = 0)) := by
  match lines, hr, hb with
  | [], _, _ =>
    exact ⟨none, rfl, by simp, by rintro name rs w h g gs ⟨_, _, _, _, _, h, -⟩; cases h⟩
  | [l1], _, _ =>
    refine ⟨none, ?_, by simp, by rintro name rs w h g gs ⟨_, _, _, _, _, h, -⟩; cases h⟩
    simp [loadSpec, run, step, State.init]
  | [l1, l2], _, _ =>
    refine ⟨none, ?_, by simp, by rintro name rs w h g gs ⟨_, _, _, _, _, h, -⟩; cases h⟩
    cases h : l2.ranges <;> simp [loadSpec, run, step, State.init, h]
  | [l1, l2, l3], hr, _ =>
    refine ⟨none, ?_, by simp, by rintro name rs w h g gs ⟨_, _, _, _, _, h, -⟩; cases h⟩
    obtain ⟨s, e0, e1, e2, e3, e4, -⟩ := run_head (I := I) l1 l2 l3 [] (hr l2 (by simp))
    unfold loadSpec
    rw [e0]
    simp only [run, Option.bind_eq_bind, Option.bind_some, e1, e2, e4]
    cases s.error <;> simp
  | l1 :: l2 :: l3 :: l4 :: rest, hr, hb =>
    obtain ⟨s, e0, e1, e2, e3, e4, e5, e6, e7, e8, e9⟩ := run_head (I := I) l1 l2 l3 (l4 :: rest) (hr l2 (by simp))
    have hdef : ∀ l ∈ l4 :: rest, ∀ g : Glyph, (l.fallback = some g ∨ ∃ cps, l.glyph = some (g, cps)) →
        Def I g l3.width l3.height := fun l hl g hg =>
      hb l (by simp only [List.mem_cons] at hl ⊢; tauto) l3 (by simp) g hg
    -- the line with the fallback glyph
    have hstep : ∃ s4, step I s l4 = some s4 ∧ s4.name = s.name ∧ s4.ranges = s.ranges ∧ s4.haveMetrics = true ∧
        s4.width = s.width ∧ s4.height = s.height ∧ s4.haveFallback = true ∧
        (s4.error = false ↔ s.error = false ∧ ∃ g, l4.fallback = some g ∧ Spec.GlyphOk g s.width s.height) ∧
        (s4.error = false → ∀ g, l4.fallback = some g → s4.glyphs = [g]) ∧
        (s4.error = false → ∀ c, s4.map.lookup c = none) := by
      have e3' : ¬ s.haveFallback = true := by rw [e3]; simp
      cases hf : l4.fallback with
      | none =>
        refine ⟨{ s with haveFallback := true, error := true }, ?_, rfl, rfl, e2, rfl, rfl, rfl, ?_, ?_, ?_⟩
        · unfold step; rw [if_pos e2, if_neg e3', hf]
        · simp
        · intro h; cases h
        · intro h; cases h
      | some g =>
        obtain ⟨s4, ha, n1, n2, n3, n4, n5, n6, n7, n8, n9⟩ := addGlyph_eq (I := I)
          (s := { s with haveFallback := true }) (g := g) (cps := [])
          (by rw [show ({ s with haveFallback := true } : State).width = l3.width from e6,
                show ({ s with haveFallback := true } : State).height = l3.height from e7]
              exact hdef l4 (by simp) g (Or.inl hf))
        refine ⟨s4, ?_, n1, n3, n4.trans e2, n5, n6, n7, ?_, ?_, ?_⟩
        · unfold step; rw [if_pos e2, if_neg e3', hf]; exact ha
        · rw [n8]; simp
        · intro h g' hg'
          injection hg' with hg'
          subst hg'
          rw [(n9 h).1]
          show s.glyphs ++ [g] = [g]
          rw [e4]; rfl
        · intro h c
          rw [(n9 h).2 c]
          show (if c ∈ [] then _ else s.map.lookup c) = none
          rw [e5]; simp
    obtain ⟨s4, hs, a1, a2, a3, a4, a5, a6, a7, a8, a9⟩ := hstep
    obtain ⟨s', hrun, b1, b2, b3, b4, b5, b6, b7⟩ := run_glyphs (I := I) rest s4 a3 a6 (fun l hl g cps hg => by
      rw [a4, a5, e6, e7]
      exact hdef l (List.mem_cons_of_mem _ hl) g (Or.inr ⟨cps, hg⟩))
    have hload : loadSpec I (l1 :: l2 :: l3 :: l4 :: rest) =
        some (if s'.error = true ∨ s'.glyphs.length < 1 then none else
          some ⟨l1.name, s'.ranges, s'.width, s'.height, s'.glyphs, s'.map⟩) := by
      unfold loadSpec
      rw [e0, run, hs]
      simp only [Option.bind_eq_bind, Option.bind_some, hrun]
      rw [show s'.name = some l1.name from b1.trans (a1.trans e1), b3]
      cases s'.error <;> by_cases h : s'.glyphs.length < 1 <;> simp [h]
    refine ⟨_, hload, ?_, ?_⟩
    · intro h
      have he : s'.error = false := by
        cases he : s'.error with
        | false => rfl
        | true => rw [he] at h; simp at h
      obtain ⟨he4, gs, hg, hok, hnd, -⟩ := b6.1 he
      obtain ⟨hes, g, hf, hgo⟩ := a7.1 he4
      obtain ⟨⟨rs, hrs, hpw⟩, hm⟩ := e8.1 hes
      rw [a4, a5, e6, e7] at hok
      rw [e6, e7] at hgo
      exact ⟨_, _, _, _, g, gs, l1, l2, l3, l4, rest, rfl, rfl, hrs, hpw, hm, rfl, rfl, hf, hgo, hg, hok, hnd⟩
    · rintro name rs w h g gs ⟨_, _, _, _, _, hl, hn, hrs, hpw, hm, rfl, rfl, hf, hgo, hg, hok, hnd⟩
      injection hl with hl1 hl
      injection hl with hl2 hl
      injection hl with hl3 hl
      injection hl with hl4 hl
      subst hl1 hl2 hl3 hl4 hl
      have hes : s.error = false := e8.2 ⟨⟨rs, hrs, hpw⟩, hm⟩
      have he4 : s4.error = false := a7.2 ⟨hes, g, hf, by rw [e6, e7]; exact hgo⟩
      have he : s'.error = false := b6.2 ⟨he4, gs, hg, by rw [a4, a5, e6, e7]; exact hok, hnd, fun c _ => a9 he4 c⟩
      obtain ⟨c1, c2, c3⟩ := b7 he gs hg
      have hg4 := a8 he4 g hf
      rw [hg4] at c1 c2
      refine ⟨_, if_neg ?_, hn, ?_, ?_, ?_, c1, ?_, ?_⟩
      · rw [he, c1]; simp
      · exact (b2.trans a2).trans (e9 rs hrs)
      · exact b4.trans (a4.trans e6)
      · exact b5.trans (a5.trans e7)
      · intro i e c hi hc
        unfold Font.findGlyph
        simp only [c2 i e c hi hc, List.length_cons, List.length_nil]
        omega
      · intro c hc
        unfold Font.findGlyph
        simp only [c3 c hc, a9 he4 c]

/-- C213: in a font that was loaded, every code point is looked up to a glyph that can be loaded, and the pixels of
every glyph that can be loaded are in the image. -/
theorem C213_glyphs_exist (I : Nat) (lines : List Line) (hr : ∀ l ∈ lines, Spec.RangesOk l)
    (hb : Spec.BoxesOk I lines) (f : Font) (h : loadSpec I lines = some (some f)) :
    (∀ c, (f.loadGlyph (f.findGlyph c)).isSome = true) ∧
    ∀ i g, f.loadGlyph i = some g → 0 ≤ g.horzAdvance ∧ 0 ≤ g.vertAdvance ∧
      ∀ x y, PixelBox.Spec.Pixel g.box x y → (0 ≤ x ∧ x < f.width) ∧ (0 ≤ y ∧ y < f.height) := by
  obtain ⟨r, h1, h2, h3⟩ := C213_accepted I lines hr hb
  have : r = some f := Option.some.inj (h1.symm.trans h)
  subst this
  obtain ⟨name, rs, w, h, g, gs, hd⟩ := h2 rfl
  obtain ⟨f', e, -, -, hw, hh, hg, hfound, hmiss⟩ := h3 name rs w h g gs hd
  injection e with e
  subst e
  constructor
  · intro c
    unfold Font.loadGlyph
    rw [hg]
    by_cases hc : c ∈ (gs.map Prod.snd).flatten
    · rw [List.mem_flatten] at hc
      obtain ⟨cs, hcs, hc⟩ := hc
      obtain ⟨e, he, rfl⟩ := List.mem_map.1 hcs
      obtain ⟨i, hi, rfl⟩ := List.getElem_of_mem he
      rw [hfound i gs[i] c (List.getElem?_eq_getElem hi) hc, List.getElem?_cons_succ]
      simp [hi]
    · rw [hmiss c hc]; rfl
  · intro i g' hg'
    unfold Font.loadGlyph at hg'
    rw [hg] at hg'
    obtain ⟨_, _, _, _, _, -, -, -, -, -, -, -, -, hgo, -, hok, -⟩ := hd
    have hmem := List.mem_of_getElem? hg'
    have hgg : Spec.GlyphOk g' w h := by
      rcases List.mem_cons.1 hmem with rfl | hm
      · exact hgo
      · obtain ⟨e, he, rfl⟩ := List.mem_map.1 hm
        exact hok e he
    unfold Spec.GlyphOk Spec.Within at hgg
    refine ⟨hgg.2.1, hgg.2.2, fun x y hp => ?_⟩
    unfold PixelBox.Spec.Pixel at hp
    omega

/-- A line for use in examples. -/
def exLine (x y w h : Int) (cps : List Nat) : Line :=
  ⟨"foo", some [(32, 126), (160, 255)], true, 64, 32, some ⟨⟨x, y, w, h⟩, 7, 12⟩, some (⟨⟨x, y, w, h⟩, 7, 12⟩, cps)⟩

example : (loadSpec 31 [exLine 0 0 6 8 [], exLine 0 0 6 8 [], exLine 0 0 6 8 [], exLine 0 0 6 8 [], exLine 6 0 6 8 [65],
    exLine 58 24 6 8 [66, 67]]).map (Option.map (fun f => [f.findGlyph 65, f.findGlyph 67, f.findGlyph 68])) =
    some (some [1, 2, 0]) := by decide +kernel
-- One glyph escapes the image
example : (loadSpec 31 [exLine 0 0 6 8 [], exLine 0 0 6 8 [], exLine 0 0 6 8 [], exLine 0 0 6 8 [], exLine 59 0 6 8 [65]]).map
    Option.isSome = some false := by decide +kernel
-- Two glyphs for the same code point
example : (loadSpec 31 [exLine 0 0 6 8 [], exLine 0 0 6 8 [], exLine 0 0 6 8 [], exLine 0 0 6 8 [], exLine 0 0 6 8 [65],
    exLine 6 0 6 8 [66, 65]]).map Option.isSome = some false := by decide +kernel

/-- C213: glyphs of negative size are accepted, and a sufficiently negative size makes the check undefined. -/
theorem C213_negative_size :
    (loadSpec 31 [exLine 0 0 6 8 [], exLine 0 0 6 8 [], exLine 0 0 6 8 [], exLine 0 0 (-6) 8 []]).map Option.isSome =
      some true ∧
    loadSpec 31 [exLine 0 0 6 8 [], exLine 0 0 6 8 [], exLine 0 0 6 8 [], exLine 0 0 (-2 ^ 31) 8 []] = none := by
  constructor
  · decide +kernel
  · rfl

/-- C214: rendering of a glyph. Let `X` and `Y` be the column and row of the upper left corner of the glyph in the mask.
The pixel of the mask at column `X + i` and row `Y + j` is set to pixel `i`, `j` of the glyph, provided that there is such
a pixel in the mask, and every other pixel is left as it is. -/
theorem C214_render {V : Type} (I : Nat) (glyph : Box) (left bottom posX posY w h : Int) (image mask : Int → Int → V)
    (hg : PixelBox.Spec.Exists I glyph) (hv : PixelBox.Spec.Valid I glyph) (hw : 0 ≤ w ∧ w ≤ 2 ^ I - 1)
    (hh : 0 ≤ h ∧ h ≤ 2 ^ I - 1) (ht : PixelBox.Spec.Rep I (bottom + glyph.h))
    (hx : |posX + left| ≤ 2 ^ I - 1) (hy : |posY - (bottom + glyph.h)| ≤ 2 ^ I - 1) :
    ∃ r, renderMask I glyph left bottom posX posY w h image mask = .ok r ∧
      (∀ i j, 0 ≤ i → i < glyph.w → 0 ≤ j → j < glyph.h →
        0 ≤ posX + left + i → posX + left + i < w →
        0 ≤ posY - (bottom + glyph.h) + j → posY - (bottom + glyph.h) + j < h →
        r (posX + left + i) (posY - (bottom + glyph.h) + j) = image (glyph.x + i) (glyph.y + j)) ∧
      (∀ x y, ¬ (0 ≤ x ∧ x < w ∧ 0 ≤ y ∧ y < h ∧
          posX + left ≤ x ∧ x < posX + left + glyph.w ∧
          posY - (bottom + glyph.h) ≤ y ∧ y < posY - (bottom + glyph.h) + glyph.h) → r x y = mask x y) := by
  have hp := p_pos I
  have hx1 := neg_abs_le (posX + left)
  have hx2 := le_abs_self (posX + left)
  have hy1 := neg_abs_le (posY - (bottom + glyph.h))
  have hy2 := le_abs_self (posY - (bottom + glyph.h))
  have hin : ∀ v : Int, (intTy I).In v ↔ -2 ^ I ≤ v ∧ v ≤ 2 ^ I - 1 := fun v => In_s I v
  have har : ∀ v : Int, -2 ^ I ≤ v ∧ v ≤ 2 ^ I - 1 → arith I (intTy I) v = some v := by
    intro v hv
    have := sub_eq (I := I) (a := v) (b := 0)
    unfold PixelBox.sub at this
    rw [Int.sub_zero] at this
    rw [this, if_pos hv]
  unfold renderMask
  rw [har _ ht]
  simp only
  rw [if_neg (by rw [hin]; omega), if_neg (by rw [hin]; omega)]
  unfold PixelBox.Spec.Exists PixelBox.Spec.Valid at *
  unfold Box.clip
  rw [clipAxis_eq hw.1 hv.1 ⟨by omega, by omega⟩ hg.2.2.1 (by rw [Int.zero_sub, abs_neg]; exact hx),
    clipAxis_eq hh.1 hv.2.1 ⟨by omega, by omega⟩ hg.2.2.2 (by rw [Int.zero_sub, abs_neg]; exact hy)]
  generalize posX + left = X at *
  generalize posY - (bottom + glyph.h) = Y at *
  simp only [Option.bind_eq_bind, Option.bind_some]
  unfold PixelBox.Spec.Rep at *
  by_cases hcx : 0 < X + glyph.w ∧ X < 0 + w ∧ 0 < w ∧ 0 < glyph.w
  · by_cases hcy : 0 < Y + glyph.h ∧ Y < 0 + h ∧ 0 < h ∧ 0 < glyph.h
    · rw [if_pos hcx, if_pos hcy]
      simp only
      rw [sub_eq, if_pos (by omega), sub_eq, if_pos (by omega)]
      simp only
      rw [har _ (by omega), har _ (by omega)]
      refine ⟨_, rfl, ?_, ?_⟩
      · intro i j i1 i2 j1 j2 k1 k2 k3 k4
        rw [if_pos (by omega)]
        congr 1 <;> omega
      · intro x y hn
        rw [if_neg (by omega)]
    · rw [if_pos hcx, if_neg hcy]
      refine ⟨_, rfl, ?_, fun x y _ => rfl⟩
      intro i j i1 i2 j1 j2 k1 k2 k3 k4
      omega
  · rw [if_neg hcx]
    refine ⟨_, rfl, ?_, fun x y _ => rfl⟩
    intro i j i1 i2 j1 j2 k1 k2 k3 k4
    omega

/-- C214: if the position of the glyph is not representable, an exception is thrown. -/
theorem C214_overflow {V : Type} (I : Nat) (glyph : Box) (left bottom posX posY w h : Int) (image mask : Int → Int → V)
    (ht : PixelBox.Spec.Rep I (bottom + glyph.h))
    (hx : ¬ PixelBox.Spec.Rep I (posX + left) ∨ ¬ PixelBox.Spec.Rep I (posY - (bottom + glyph.h))) :
    renderMask I glyph left bottom posX posY w h image mask = .overflow := by
  have hin : ∀ v : Int, (intTy I).In v ↔ PixelBox.Spec.Rep I v := fun v => In_s I v
  have := sub_eq (I := I) (a := bottom + glyph.h) (b := 0)
  unfold PixelBox.sub at this
  rw [Int.sub_zero, if_pos (show _ ∧ _ from ht)] at this
  unfold renderMask
  rw [this]
  simp only [hin]
  by_cases h1 : PixelBox.Spec.Rep I (posX + left)
  · rw [if_neg (by simpa using h1), if_pos (by tauto)]
  · rw [if_pos h1]

/-- C214: the computation of the upper edge of the glyph is not checked. -/
theorem C214_unchecked_top : ∃ (glyph : Box) (bottom : Int), PixelBox.Spec.Valid 31 glyph ∧
    PixelBox.Spec.Rep 31 bottom ∧
    ∀ (posX posY : Int) (m : Int → Int → Nat), renderMask 31 glyph 0 bottom posX posY 10 10 m m = .undefined :=
  ⟨⟨0, 0, 6, 8⟩, 2147483640, by decide +kernel, by decide +kernel, fun _ _ _ => rfl⟩

-- A glyph of 6 by 8 pixels at column 12 and row 0 of its image, with base point at column 8, row 9 of a mask of 10 by 10
-- pixels, one pixel below the base line: columns 8 and 9, and rows 2 to 9.
example : (match renderMask 31 ⟨12, 0, 6, 8⟩ 0 (-1) 8 9 10 10 (fun x y => 100 * y + x) (fun _ _ => (7 : Int)) with
    | .ok r => [r 7 2, r 8 1, r 8 2, r 9 9, r 10 9]
    | _ => []) = [7, 7, 12, 713, 7] := by decide +kernel

end Verif.FallbackFont
