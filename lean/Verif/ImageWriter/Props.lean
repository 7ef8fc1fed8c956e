import Verif.ImageWriter.Ops
/-!
Writing of pixels (C95).

The theorems whose names end in `_partial` are not about positions with a coordinate that is the least value of type `int` (`BoxOk`), see `C95_least_position`. Also, see
`C95_background_not_blended`.
-/
namespace Verif.ImageWriter
open Verif.Integer Verif.PixelBox Verif.PixelBox.Spec Verif.ImageIter Verif.ImageIter.Spec Verif.ImageReader Spec

variable {α β φ P : Type}

theorem setup_ok {I : Nat} {wr : Writer α φ} {acc : Access α φ} {old : Pixels α → Int → Int → List φ} {enc : List φ → List α}
    (hs : Setup I wr acc old enc) (hw : WriterOk I wr) : AccessOk I wr acc old enc := by
  cases hs with
  | other => exact access_ok hw
  | float => exact accessN_ok hw.channels

theorem origin_ok {I colors : Nat} {readG : Int → Int → Tray → Mem φ → Option (Mem φ)} {img : Int → Int → List φ} (h : Origin I colors readG img) :
    ReadAll I (fun w _ => w ≤ 4096) readG (colors + 1) img ∧ ∀ x y, (img x y).length = colors + 1 := by
  have hcol : ∀ {δ : Type} (r : Reader φ δ), ImageReader.Spec.Consistent I r → ∀ x y : Int,
      (ImageReader.Spec.extended r.horz r.vert r.w r.h (ImageReader.Spec.color r true) (ImageReader.Spec.background r true) x y).length = r.numChannelsExt := by
    intro δ r hr
    apply extended_all (P := fun l : List φ => l.length = r.numChannelsExt)
    · unfold ImageReader.Spec.background
      split
      · exact hr.bgN
      · exact hr.bgU
    · intro x y k1 k2 k3 k4
      unfold ImageReader.Spec.color
      cases hp : r.pixels with
      | direct col =>
        have := hr.color col hp x y k1 k2 k3 k4
        cases ha : r.hasAlpha with
        | true => rw [ha] at this; simpa [Reader.numChannelsExt] using this
        | false => rw [ha] at this; simpa [Reader.numChannelsExt] using this
      | indexed index =>
        simp only
        cases hq : r.palette[index x y]? with
        | some p => exact hr.palette p (List.mem_of_getElem? hq)
        | none => exact hr.bgU
  cases h with
  | same r hr hc =>
    subst hc
    exact ⟨(readN_all hr (alpha := true)).weaken fun _ _ _ => trivial, hcol r hr⟩
  | converted r hr hk q conv hc hq =>
    have := hr.w; have := hr.h
    have hl : ∀ x y : Int, (ImageReader.Spec.extended r.horz r.vert r.w r.h (ImageReader.Spec.colorF r) r.bgF x y).length = r.numChannelsExt :=
      extended_all (P := fun l : List φ => l.length = r.numChannelsExt) hr.bgF (readF_ok hr).2
    have h1 : ReadAll I (fun _ _ => True) (r.readEF I) r.numChannelsExt
        (ImageReader.Spec.extended r.horz r.vert r.w r.h (ImageReader.Spec.colorF r) r.bgF) :=
      readE_all (readF_ok hr).1 (by rw [hr.bgF]; rfl) (fun x y k1 k2 k3 k4 => ((readF_ok hr).2 x y k1 k2 k3 k4).ge) (by omega) (by omega) (by omega) (by omega)
    have h2 := convert_all h1 hl (conv := conv) (n := colors + 1) (fun p hp => (hc p hp).ge)
      (by show ((r.colors + 1 : Nat) : Int) * 4096 < _; push_cast; omega)
    refine ⟨?_, fun x y => hc _ (hl x y)⟩
    have e : colors + 1 = q.colors + q.hasAlpha.toNat := by rw [hq.1, hq.2]; rfl
    rw [e] at h2 ⊢
    exact h2.weaken fun _ _ h => ⟨trivial, h⟩
  | convertedFloat r hr hk q conv hc hq =>
    have h2 := convert_all (readN_all hr (alpha := true)) (hcol r hr) (conv := conv) (n := colors + 1) (fun p hp => (hc p hp).ge)
      (by show ((r.colors + 1 : Nat) : Int) * 4096 < _; push_cast; omega)
    refine ⟨?_, fun x y => hc _ (hcol r hr x y)⟩
    have e : colors + 1 = q.colors + q.hasAlpha.toNat := by rw [hq.1, hq.2]; rfl
    rw [e] at h2 ⊢
    exact h2.weaken fun _ _ h => ⟨trivial, h⟩

/-! ### Examples: setup -/

/-- An image of 3 by 2 pixels with one color channel and perhaps an alpha channel. The opacity of the writer is 1/2 if not 1. Components in the representation of the
image and in `float_` are the same, and 100 is full opacity. The color of the pixels is 0 with full opacity. In palette lookup, the index is the color component. -/
def canvas (blending unscaled hasAlpha : Bool) : Writer Nat Nat where
  reader := { small .edge .edge with w := 3, h := 2, hasAlpha := hasAlpha, toFloat := fun has _ p => if has then p else p ++ [100], bgR := if hasAlpha then [9, 7] else [9] }
  blending := blending
  unscaled := unscaled
  scale := fun v => v / 2
  over := fun alpha a b => a + (100 - alpha) * b / 100
  fromFloat := fun p => p.take (1 + hasAlpha.toNat)
  lookup := fun p => p.headD 0

/-- All pixels of the image have this color. -/
def plain (c : List Nat) : Pixels Nat := .direct fun _ _ => c

/-- The colors of the pixels, row by row. -/
def picture : Option (Pixels Nat) → Option (List (List (List Nat)))
  | some (.direct color) => some ((List.range 2).map fun y => (List.range 3).map fun x => color x y)
  | some (.indexed index) => some ((List.range 2).map fun y => (List.range 3).map fun x => [index x y])
  | none => none

/-- Memory with the specified components. -/
def bytes (l : List Nat) : Mem Nat := cells (l.map some)

example : WriterOk 31 (canvas true false true) where
  channels := by show ((1 : Int) + 1) * 4096 < 2 ^ 31; omega
  fromFloat := by
    intro p hp
    change p.length = 2 at hp
    show (p.take 2).length = 2
    rw [List.length_take, hp]
    rfl

example : ImageReader.Spec.Consistent 31 ((canvas true false true).at (plain [10, 100])) where
  w := ⟨by show (0 : Int) ≤ 3; omega, by show (3 : Int) ≤ _; omega⟩
  h := ⟨by show (0 : Int) ≤ 2; omega, by show (2 : Int) ≤ _; omega⟩
  color := by
    intro color h x y _ _ _ _
    cases h
    rfl
  palette := by intro p h; cases h
  paletteF := by intro p h; cases h
  bgU := rfl
  bgR := rfl
  bgN := rfl
  bgF := rfl
  toFloat := by
    intro p h
    exact h

example : Block (bytes [1, 2, 3, 4]) ⟨⟨0, 1, 2⟩, 2, 2⟩ 1 (fun x y => [(1 + x + 2 * y).toNat]) where
  len := by intros; rfl
  mem := by
    rintro x y i ⟨⟨k1, k2⟩, k3, k4⟩ hi
    simp only at k1 k2 k3 k4
    have hx : x = 0 ∨ x = 1 := by omega
    have hy : y = 0 ∨ y = 1 := by omega
    obtain rfl : i = 0 := by omega
    rcases hx with rfl | rfl <;> rcases hy with rfl | rfl <;> rfl

/-! ### Blocks of pixels -/

/-- Writing of a block with conversion: Those pixels of the block that fall inside the image are converted, are scaled by the opacity of the writer, are
blended with the existing color if blending is enabled, and take the place of it. In images with indexed color, the index is that which palette lookup finds
for the color. No other pixel is changed. The block can be anywhere, and partly or fully outside the image. There is no undefined behavior. -/
theorem C95_block_converted_partial (I : Nat) (wr : Writer α φ) (acc : Access α φ) (old : Pixels α → Int → Int → List φ) (enc : List φ → List α)
    (hs : Setup I wr acc old enc) (hw : WriterOk I wr) (st : Pixels α) (hc : ImageReader.Spec.Consistent I (wr.at st)) (conv : List β → List φ) (c : Nat)
    (x y : Int) (t : Tray) (m : Mem β) (f : Int → Int → List β) (hb : Block m t c f) (hx : BoxOk I ⟨x, y, t.w, t.h⟩)
    (hconv : ∀ p, p.length = c → (conv p).length = wr.reader.colors + 1) :
    ∃ st', wr.putBlockConv I acc conv c x y t m st = some st' ∧ ImageReader.Spec.Consistent I (wr.at st') ∧
      Painted (Hit wr.reader.w wr.reader.h ⟨x, y, t.w, t.h⟩) (fun px py => enc (blended wr (scaled wr (conv (f (px - x) (py - y)))) (old st px py)))
        (fun px py => wr.lookup (blended wr (scaled wr (conv (f (px - x) (py - y)))) (old st px py))) st st' :=
  putBlockConv_spec (setup_ok hs hw) hw.channels hc hb hx hconv

/-- A block of 2 by 2 pixels at (-1, 1), and with blending and with opacity 1/2. Only one pixel is inside the image. -/
example : picture ((canvas true false true).putBlockConv 31 ((canvas true false true).access 31) (fun p => p ++ [100]) 1 (-1) 1 ⟨⟨0, 1, 2⟩, 2, 2⟩ (bytes [20, 30, 40, 50])
      (plain [10, 100])) =
    some [[[10, 100], [10, 100], [10, 100]],
          [[20, 100], [10, 100], [10, 100]]] := by decide +kernel

/-- Writing of a block without loss: The pixels are exactly those of the block, with full opacity added if the block has no alpha components and the image has
an alpha channel. -/
theorem C95_block_lossless_partial (I : Nat) (wr : Writer α φ) (hk : ((wr.reader.colors : Int) + 1) * 4096 < 2 ^ I) (color : Int → Int → List α)
    (hc : ImageReader.Spec.Consistent I (wr.at (.direct color))) (hasAlpha : Bool) (x y : Int) (t : Tray) (m : Mem α) (f : Int → Int → List α)
    (hb : Block m t (wr.reader.colors + hasAlpha.toNat) f) (hx : BoxOk I ⟨x, y, t.w, t.h⟩) :
    ∃ color', wr.putBlock I hasAlpha x y t m (.direct color) = some (.direct color') ∧
      Changed (Hit wr.reader.w wr.reader.h ⟨x, y, t.w, t.h⟩) (fun px py => if wr.reader.hasAlpha && !hasAlpha then f (px - x) (py - y) ++ [wr.reader.max]
        else (f (px - x) (py - y)).take (wr.reader.colors + wr.reader.hasAlpha.toNat)) color color' :=
  putBlock_spec hk hc hb hx

example : picture ((canvas false true true).putBlock 31 false 1 0 ⟨⟨0, 1, 2⟩, 2, 2⟩ (bytes [20, 30, 40, 50]) (plain [10, 90])) =
    some [[[10, 90], [20, 100], [30, 100]],
          [[10, 90], [40, 100], [50, 100]]] := by decide +kernel

/-- When a block is written without loss. This includes all cases for which the documentation promises it. When blending is enabled, it is done only if the pixels
have no alpha components, and the opacity of the writer is 1, such that blending makes no difference. -/
theorem C95_lossless (wr : Writer α φ) (q : Format) (st : Pixels α) :
    wr.lossless q st = true ↔ (q.sameRepr = true ∧ q.sameSpace = true ∧ wr.unscaled = true ∧ (∃ color, st = .direct color)) ∧
      (q.hasAlpha = true → wr.reader.hasAlpha = true ∨ q.isFloat = true) ∧ (wr.blending = true → q.hasAlpha = false) := by
  unfold Writer.lossless
  cases st <;> cases q.sameRepr <;> cases q.sameSpace <;> cases q.isFloat <;> cases q.hasAlpha <;> cases wr.reader.hasAlpha <;> cases wr.blending <;>
    cases wr.unscaled <;> simp [isIndexed]

/-- Writing of a block, when its representation is that of the image. -/
theorem C95_block_partial (I : Nat) (wr : Writer α φ) (acc : Access α φ) (old : Pixels α → Int → Int → List φ) (enc : List φ → List α)
    (hs : Setup I wr acc old enc) (hw : WriterOk I wr) (st : Pixels α) (hc : ImageReader.Spec.Consistent I (wr.at st)) (q : Format) (conv : List α → List φ)
    (cs : Nat) (x y : Int) (t : Tray) (m : Mem α) (f : Int → Int → List α) (hb : Block m t (cs + q.hasAlpha.toNat) f)
    (hcs : q.sameSpace = true → cs = wr.reader.colors) (hx : BoxOk I ⟨x, y, t.w, t.h⟩)
    (hconv : ∀ p, p.length = cs + q.hasAlpha.toNat → (conv p).length = wr.reader.colors + 1) :
    ∃ st', wr.putBlockA I acc q conv (cs + q.hasAlpha.toNat) x y t m st = some st' ∧
      Painted (Hit wr.reader.w wr.reader.h ⟨x, y, t.w, t.h⟩) (fun px py =>
          if wr.lossless q st then (if wr.reader.hasAlpha && !q.hasAlpha then f (px - x) (py - y) ++ [wr.reader.max]
            else (f (px - x) (py - y)).take (wr.reader.colors + wr.reader.hasAlpha.toNat))
          else enc (blended wr (scaled wr (conv (f (px - x) (py - y)))) (old st px py)))
        (fun px py => wr.lookup (blended wr (scaled wr (conv (f (px - x) (py - y)))) (old st px py))) st st' := by
  unfold Writer.putBlockA
  by_cases hl : wr.lossless q st = true
  · rw [if_pos hl]
    obtain ⟨⟨-, h2, -, color, rfl⟩, -⟩ := (C95_lossless wr q st).mp hl
    have h := hcs h2
    subst h
    obtain ⟨color', e, hp⟩ := putBlock_spec hw.channels hc hb hx
    refine ⟨.direct color', e, ?_⟩
    show Changed _ _ _ _
    apply Changed.congr hp (fun _ _ => Iff.rfl)
    intro px py _
    rw [if_pos hl]
  · rw [if_neg hl]
    obtain ⟨st', e, -, hp⟩ := putBlockConv_spec (setup_ok hs hw) hw.channels hc hb hx hconv
    refine ⟨st', e, Painted.congr hp (fun _ _ => Iff.rfl) ?_ (fun _ _ _ => rfl)⟩
    intro px py _
    rw [if_neg hl]

/-- Indexed color. -/
example : picture ((canvas false true true).putBlockA 31 ((canvas false true true).access 31) ⟨true, false, true, true⟩ id 2 2 1 ⟨⟨0, 2, 4⟩, 2, 1⟩ (bytes [20, 30, 40, 50])
      (.indexed fun _ _ => 7)) =
    some [[[7], [7], [7]],
          [[7], [7], [20]]] := by decide +kernel

/-- Stencil: The preliminary pixel is made of the foreground and background color and the value of the mask, and is written like any other pixel. -/
theorem C95_mask_partial (I : Nat) (wr : Writer α φ) (acc : Access α φ) (old : Pixels α → Int → Int → List φ) (enc : List φ → List α)
    (hs : Setup I wr acc old enc) (hw : WriterOk I wr) (st : Pixels α) (hc : ImageReader.Spec.Consistent I (wr.at st)) (level : β → φ) (mix : φ → φ → φ → φ → φ)
    (fg bg : List φ) (fgAlpha : φ) (hf : fg.length = wr.reader.colors + 1) (hbg : bg.length = wr.reader.colors + 1) (hal : fg.getLast? = some fgAlpha)
    (x y : Int) (t : Tray) (m : Mem β) (g : Int → Int → β) (hb : Block m t 1 (fun i j => [g i j])) (hx : BoxOk I ⟨x, y, t.w, t.h⟩) :
    ∃ st', wr.putMask I acc level mix fg bg x y t m st = some st' ∧ ImageReader.Spec.Consistent I (wr.at st') ∧
      Painted (Hit wr.reader.w wr.reader.h ⟨x, y, t.w, t.h⟩)
        (fun px py => enc (blended wr (List.zipWith (mix (level (g (px - x) (py - y))) fgAlpha) fg bg) (old st px py)))
        (fun px py => wr.lookup (blended wr (List.zipWith (mix (level (g (px - x) (py - y))) fgAlpha) fg bg) (old st px py))) st st' :=
  putMask_spec (setup_ok hs hw) hw.channels hc hf hbg (by rw [List.getLast?_eq_getElem?, hf] at hal; exact hal) hb hx

/-- The mask values are 0 and 100. -/
example : picture ((canvas false true false).putMask 31 ((canvas false true false).access 31) (fun v : Nat => v)
      (fun level alpha f b => level * f / 100 + (100 - level * alpha / 100) * b / 100) [50, 100] [20, 100] 0 0 ⟨⟨0, 1, 2⟩, 2, 1⟩ (bytes [0, 100]) (plain [10])) =
    some [[[20], [50], [10]],
          [[10], [10], [10]]] := by decide +kernel

/-! ### Images -/

/-- Writing of a part of another image with conversion. The part can extend beyond the boundary of the other image, and then the falloff modes of the reader of that
image determine what is seen. -/
theorem C95_image_converted_partial (I : Nat) (wr : Writer α φ) (acc : Access α φ) (old : Pixels α → Int → Int → List φ) (enc : List φ → List α)
    (hs : Setup I wr acc old enc) (hw : WriterOk I wr) (st : Pixels α) (hc : ImageReader.Spec.Consistent I (wr.at st))
    (readG : Int → Int → Tray → Mem φ → Option (Mem φ)) (img : Int → Int → List φ) (hr : Origin I wr.reader.colors readG img) (x y : Int) (box : Box)
    (hx : BoxOk I ⟨x, y, box.w, box.h⟩) (he : PixelBox.Spec.Exists I box) (hv : Valid I box) :
    ∃ st', wr.putImageConv I acc readG x y box st = some st' ∧ ImageReader.Spec.Consistent I (wr.at st') ∧
      Painted (Hit wr.reader.w wr.reader.h ⟨x, y, box.w, box.h⟩)
        (fun px py => enc (blended wr (scaled wr (img (box.x + (px - x)) (box.y + (py - y)))) (old st px py)))
        (fun px py => wr.lookup (blended wr (scaled wr (img (box.x + (px - x)) (box.y + (py - y)))) (old st px py))) st st' :=
  putImageConv_spec (setup_ok hs hw) hw.channels hc (origin_ok hr).1 (origin_ok hr).2 hx he hv

/-- Writing of a part of another image without loss. -/
theorem C95_image_lossless_partial (I : Nat) (wr : Writer α φ) (hk : ((wr.reader.colors : Int) + 1) * 4096 < 2 ^ I) (color : Int → Int → List α)
    (hc : ImageReader.Spec.Consistent I (wr.at (.direct color))) (origin : Reader α φ) (ho : ImageReader.Spec.Consistent I origin)
    (hcs : origin.colors = wr.reader.colors) (x y : Int) (box : Box) (hx : BoxOk I ⟨x, y, box.w, box.h⟩) (he : PixelBox.Spec.Exists I box) (hv : Valid I box) :
    ∃ color', wr.putImage I origin x y box (.direct color) = some (.direct color') ∧
      Changed (Hit wr.reader.w wr.reader.h ⟨x, y, box.w, box.h⟩) (fun px py => (ImageReader.Spec.extended origin.horz origin.vert origin.w origin.h
        (ImageReader.Spec.color origin wr.reader.hasAlpha) (ImageReader.Spec.background origin wr.reader.hasAlpha) (box.x + (px - x))
          (box.y + (py - y))).take (wr.reader.colors + wr.reader.hasAlpha.toNat)) color color' :=
  putImage_spec hk hc ho hcs hx he hv

/-- The part from (1, 1) of size 2 by 2 is written to (0, 0), and the falloff mode is repetition. -/
example : picture ((canvas false true true).putImage 31 (small .repeat .repeat) 0 0 ⟨1, 1, 2, 2⟩ (plain [10, 90])) =
    some [[[4, 100], [3, 100], [10, 90]],
          [[2, 100], [1, 100], [10, 90]]] := by decide +kernel

example : picture ((canvas true false false).putImageConv 31 ((canvas true false false).access 31) ((small .edge .edge).readN 31 true) 2 (-1) ⟨1, 0, 2, 2⟩ (plain [10])) =
    some [[[10], [10], [7]],
          [[10], [10], [10]]] := by decide +kernel

/-- According to the documentation, the pixels that are written are blended with the existing ones when blending is enabled. However, when the other image has no alpha channel,
the background color of the reader of that image, which can be seen beyond the boundary of it, is written without blending, even if it has transparency. Here, the other image is of size
2 by 2, the background color has opacity 7/100, and the existing color is lost. -/
theorem C95_background_not_blended :
    (canvas true true true).lossless ⟨true, false, true, (small .background .background).hasAlpha⟩ (plain [50, 100]) = true ∧
      picture ((canvas true true true).putImageA 31 ((canvas true true true).access 31) ⟨true, false, true, false⟩ (small .background .background)
          ((small .background .background).readN 31 true) 0 0 ⟨0, 0, 3, 2⟩ (plain [50, 100])) =
        some [[[1, 100], [2, 100], [9, 7]],
              [[3, 100], [4, 100], [9, 7]]] ∧
      picture ((canvas true true true).putImageConv 31 ((canvas true true true).access 31) ((small .background .background).readN 31 true) 0 0 ⟨0, 0, 3, 2⟩
          (plain [50, 100])) =
        some [[[1, 100], [2, 100], [55, 100]],
              [[3, 100], [4, 100], [55, 100]]] := by decide +kernel

/-! ### Filling -/

/-- Filling: Those pixels of the area that fall inside the image get the color of the slot, scaled by the opacity of the writer, and blended with the existing color if
blending is enabled. Blending is not performed when the color is solid and the opacity is 1. No other pixel is changed. -/
theorem C95_fill_partial (I : Nat) (wr : Writer α φ) (acc : Access α φ) (old : Pixels α → Int → Int → List φ) (enc : List φ → List α)
    (hs : Setup I wr acc old enc) (hw : WriterOk I wr) (st : Pixels α) (hc : ImageReader.Spec.Consistent I (wr.at st)) (convert : List φ → List α)
    (slot : Slot α φ) (hsl : SlotOk wr convert slot) (area : Box) (hx : BoxOk I area) :
    ∃ st', wr.fill I acc convert slot area st = some st' ∧ ImageReader.Spec.Consistent I (wr.at st') ∧
      Painted (Hit wr.reader.w wr.reader.h area)
        (fun px py =>
          if wr.blending && !(slot.solid && wr.unscaled) then enc (over wr (slot.f.map wr.scale) (old st px py))
          else if wr.unscaled then (if wr.reader.hasAlpha then slot.u else slot.r).take (wr.reader.colors + wr.reader.hasAlpha.toNat)
          else convert ((slot.f.take (wr.reader.colors + wr.reader.hasAlpha.toNat)).map wr.scale))
        (fun px py => wr.lookup (if wr.blending && !(slot.solid && wr.unscaled) then over wr (slot.f.map wr.scale) (old st px py) else slot.f.map wr.scale))
        st st' := by
  have ha := setup_ok hs hw
  unfold Writer.fill
  simp only [Option.bind_eq_bind]
  rcases overlap_spec (b := area) hc.w hc.h hx with ⟨e, hn⟩ | ⟨d, e, hp, ⟨g1, g2, g3, g4, g5, g6⟩, g7, g8, g9, g10⟩
  · change overlap I wr.reader.w wr.reader.h _ = _ at e
    rw [e]
    exact ⟨st, rfl, hc, Painted.refl st hn⟩
  · change overlap I wr.reader.w wr.reader.h _ = _ at e
    rw [e]
    change d.x + d.w ≤ wr.reader.w at g8
    change d.y + d.h ≤ wr.reader.h at g10
    simp only [Option.bind_some]
    by_cases hbl : (wr.blending && !(slot.solid && wr.unscaled)) = true
    · rw [if_neg (by cases h1 : wr.blending <;> cases h2 : slot.solid <;> cases h3 : wr.unscaled <;> simp_all)]
      have hf : (slot.f.map wr.scale).length = wr.reader.colors + 1 := by rw [List.length_map, hsl.f]
      obtain ⟨st', e', hc', hp'⟩ := boxes_spec ha (c := d) (N := fun _ _ o => over wr (slot.f.map wr.scale) o)
        (f := wr.fillBox I acc (slot.f.map wr.scale)) (by
          intro b s sm h
          obtain ⟨s1, s2, s3, s4, s5, s6, s7, s8⟩ := sm
          exact fillBox_spec ha hw.channels h hf s1 s7 s2 (by omega) (by omega) (by omega) (by omega)) hc g1 g2 g7 g8 g9 g10
      refine ⟨st', e', hc', Painted.congr hp' hp ?_ ?_⟩
      · intro px py _
        rw [if_pos hbl]
      · intro px py _
        rw [if_pos hbl]
    · rw [if_pos (by cases h1 : wr.blending <;> cases h2 : slot.solid <;> cases h3 : wr.unscaled <;> simp_all)]
      have hr := hsl.r; have hu := hsl.u; have hff := hsl.f
      have hb1 := Bool.toNat_le wr.reader.hasAlpha
      have hP : ∃ st', wr.fillPlain convert slot d st = some st' ∧ Painted (Pixel d)
          (fun _ _ => if wr.unscaled then (if wr.reader.hasAlpha then slot.u else slot.r).take (wr.reader.colors + wr.reader.hasAlpha.toNat)
            else convert ((slot.f.take (wr.reader.colors + wr.reader.hasAlpha.toNat)).map wr.scale))
          (fun _ _ => wr.lookup (slot.f.map wr.scale)) st st' := by
        cases st with
        | direct color =>
          obtain ⟨img', e2, h2⟩ := imageFill_spec (b := d) g7 g8 g9 g10 (((if wr.unscaled then (if !wr.reader.hasAlpha then slot.r else slot.u)
            else convert ((slot.f.take wr.reader.numChannels).map wr.scale))).take wr.reader.numChannels) color
          refine ⟨.direct img', ?_, ?_⟩
          · unfold Writer.fillPlain
            simp only [Option.bind_eq_bind]
            rw [e2]
            rfl
          · show Changed _ _ _ _
            apply Changed.congr h2 (fun _ _ => Iff.rfl)
            intro px py _
            simp only [Reader.numChannels]
            cases wr.unscaled with
            | true => cases wr.reader.hasAlpha <;> rfl
            | false =>
              simp only [Bool.false_eq_true, if_false]
              rw [List.take_of_length_le]
              rw [hsl.convert, List.length_map, List.length_take]
              omega
        | indexed index =>
          obtain ⟨img', e2, h2⟩ := imageFill_spec (b := d) g7 g8 g9 g10 (wr.lookup (slot.f.map wr.scale)) index
          refine ⟨.indexed img', ?_, h2⟩
          unfold Writer.fillPlain
          simp only [Option.bind_eq_bind]
          rw [e2]
          rfl
      obtain ⟨st', e', hp'⟩ := hP
      refine ⟨st', e', consistent_painted hc hp' ?_, Painted.congr hp' hp ?_ ?_⟩
      · intro px py _
        cases wr.unscaled with
        | true =>
          simp only [if_true]
          rw [List.length_take]
          split <;> omega
        | false =>
          simp only [Bool.false_eq_true, if_false]
          rw [hsl.convert, List.length_map, List.length_take]
          omega
      · intro px py _
        rw [if_neg hbl]
      · intro px py _
        rw [if_neg hbl]

/-- With blending and with opacity 1/2. -/
example : picture ((canvas true false false).fill 31 ((canvas true false false).access 31) id ⟨true, [20], [20, 100], [20, 100]⟩ ⟨1, -7, 8, 8⟩ (plain [10])) =
    some [[[10], [15], [15]],
          [[10], [10], [10]]] := by decide +kernel

/-- Without blending. -/
example : picture ((canvas false true true).fill 31 ((canvas false true true).access 31) id ⟨true, [20], [20, 100], [20, 100]⟩ ⟨1, 1, 1, 8⟩ (plain [10, 100])) =
    some [[[10, 100], [10, 100], [10, 100]],
          [[10, 100], [20, 100], [10, 100]]] := by decide +kernel

/-- According to the documentation, the area can be fully outside the image. However, if a coordinate of its position is the least value of type `int`, there is undefined behavior. -/
theorem C95_least_position (wr : Writer α φ) (acc : Access α φ) (convert : List φ → List α) (slot : Slot α φ) (st : Pixels α) (hw : wr.reader.w = 3)
    (hh : wr.reader.h = 2) : wr.fill 31 acc convert slot ⟨-2 ^ 31, 0, 1, 1⟩ st = none := by
  have : overlap 31 wr.reader.w wr.reader.h ⟨-2 ^ 31, 0, 1, 1⟩ = none := by
    rw [hw, hh]
    decide +kernel
  unfold Writer.fill
  rw [this]
  rfl

end Verif.ImageWriter
