import Verif.IntegerPixel.Main
import Verif.IndexedPixel.Main
import Verif.BitMedium.Props
/-!
C79: integer pixel formats.
-/
namespace Verif.IntegerPixel
open Verif.Integer Verif.PixelLoops

/-- C79: a channel value is assembled from its words exactly if the number of bits per word is not greater than the number of value
bits of `int`, or is less than the number of bits of the component type. -/
theorem C79_assembly (f : Fmt) (hf : Spec.Accepted f) (hs : f.B ≤ f.I ∨ f.B < BitMedium.Spec.width f.compType) (v : Nat)
    (hv : v < 2 ^ (f.D * f.B)) (buf : List Int) (chan : Nat)
    (hbuf : ∀ t, t < f.D → buf[chan + t]? = some (BitMedium.Spec.packed f.word f.B (Spec.wordBits f v t))) :
    readLoop f buf chan f.D 0 0 = some (v : Int) :=
  assemble hf ((shift_ok_iff hf).2 hs) hv hbuf

/-- C79: otherwise, the behavior is undefined, because the value is shifted by the number of bits of its type. -/
theorem C79_assembly_undefined (f : Fmt) (hf : Spec.Accepted f) (hs : ¬ (f.B ≤ f.I ∨ f.B < BitMedium.Spec.width f.compType))
    (buf : List Int) (chan : Nat) : readLoop f buf chan f.D 0 0 = none :=
  undefined hf.D (fun h => hs ((shift_ok_iff hf).1 h))

/-- C79: reading an area gives exactly the pixels of the area. Nothing outside the buffer is
accessed. -/
theorem C79_read_partial (f : Fmt) (hf : Spec.Ok f) (img : Nat → List Nat) (himg : ∀ i, Spec.ValidPixel f (img i)) (m W H px py w h : Nat)
    (hm : W * H ≤ m) (hx : px + w ≤ W) (hy : py + h ≤ H) :
    read f (Spec.encode f m img) W H px py w h =
      some (PixelLoops.Spec.crop W px py w h (fun i => Spec.transferred f (img i))) :=
  PixelGrid.read_spec (readPixel_spec hf) himg hm hx hy

/-- C79: writing changes exactly the pixels of the area. -/
theorem C79_write_partial (f : Fmt) (hf : Spec.Ok f) (img : Nat → List Nat) (m W H px py w h : Nat)
    (hm : W * H ≤ m) (hx : px + w ≤ W) (hy : py + h ≤ H) (src : Nat → Nat → List Nat)
    (hsrc : ∀ x y, x < w → y < h → Spec.ValidColor f (src x y)) (tray : Nat → Nat → Option (List Int))
    (htray : ∀ x y, x < w → y < h → tray x y = some (Spec.color f (src x y))) :
    write f (Spec.encode f m img) W H px py w h tray =
      some (Spec.encode f m (PixelLoops.Spec.draw W px py w h (fun x y => Spec.quantized f (src x y)) img)) := by
  refine (PixelGrid.write_spec (writePixel_spec hf) (Nat.mul_pos hf.n hf.D) (f := fun x y => Spec.color f (src x y)) hm hx hy
    (fun x y hx hy => ⟨htray x y hx hy, _, hsrc x y hx hy, rfl⟩)).trans ?_
  unfold Spec.encode
  congr 2
  exact draw_congr (fun x y hx hy => stores_eq hf (hsrc x y hx hy))

/-- C79: filling changes exactly the pixels of the area. -/
theorem C79_fill_partial (f : Fmt) (hf : Spec.Ok f) (img : Nat → List Nat) (m W H px py w h : Nat)
    (hm : W * H ≤ m) (hx : px + w ≤ W) (hy : py + h ≤ H) (c : List Nat) (hc : Spec.ValidColor f c) (init : List Int)
    (hinit : init.length = f.n * f.D) :
    fill f init (Spec.encode f m img) W H px py w h (Spec.color f c) =
      some (Spec.encode f m (PixelLoops.Spec.draw W px py w h (fun _ _ => Spec.quantized f c) img)) := by
  rw [← stores_eq hf hc]
  exact PixelGrid.fill_spec (writePixel_spec hf) (Nat.mul_pos hf.n hf.D) hm hx hy ⟨c, hc, rfl⟩ init hinit

/-- C79: a pixel that is read anywhere after something was written is the one that was written, if its position is in the
written area, and what it was before otherwise. -/
theorem C79_read_after_write_partial (f : Fmt) (hf : Spec.Ok f) (img : Nat → List Nat) (himg : ∀ i, Spec.ValidPixel f (img i))
    (m W H px py w h : Nat) (hm : W * H ≤ m) (hx : px + w ≤ W) (hy : py + h ≤ H)
    (src : Nat → Nat → List Nat) (hsrc : ∀ x y, x < w → y < h → Spec.ValidColor f (src x y))
    (tray : Nat → Nat → Option (List Int)) (htray : ∀ x y, x < w → y < h → tray x y = some (Spec.color f (src x y)))
    (x y : Nat) (hxW : x < W) (hyH : y < H) :
    ∃ buf, write f (Spec.encode f m img) W H px py w h tray = some buf ∧
      read f buf W H x y 1 1 = if px ≤ x ∧ x < px + w ∧ py ≤ y ∧ y < py + h then
          some [[Spec.transferred f (Spec.quantized f (src (x - px) (y - py)))]]
        else read f (Spec.encode f m img) W H x y 1 1 := by
  refine ⟨_, C79_write_partial f hf img m W H px py w h hm hx hy src hsrc tray htray, ?_⟩
  rw [C79_read_partial f hf _ (draw_all (P := Spec.ValidPixel f) himg
      (fun x y hx hy => quantized_valid (hsrc x y hx hy))) m W H x y 1 1 hm (by omega) (by omega),
    C79_read_partial f hf img himg m W H x y 1 1 hm (by omega) (by omega)]
  split
  · rename_i hin
    have := draw_inside (img := img) (src := fun x y => Spec.quantized f (src x y)) (px := px) (py := py) (w := w)
      (h := h) (x := x - px) (y := y - py) (S := W) (by omega) (by omega) (by omega)
    rw [show px + (x - px) = x by omega, show py + (y - py) = y by omega] at this
    simp only [PixelLoops.Spec.crop, List.range_one, List.map_cons, List.map_nil, Nat.add_zero, this]
  · rename_i hout
    have := draw_outside (img := img) (src := fun x y => Spec.quantized f (src x y)) (px := px) (py := py) (w := w)
      (h := h) (x := x) (y := y) (S := W) (by omega) hout
    simp [PixelLoops.Spec.crop, this]

/-- C79: a pixel that is read can be written, and its channel values are then stored without loss. -/
theorem C79_lossless_partial (f : Fmt) (hf : Spec.Ok f) (c : List Nat) (hc : Spec.ValidPixel f c) :
    ∃ d, Spec.ValidColor f d ∧ Spec.transferred f c = Spec.color f d ∧ Spec.quantized f d = c := by
  refine ⟨c.map fun v => UnitFrac.Spec.convert v (2 ^ Spec.depth f - 1) (2 ^ Spec.compBits f - 1), ⟨?_, fun v hv => ?_⟩, ?_, ?_⟩
  · rw [List.length_map, hc.1]
  · obtain ⟨w, _, rfl⟩ := List.mem_map.1 hv
    exact convert_lt _ _ _
  · unfold Spec.transferred Spec.color
    rw [List.map_map]; rfl
  · unfold Spec.quantized
    rw [List.map_map]
    conv => rhs; rw [← List.map_id c]
    apply List.map_congr_left
    intro v hv
    exact BitMedium.convert_round_trip (depth_pos hf.toAccepted) (depth_le_compBits hf) (hc.2 v hv)

/-- C79: an area that is not contained in the image is rejected. -/
theorem C79_outside (f : Fmt) (init buf : List Int) (W H : Nat) (x y : Int) (w h : Nat)
    (hout : ¬ (0 ≤ x ∧ 0 ≤ y ∧ x + w ≤ W ∧ y + h ≤ H)) (tray : Nat → Nat → Option (List Int)) (color : List Int) :
    read f buf W H x y w h = none ∧ write f buf W H x y w h tray = none ∧ fill f init buf W H x y w h color = none := by
  have := PixelGrid.outside hout
  refine ⟨?_, ?_, ?_⟩
  · unfold read PixelGrid.read; rw [this]; rfl
  · unfold write PixelGrid.write; rw [this]; rfl
  · unfold fill PixelGrid.fill; rw [this]; rfl

/-- C79: the size of the buffer, and failure when it cannot be represented. -/
theorem C79_buffer_size (f : Fmt) (hf : Spec.Accepted f) (Z W H : Nat) (hZ : f.I ≤ Z) (hW : W < 2 ^ f.I) (hH : H < 2 ^ f.I) :
    getBufferSize f Z W H =
      some (if f.n * f.D * W < 2 ^ Z ∧ f.n * f.D * W * H < 2 ^ Z then some ((f.n * f.D * W * H : Nat) : Int) else none) :=
  PixelGrid.getBufferSize_spec hf.I hZ hf.int hW hH

/-- The channel value with the specified words. -/
def joined (f : Fmt) (v : Nat → Nat) : Nat :=
  PixelLoops.Spec.num (2 ^ f.B) (PixelLoops.Spec.order false false (!f.bigWords) ((List.range f.D).map v))

theorem joined_spec {f : Fmt} {v : Nat → Nat} (hv : ∀ k, v k < 2 ^ f.B) :
    joined f v < 2 ^ Spec.depth f ∧ ∀ t, t < f.D → Spec.wordBits f (joined f v) t = v t := by
  have hws : ∀ d ∈ PixelLoops.Spec.order false false (!f.bigWords) ((List.range f.D).map v), d < 2 ^ f.B := by
    intro d hd
    obtain ⟨i, _, rfl⟩ := List.mem_map.1 (order_mem hd)
    exact hv _
  have hwl : ((List.range f.D).map v).length = f.D := by simp
  constructor
  · have := num_lt hws
    rw [order_length, hwl, ← Nat.pow_mul, Nat.mul_comm] at this
    exact this
  · intro t ht
    have hst : stored f.D false false (!f.bigWords) t <
        (PixelLoops.Spec.order false false (!f.bigWords) ((List.range f.D).map v)).length := by
      rw [order_length, hwl]; exact stored_lt ht
    have hg := num_get hst hws
    rw [order_length, hwl] at hg
    have hs := order_stored (ha := false) (af := false) (rv := !f.bigWords) ((List.range f.D).map v) t (by rw [hwl]; exact ht)
    rw [hwl, List.getElem?_eq_getElem hst] at hs
    simp only [List.getElem?_map, List.getElem?_range ht, Option.map_some] at hs
    injection hs with hs
    rw [← hs, ← hg]
    unfold Spec.wordBits stored joined
    cases f.bigWords <;> simp
    rw [show f.D - 1 - (f.D - 1 - t) = t by omega]

/-- C79: every buffer whose words have at most the used bits set is the encoding of an image. -/
theorem C79_every_buffer (f : Fmt) (hf : Spec.Accepted f) (buf : List Int) (m : Nat) (hlen : buf.length = m * (f.n * f.D))
    (hbuf : ∀ w ∈ buf, ∃ v, v < 2 ^ f.B ∧ w = BitMedium.Spec.packed f.word f.B v) :
    ∃ img, (∀ i, Spec.ValidPixel f (img i)) ∧ buf = Spec.encode f m img := by
  have hch : ∃ v : Nat → Nat, ∀ k, v k < 2 ^ f.B ∧ ∀ hk : k < buf.length, buf[k] = BitMedium.Spec.packed f.word f.B (v k) := by
    have : ∀ k, ∃ v, v < 2 ^ f.B ∧ ∀ hk : k < buf.length, buf[k] = BitMedium.Spec.packed f.word f.B v := by
      intro k
      by_cases hk : k < buf.length
      · obtain ⟨v, h1, h2⟩ := hbuf _ (List.getElem_mem hk)
        exact ⟨v, h1, fun _ => h2⟩
      · exact ⟨0, Nat.two_pow_pos _, fun h => absurd h hk⟩
    exact ⟨fun k => (this k).choose, fun k => (this k).choose_spec⟩
  obtain ⟨v, hv⟩ := hch
  let w : Nat → Nat → Nat → Nat := fun k j t => v (k * (f.n * f.D) + (j * f.D + t))
  have hw : ∀ k j t, w k j t < 2 ^ f.B := fun k j t => (hv _).1
  let img : Nat → List Nat := fun k =>
    (List.range f.n).map fun i => joined f (w k (stored f.n f.hasAlpha f.alphaFirst f.reverse i))
  have himg : ∀ k, Spec.ValidPixel f (img k) := by
    intro k
    refine ⟨by simp [img], fun x hx => ?_⟩
    obtain ⟨i, _, rfl⟩ := List.mem_map.1 hx
    exact (joined_spec (hw k _)).1
  refine ⟨img, himg, ?_⟩
  apply List.ext_getElem?
  intro j
  unfold Spec.encode
  by_cases hj : j < buf.length
  · have hj2 : j < m * (f.n * f.D) := by omega
    rw [PixelGrid.encode_get _ hj2, List.getElem?_eq_getElem hj, (hv j).2 hj]
    have hr := Nat.mod_lt j (Nat.mul_pos hf.n hf.D)
    have hd := Nat.div_add_mod' j (f.n * f.D)
    generalize j % (f.n * f.D) = r at *
    generalize j / (f.n * f.D) = k at *
    have hq : r / f.D < f.n := by rw [Nat.div_lt_iff_lt_mul hf.D]; exact hr
    have ht := Nat.mod_lt r hf.D
    have hrd := Nat.div_add_mod' r f.D
    have hu : unstored f.n f.hasAlpha f.alphaFirst f.reverse (r / f.D) < f.n := unstored_lt hq
    unfold Spec.pixelWord
    have hog : (PixelLoops.Spec.order f.hasAlpha f.alphaFirst f.reverse (img k)).getD (r / f.D) 0 = joined f (w k (r / f.D)) := by
      have hl : (img k).length = f.n := (himg k).1
      rw [List.getD_eq_getElem?_getD, order_get _ _ (by omega), hl]
      simp only [img, List.getElem?_map, List.getElem?_range hu, Option.map_some, Option.getD_some]
      rw [stored_unstored hq]
    rw [hog, (joined_spec (hw k _)).2 _ ht]
    simp only [w]
    rw [hrd, hd]
  · rw [List.getElem?_eq_none (by omega), List.getElem?_eq_none (by rw [PixelGrid.encode_length]; omega)]

/-- 8-bit RGB. -/
def rgb8 : Fmt :=
  { I := 31, word := ⟨false, 8⟩, compType := ⟨false, 8⟩, comp := ⟨false, 8⟩, same := true, n := 3, B := 8, D := 1, bigWords := true,
    hasAlpha := false, alphaFirst := false, reverse := false }

/-- 16-bit ABGR in little-endian pairs of 8-bit words. -/
def abgr16 : Fmt :=
  { I := 31, word := ⟨false, 8⟩, compType := ⟨false, 16⟩, comp := ⟨false, 16⟩, same := false, n := 4, B := 8, D := 2,
    bigWords := false, hasAlpha := true, alphaFirst := false, reverse := true }

/-- 12-bit luminance with alpha first in triples of signed 4-bit words. -/
def alum12 : Fmt :=
  { I := 31, word := ⟨true, 7⟩, compType := ⟨false, 16⟩, comp := ⟨false, 16⟩, same := false, n := 2, B := 4, D := 3,
    bigWords := true, hasAlpha := true, alphaFirst := true, reverse := false }

/-- 32-bit RGB. -/
def rgb32 : Fmt :=
  { I := 31, word := ⟨false, 32⟩, compType := ⟨false, 32⟩, comp := ⟨false, 16⟩, same := false, n := 3, B := 32, D := 1,
    bigWords := true, hasAlpha := false, alphaFirst := false, reverse := false }

/-- C79: 32-bit formats are accepted, but no component can be read. -/
theorem C79_undefined_32 (buf : List Int) (chan : Nat) : Spec.Accepted rgb32 ∧ readLoop rgb32 buf chan rgb32.D 0 0 = none := by
  have h : Spec.Accepted rgb32 := by constructor <;> decide
  exact ⟨h, C79_assembly_undefined rgb32 h (by decide) buf chan⟩

example : Spec.Ok rgb8 := by
  refine ⟨⟨?_, ?_, ?_, ?_, ?_, ?_, ?_⟩, ?_, ?_, ?_, ?_⟩ <;> decide
example : Spec.Ok abgr16 := by
  refine ⟨⟨?_, ?_, ?_, ?_, ?_, ?_, ?_⟩, ?_, ?_, ?_, ?_⟩ <;> decide
example : Spec.Ok alum12 := by
  refine ⟨⟨?_, ?_, ?_, ?_, ?_, ?_, ?_⟩, ?_, ?_, ?_, ?_⟩ <;> decide

example : write rgb8 [0, 0, 0, 1, 2, 3] 2 1 0 0 1 1 (fun _ _ => some [255, 128, 7]) = some [255, 128, 7, 1, 2, 3] := by decide +kernel
example : read rgb8 [255, 128, 7, 1, 2, 3] 2 1 1 0 1 1 = some [[[1, 2, 3]]] := by decide +kernel
example : write abgr16 [0, 0, 0, 0, 0, 0, 0, 0] 1 1 0 0 1 1 (fun _ _ => some [0x1234, 0x5678, 0x9ABC, 0xDEF0]) =
    some [0xF0, 0xDE, 0xBC, 0x9A, 0x78, 0x56, 0x34, 0x12] := by decide +kernel
example : read abgr16 [0xF0, 0xDE, 0xBC, 0x9A, 0x78, 0x56, 0x34, 0x12] 1 1 0 0 1 1 =
    some [[[0x1234, 0x5678, 0x9ABC, 0xDEF0]]] := by decide +kernel
example : write alum12 [0, 0, 0, 0, 0, 0] 1 1 0 0 1 1 (fun _ _ => some [0x1234, 0xFFFF]) = some [15, 15, 15, 1, 2, 3] := by
  decide +kernel
example : read alum12 [15, 15, 15, 1, 2, 3] 1 1 0 0 1 1 = some [[[0x1231, 0xFFFF]]] := by decide +kernel
example : fill abgr16 [9, 9, 9, 9, 9, 9, 9, 9] (List.replicate 16 1) 2 1 1 0 1 1 [0, 0xFF00, 0, 0x00FF] =
    some [1, 1, 1, 1, 1, 1, 1, 1, 0xFF, 0, 0, 0, 0, 0xFF, 0, 0] := by decide +kernel
example : getBufferSize alum12 64 3 5 = some (some 90) := by decide +kernel
example : Spec.wordBits alum12 0x123 0 = 1 ∧ Spec.wordBits abgr16 0x1234 0 = 0x34 := by decide

end Verif.IntegerPixel
