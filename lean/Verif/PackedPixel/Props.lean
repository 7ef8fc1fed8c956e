import Verif.PackedPixel.Main
/-!
C78: packed pixel formats.
-/
namespace Verif.PackedPixel
open Verif.Integer Verif.PixelLoops Verif.BitField

/-- C78: reading an area gives exactly the pixels of the area, whatever the contents of unused bits. Nothing outside the buffer is
accessed. -/
theorem C78_read (f : Fmt) (hf : Spec.Ok f) (img : Nat → Nat) (himg : ∀ i, img i < 2 ^ (f.D * f.B)) (m W H px py w h : Nat)
    (hm : W * H ≤ m) (hx : px + w ≤ W) (hy : py + h ≤ H) :
    read f (Spec.encode f m img) W H px py w h =
      some (PixelLoops.Spec.crop W px py w h (fun i => Spec.transferred f (Spec.channels f (img i)))) :=
  PixelGrid.read_spec (readPixel_spec hf) himg hm hx hy

/-- C78: writing changes exactly the pixels of the area. Unused bits of those pixels become zero. -/
theorem C78_write (f : Fmt) (hf : Spec.Ok f) (img : Nat → Nat) (m W H px py w h : Nat)
    (hm : W * H ≤ m) (hx : px + w ≤ W) (hy : py + h ≤ H) (src : Nat → Nat → List Nat)
    (hsrc : ∀ x y, x < w → y < h → Spec.ValidColor f (src x y)) (tray : Nat → Nat → Option (List Int))
    (htray : ∀ x y, x < w → y < h → tray x y = some (Spec.color f (src x y))) :
    write f (Spec.encode f m img) W H px py w h tray =
      some (Spec.encode f m (PixelLoops.Spec.draw W px py w h (fun x y => Spec.pixelBits f (Spec.quantized f (src x y))) img)) := by
  refine (PixelGrid.write_spec (writePixel_spec hf) hf.D (f := fun x y => Spec.color f (src x y)) hm hx hy
    (fun x y hx hy => ⟨htray x y hx hy, _, hsrc x y hx hy, rfl⟩)).trans ?_
  unfold Spec.encode
  congr 2
  exact draw_congr (fun x y hx hy => stores_eq hf (hsrc x y hx hy))

/-- C78: filling changes exactly the pixels of the area. -/
theorem C78_fill (f : Fmt) (hf : Spec.Ok f) (img : Nat → Nat) (m W H px py w h : Nat)
    (hm : W * H ≤ m) (hx : px + w ≤ W) (hy : py + h ≤ H) (c : List Nat) (hc : Spec.ValidColor f c) (init : List Int)
    (hinit : init.length = f.D) :
    fill f init (Spec.encode f m img) W H px py w h (Spec.color f c) =
      some (Spec.encode f m (PixelLoops.Spec.draw W px py w h (fun _ _ => Spec.pixelBits f (Spec.quantized f c)) img)) := by
  rw [← stores_eq hf hc]
  exact PixelGrid.fill_spec (writePixel_spec hf) hf.D hm hx hy ⟨c, hc, rfl⟩ init hinit

/-- C78: the channel values that were packed into a pixel are the ones that are found in it, and they do not need more bits than the
pixel has. -/
theorem C78_channels (f : Fmt) (hf : Spec.Ok f) (c : List Nat) (hc : Spec.ValidPixel f c) :
    Spec.channels f (Spec.pixelBits f c) = c ∧ Spec.pixelBits f c < 2 ^ (f.D * f.B) :=
  ⟨channels_pixelBits hf hc, pixelBits_lt hf hc⟩

/-- C78: a pixel that is read anywhere after something was written is the one that was written, if its position is in the
written area, and what it was before otherwise. -/
theorem C78_read_after_write (f : Fmt) (hf : Spec.Ok f) (img : Nat → Nat) (himg : ∀ i, img i < 2 ^ (f.D * f.B))
    (m W H px py w h : Nat) (hm : W * H ≤ m) (hx : px + w ≤ W) (hy : py + h ≤ H)
    (src : Nat → Nat → List Nat) (hsrc : ∀ x y, x < w → y < h → Spec.ValidColor f (src x y))
    (tray : Nat → Nat → Option (List Int)) (htray : ∀ x y, x < w → y < h → tray x y = some (Spec.color f (src x y)))
    (x y : Nat) (hxW : x < W) (hyH : y < H) :
    ∃ buf, write f (Spec.encode f m img) W H px py w h tray = some buf ∧
      read f buf W H x y 1 1 = if px ≤ x ∧ x < px + w ∧ py ≤ y ∧ y < py + h then
          some [[Spec.transferred f (Spec.quantized f (src (x - px) (y - py)))]]
        else read f (Spec.encode f m img) W H x y 1 1 := by
  refine ⟨_, C78_write f hf img m W H px py w h hm hx hy src hsrc tray htray, ?_⟩
  rw [C78_read f hf _ (draw_all (P := fun v => v < 2 ^ (f.D * f.B)) himg
      (fun x y hx hy => pixelBits_lt hf (quantized_valid (hsrc x y hx hy)))) m W H x y 1 1 hm (by omega) (by omega),
    C78_read f hf img himg m W H x y 1 1 hm (by omega) (by omega)]
  split
  · rename_i hin
    have := draw_inside (img := img) (src := fun x y => Spec.pixelBits f (Spec.quantized f (src x y))) (px := px) (py := py) (w := w)
      (h := h) (x := x - px) (y := y - py) (S := W) (by omega) (by omega) (by omega)
    rw [show px + (x - px) = x by omega, show py + (y - py) = y by omega] at this
    simp only [PixelLoops.Spec.crop, List.range_one, List.map_cons, List.map_nil, Nat.add_zero, this]
    rw [channels_pixelBits hf (quantized_valid (hsrc _ _ (by omega) (by omega)))]
  · rename_i hout
    have := draw_outside (img := img) (src := fun x y => Spec.pixelBits f (Spec.quantized f (src x y))) (px := px) (py := py) (w := w)
      (h := h) (x := x) (y := y) (S := W) (by omega) hout
    simp [PixelLoops.Spec.crop, this]

/-- The components, as natural numbers, of a pixel that is read. -/
def widened (f : Fmt) (c : List Nat) : List Nat :=
  List.zipWith (fun w v => UnitFrac.Spec.convert v (2 ^ w - 1) (2 ^ Spec.compBits f - 1)) (Spec.widths f) c

/-- C78: a pixel that is read can be written, and its channel values are then stored without loss. -/
theorem C78_lossless (f : Fmt) (hf : Spec.Ok f) (c : List Nat) (hc : Spec.ValidPixel f c) :
    ∃ d, Spec.ValidColor f d ∧ Spec.transferred f c = Spec.color f d ∧ Spec.quantized f d = c := by
  have hcn : c.length = f.n := hc.1
  refine ⟨widened f c, ⟨?_, fun v hv => ?_⟩, ?_, ?_⟩
  · unfold widened
    rw [List.length_zipWith, widths_length, hcn]
    exact Nat.min_self _
  · unfold widened at hv
    obtain ⟨i, hi, rfl⟩ := List.mem_iff_getElem.1 hv
    rw [List.getElem_zipWith]
    exact convert_lt _ _ _
  · unfold Spec.transferred Spec.color widened
    rw [List.map_zipWith]
  · apply List.ext_getElem?
    intro i
    unfold Spec.quantized widened
    by_cases hi : i < f.n
    · have hw := widths_get (f := f) hi
      have hic : i < c.length := by omega
      have hlt := hc.2 i _ _ hw (List.getElem?_eq_getElem hic)
      have hj : stored f.n f.hasAlpha f.alphaFirst f.reverse i < f.n := stored_lt hi
      rw [List.getElem?_zipWith, List.getElem?_zipWith, hw, List.getElem?_eq_getElem hic]
      simp only
      rw [BitMedium.convert_round_trip (width_pos (pos hf) hj) (width_le_compBits hf hj) hlt]
    · rw [List.getElem?_eq_none (by simp [widths_length]; omega), List.getElem?_eq_none (by omega)]

/-- C78: an area that is not contained in the image is rejected. -/
theorem C78_outside (f : Fmt) (init buf : List Int) (W H : Nat) (x y : Int) (w h : Nat)
    (hout : ¬ (0 ≤ x ∧ 0 ≤ y ∧ x + w ≤ W ∧ y + h ≤ H)) (tray : Nat → Nat → Option (List Int)) (color : List Int) :
    read f buf W H x y w h = none ∧ write f buf W H x y w h tray = none ∧ fill f init buf W H x y w h color = none := by
  have := PixelGrid.outside hout
  refine ⟨?_, ?_, ?_⟩
  · unfold read PixelGrid.read; rw [this]; rfl
  · unfold write PixelGrid.write; rw [this]; rfl
  · unfold fill PixelGrid.fill; rw [this]; rfl

/-- C78: the width and the position of a channel are those of the field that it is assigned to. -/
theorem C78_channel_field (f : Fmt) (hf : Spec.Ok f) (i : Nat) (hi : i < f.fields.length) :
    ∃ j, j < f.fields.length ∧
      (∀ c : List Nat, c.length = f.fields.length → (PixelLoops.Spec.order f.hasAlpha f.alphaFirst f.reverse c)[j]? = c[i]?) ∧
      getChannelWidth f i = some (BitField.Spec.width f.fields j : Int) ∧
      getChannelShift f i = some (BitField.Spec.shift f.fields j : Int) := by
  refine ⟨stored f.n f.hasAlpha f.alphaFirst f.reverse i, stored_lt hi, fun c hc => ?_, channel_width hf hi, channel_shift hf hi⟩
  have := order_stored (ha := f.hasAlpha) (af := f.alphaFirst) (rv := f.reverse) c i (by rw [hc]; exact hi)
  rw [hc] at this
  exact this

/-- C78: the size of the buffer, and failure when it cannot be represented. -/
theorem C78_buffer_size (f : Fmt) (hf : Spec.Ok f) (Z W H : Nat) (hZ : f.I ≤ Z) (hW : W < 2 ^ f.I) (hH : H < 2 ^ f.I) :
    getBufferSize f Z W H =
      some (if f.D * W < 2 ^ Z ∧ f.D * W * H < 2 ^ Z then some ((f.D * W * H : Nat) : Int) else none) :=
  PixelGrid.getBufferSize_spec hf.I hZ
    (Nat.lt_of_le_of_lt (Nat.le_mul_of_pos_right _ hf.B) hf.int) hW hH

/-- C78: every buffer whose words have at most the used bits set is the encoding of an image. -/
theorem C78_every_buffer (f : Fmt) (buf : List Int) (m : Nat) (hlen : buf.length = m * f.D)
    (hbuf : ∀ w ∈ buf, ∃ v, v < 2 ^ f.B ∧ w = BitMedium.Spec.packed f.word f.B v) :
    ∃ img, (∀ i, img i < 2 ^ (f.D * f.B)) ∧ buf = Spec.encode f m img := by
  have hch : ∃ v : Nat → Nat, ∀ k, v k < 2 ^ f.B ∧ ∀ hk : k < buf.length, buf[k] = BitMedium.Spec.packed f.word f.B (v k) := by
    have : ∀ k, ∃ v, v < 2 ^ f.B ∧ ∀ hk : k < buf.length, buf[k] = BitMedium.Spec.packed f.word f.B v := by
      intro k
      by_cases hk : k < buf.length
      · obtain ⟨v, h1, h2⟩ := hbuf _ (List.getElem_mem hk)
        exact ⟨v, h1, fun _ => h2⟩
      · exact ⟨0, Nat.two_pow_pos _, fun h => absurd h hk⟩
    exact ⟨fun k => (this k).choose, fun k => (this k).choose_spec⟩
  obtain ⟨v, hv⟩ := hch
  let ws : Nat → List Nat := fun k => (List.range f.D).map fun i => v (k * f.D + i)
  have hws : ∀ k, ∀ d ∈ PixelLoops.Spec.order false false (!f.bigWords) (ws k), d < 2 ^ f.B := by
    intro k d hd
    obtain ⟨i, _, rfl⟩ := List.mem_map.1 (order_mem hd)
    exact (hv _).1
  have hwl : ∀ k, (ws k).length = f.D := fun k => by simp [ws]
  refine ⟨fun k => PixelLoops.Spec.num (2 ^ f.B) (PixelLoops.Spec.order false false (!f.bigWords) (ws k)), fun k => ?_, ?_⟩
  · have := num_lt (hws k)
    rw [order_length, hwl, ← Nat.pow_mul, Nat.mul_comm] at this
    exact this
  · apply List.ext_getElem?
    intro j
    unfold Spec.encode
    by_cases hj : j < buf.length
    · have hj2 : j < m * f.D := by omega
      have hD : 0 < f.D := by
        rcases Nat.eq_zero_or_pos f.D with h0 | h0
        · rw [h0, Nat.mul_zero] at hj2; omega
        · exact h0
      rw [PixelGrid.encode_get _ hj2, List.getElem?_eq_getElem hj, (hv j).2 hj]
      have hr := Nat.mod_lt j hD
      have hd := Nat.div_add_mod' j f.D
      congr 2
      have hwb := IndexedPixel.wordBits_eq (f := lay f)
        (PixelLoops.Spec.num (2 ^ f.B) (PixelLoops.Spec.order false false (!f.bigWords) (ws (j / f.D)))) (j % f.D) hr
      have hst : stored f.D false false (!f.bigWords) (j % f.D) <
          (PixelLoops.Spec.order false false (!f.bigWords) (ws (j / f.D))).length := by
        rw [order_length, hwl]; exact stored_lt hr
      have hg := num_get hst (hws (j / f.D))
      rw [order_length, hwl] at hg
      have hs := order_stored (ha := false) (af := false) (rv := !f.bigWords) (ws (j / f.D)) (j % f.D) (by rw [hwl]; exact hr)
      rw [hwl, List.getElem?_eq_getElem hst] at hs
      simp only [ws, List.getElem?_map, List.getElem?_range hr, Option.map_some, hd] at hs
      injection hs with hs
      rw [← hs]
      exact (hwb.trans hg).symm
    · rw [List.getElem?_eq_none (by omega), List.getElem?_eq_none (by rw [PixelGrid.encode_length]; omega)]

/-- 16-bit pixels with fields for red (5 bits), green (6 bits) and blue (5 bits), stored in 8-bit words in little-endian order. -/
def rgb565 : Fmt :=
  { I := 31, compound := ⟨false, 16⟩, word := ⟨false, 8⟩, comp := ⟨false, 8⟩, fields := [⟨5, 0⟩, ⟨6, 0⟩, ⟨5, 0⟩], B := 8, D := 2,
    bigWords := false, hasAlpha := false, alphaFirst := false, reverse := false }

/-- Four fields with a gap, in a signed type. Alpha comes first, then blue, green, and red. -/
def abgr : Fmt :=
  { I := 31, compound := ⟨true, 15⟩, word := ⟨true, 15⟩, comp := ⟨false, 8⟩, fields := [⟨1, 0⟩, ⟨5, 0⟩, ⟨4, 1⟩, ⟨5, 0⟩], B := 16,
    D := 1, bigWords := true, hasAlpha := true, alphaFirst := false, reverse := true }

example : Spec.Ok rgb565 where
  I := by decide
  B := by decide
  D := by decide
  int := by decide
  fields := by unfold BitField.Spec.Valid BitField.Spec.total rgb565; decide
  word := by decide
  compound := by decide
  w16 := by decide
  comp := by decide

example : Spec.Ok abgr where
  I := by decide
  B := by decide
  D := by decide
  int := by decide
  fields := by unfold BitField.Spec.Valid BitField.Spec.total abgr; decide
  word := by decide
  compound := by decide
  w16 := by decide
  comp := by decide

example : write rgb565 [0, 0, 1, 2] 2 1 0 0 1 1 (fun _ _ => some [255, 128, 0]) = some [0x00, 0xFC, 1, 2] := by decide +kernel
example : read rgb565 [0x00, 0xFC, 1, 2] 2 1 0 0 1 1 = some [[[255, 130, 0]]] := by decide +kernel
example : write abgr [0] 1 1 0 0 1 1 (fun _ _ => some [255, 0, 0, 255]) = some [-32737] := by decide +kernel
example : read abgr [-32737] 1 1 0 0 1 1 = some [[[255, 0, 0, 255]]] := by decide +kernel
example : fill rgb565 [9, 9] [0, 0, 0, 0] 2 1 1 0 1 1 [0, 0, 255] = some [0, 0, 0x1F, 0] := by decide +kernel
example : Spec.channels rgb565 0xFC00 = [31, 32, 0] := by decide +kernel
example : getBufferSize rgb565 64 3 5 = some (some 30) := by decide +kernel

end Verif.PackedPixel
