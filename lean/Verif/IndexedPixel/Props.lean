import Verif.IndexedPixel.Main
/-!
C76: indexed pixel formats.
-/
namespace Verif.IndexedPixel
open Verif.Integer Verif.PixelLoops

/-- C76: reading an area gives exactly the color indexes of the pixels of the area. Nothing outside the buffer is accessed. -/
theorem C76_read (f : Fmt) (hf : Spec.Ok f) (img : Nat → Nat) (himg : ∀ i, Spec.ValidIndex f (img i)) (m W H px py w h : Nat)
    (hm : Spec.numPixels f W H ≤ m * f.N) (hx : px + w ≤ W) (hy : py + h ≤ H) :
    read f (Spec.encode f m img) W H px py w h =
      some (PixelLoops.Spec.crop (Spec.rowStride f W) px py w h (fun i => Spec.color f (img i))) :=
  read_spec (sem hf m) (dv := Spec.color f) himg (fun k _ hp => getPixel_spec hf himg k hp) hm hx hy

/-- C76: writing changes exactly the pixels of the area. -/
theorem C76_write (f : Fmt) (hf : Spec.Ok f) (img : Nat → Nat) (himg : ∀ i, Spec.ValidIndex f (img i)) (m W H px py w h : Nat)
    (hm : Spec.numPixels f W H ≤ m * f.N) (hx : px + w ≤ W) (hy : py + h ≤ H) (src : Nat → Nat → Nat)
    (hsrc : ∀ x y, x < w → y < h → Spec.ValidIndex f (src x y)) (tray : Nat → Nat → Option Int)
    (htray : ∀ x y, x < w → y < h → tray x y = some (Spec.color f (src x y))) :
    write f (Spec.encode f m img) W H px py w h tray =
      some (Spec.encode f m (PixelLoops.Spec.draw (Spec.rowStride f W) px py w h src img)) := by
  unfold write
  have hcv : ∀ c, Spec.ValidIndex f c → ((BitMedium.unpackInt f.I indexBits f.comp (Spec.color f c)).getD 0).toNat = c := by
    intro c hc
    rw [show BitMedium.unpackInt f.I indexBits f.comp (Spec.color f c) = some (c : Int) from
      BitMedium.unpackInt_spec hf.I (comp_width hf) (index_lt8 hf hc)]; simp
  refine (write_spec (sem hf m) (cv := fun a => ((BitMedium.unpackInt f.I indexBits f.comp a).getD 0).toNat)
    (ok := fun a => ∃ c, Spec.ValidIndex f c ∧ a = Spec.color f c) ?_ ?_ (f := fun x y => Spec.color f (src x y))
    himg hm hx hy (fun x y hx hy => ⟨htray x y hx hy, _, hsrc x y hx hy, rfl⟩)).trans ?_
  · rintro a ⟨c, hc, rfl⟩
    rw [hcv c hc]; exact hc
  · rintro s k p a hs hp ⟨c, hc, rfl⟩
    rw [hcv c hc]
    exact setPixel_spec hf hs k hp hc
  · congr 2
    exact draw_congr (fun x y hx hy => hcv _ (hsrc x y hx hy))

/-- C76: filling changes exactly the pixels of the area. -/
theorem C76_fill (f : Fmt) (hf : Spec.Ok f) (img : Nat → Nat) (himg : ∀ i, Spec.ValidIndex f (img i)) (m W H px py w h : Nat)
    (hm : Spec.numPixels f W H ≤ m * f.N) (hx : px + w ≤ W) (hy : py + h ≤ H) (c : Nat) (hc : Spec.ValidIndex f c) :
    fill f (Spec.encode f m img) W H px py w h (Spec.color f c) =
      some (Spec.encode f m (PixelLoops.Spec.draw (Spec.rowStride f W) px py w h (fun _ _ => c) img)) :=
  fill_spec (sem hf m) hc (fun _ k _ hs hp => setPixel_spec hf hs k hp hc) himg hm hx hy

/-- C76: a color index that is read anywhere after something was written is the one that was written, if its position is in the
written area, and what it was before otherwise. -/
theorem C76_read_after_write (f : Fmt) (hf : Spec.Ok f) (img : Nat → Nat) (himg : ∀ i, Spec.ValidIndex f (img i))
    (m W H px py w h : Nat) (hm : Spec.numPixels f W H ≤ m * f.N) (hx : px + w ≤ W) (hy : py + h ≤ H)
    (src : Nat → Nat → Nat) (hsrc : ∀ x y, x < w → y < h → Spec.ValidIndex f (src x y))
    (tray : Nat → Nat → Option Int) (htray : ∀ x y, x < w → y < h → tray x y = some (Spec.color f (src x y)))
    (x y : Nat) (hxW : x < W) (hyH : y < H) :
    ∃ buf, write f (Spec.encode f m img) W H px py w h tray = some buf ∧
      read f buf W H x y 1 1 = if px ≤ x ∧ x < px + w ∧ py ≤ y ∧ y < py + h then
          some [[Spec.color f (src (x - px) (y - py))]]
        else read f (Spec.encode f m img) W H x y 1 1 := by
  refine ⟨_, C76_write f hf img himg m W H px py w h hm hx hy src hsrc tray htray, ?_⟩
  have hS : W ≤ Spec.rowStride f W := width_le_stride hf.N _ _
  rw [C76_read f hf _ (draw_all himg hsrc) m W H x y 1 1 hm (by omega) (by omega),
    C76_read f hf img himg m W H x y 1 1 hm (by omega) (by omega)]
  split
  · rename_i hin
    have := draw_inside (img := img) (src := src) (px := px) (py := py) (w := w) (h := h)
      (x := x - px) (y := y - py) (S := Spec.rowStride f W) (by omega) (by omega) (by omega)
    rw [show px + (x - px) = x by omega, show py + (y - py) = y by omega] at this
    simp [PixelLoops.Spec.crop, this]
  · rename_i hout
    have := draw_outside (img := img) (src := src) (px := px) (py := py) (w := w) (h := h)
      (x := x) (y := y) (S := Spec.rowStride f W) (by omega) hout
    simp [PixelLoops.Spec.crop, this]

/-- C76: an area that is not contained in the image is rejected. -/
theorem C76_outside (f : Fmt) (buf : List Int) (W H : Nat) (x y : Int) (w h : Nat)
    (hout : ¬ (0 ≤ x ∧ 0 ≤ y ∧ x + w ≤ W ∧ y + h ≤ H)) (tray : Nat → Nat → Option Int) (color : Int) :
    read f buf W H x y w h = none ∧ write f buf W H x y w h tray = none ∧ fill f buf W H x y w h color = none := by
  have : contained W H x y w h = false := by
    unfold contained
    simp only [decide_eq_false_iff_not]
    omega
  refine ⟨?_, ?_, ?_⟩
  · unfold read PixelLoops.read; rw [this]; rfl
  · unfold write PixelLoops.write; rw [this]; rfl
  · unfold fill PixelLoops.fill; rw [this]; rfl

theorem numWords_nat {f : Fmt} (hf : Spec.Ok f) {Z N : Nat} (hN : N < 2 ^ Z) (hNI : f.N < 2 ^ f.I) (hDI : f.D < 2 ^ f.I) :
    numWords f Z N = some (if (N / f.N + if N % f.N = 0 then 0 else 1) * f.D < 2 ^ Z then
      some (((N / f.N + if N % f.N = 0 then 0 else 1) * f.D : Nat) : Int) else none) := by
  unfold numWords
  rw [SubwordPixel.divRoundUp_nat hN hf.N hNI]
  simp only
  have hup : (N / f.N + if N % f.N = 0 then 0 else 1) ≤ N := by
    have l := Nat.div_le_self N f.N
    split
    · omega
    · rename_i h0
      by_cases hd1 : f.N = 1
      · rw [hd1] at h0; omega
      · have hN0 := hf.N
        have : N / f.N < N := Nat.div_lt_self (by by_contra hc; apply h0; rw [show N = 0 by omega]; simp) (by omega)
        omega
  exact SubwordPixel.sizeMul_nat (by omega) hDI

/-- C76: the buffer size is the number of words of the smallest number of compounds that hold the image. An exception is thrown if
that number, or the number of words per row (aligned), or the number of pixels (not aligned) is too large for the type of sizes. -/
theorem C76_buffer_size (f : Fmt) (hf : Spec.Ok f) (Z W H m : Nat) (hZ : f.I ≤ Z) (hN : f.N < 2 ^ f.I) (hD : f.D < 2 ^ f.I)
    (hW : W < 2 ^ f.I) (hH : H < 2 ^ f.I) (hm : PixelLoops.Spec.IsUnitCount f.N f.aligned W H m) :
    getBufferSize f Z W H =
      some (if (if f.aligned then Spec.rowStride f W / f.N * f.D else W * H) < 2 ^ Z ∧ m * f.D < 2 ^ Z then some ((m * f.D : Nat) : Int)
        else none) := by
  have hIZ : 2 ^ f.I ≤ 2 ^ Z := Nat.pow_le_pow_right (by decide) hZ
  have hN0 := hf.N
  have h1 : SubwordPixel.sizeMul f.I Z 1 W = some (some (W : Int)) := by
    have := SubwordPixel.sizeMul_nat (I := f.I) (Z := Z) (x := 1) (y := W)
      (by have := Nat.one_lt_two_pow (n := Z) (by have := hf.I; omega); omega) hW
    rw [Nat.one_mul, if_pos (by omega)] at this
    exact this
  unfold getBufferSize
  obtain ⟨hm1, hm2⟩ := hm
  unfold Spec.rowStride
  cases ha : f.aligned
  · rw [ha] at hm1 hm2
    simp only [Bool.false_eq_true, if_false]
    rw [h1]
    simp only
    rw [SubwordPixel.sizeMul_nat (by omega) hH]
    by_cases hlt : W * H < 2 ^ Z
    · rw [if_pos hlt]
      simp only
      rw [numWords_nat hf hlt hN hD, SubwordPixel.unitCount_eq (N := W * H) hN0 hm1 hm2]
      simp only [hlt, true_and]
    · rw [if_neg hlt, if_neg (by simp [hlt])]
  · rw [ha] at hm1 hm2
    simp only [if_true]
    unfold getWordsPerRow
    rw [h1]
    simp only
    rw [numWords_nat hf (by omega) hN hD]
    have hst : Spec.stride f.N true W = (W / f.N + if W % f.N = 0 then 0 else 1) * f.N := by
      have d := Nat.div_add_mod' W f.N
      unfold Spec.stride
      simp only [if_true]
      split
      · rw [Nat.add_zero]; omega
      · rfl
    generalize (W / f.N + if W % f.N = 0 then 0 else 1) = r at *
    have hmr : m = r * H := by
      rw [hst] at hm1 hm2
      apply Nat.le_antisymm
      · exact hm2 _ (by rw [Nat.mul_right_comm])
      · rw [Nat.mul_right_comm] at hm1
        exact Nat.le_of_mul_le_mul_right hm1 hN0
    rw [hst, Nat.mul_div_cancel _ hN0]
    by_cases hlt : r * f.D < 2 ^ Z
    · rw [if_pos hlt]
      simp only [hlt, true_and]
      rw [SubwordPixel.sizeMul_nat hlt hH, hmr, Nat.mul_right_comm]
    · rw [if_neg hlt, if_neg (by simp [hlt])]

/-! ### Examples -/

/-- Four bits per pixel, three pixels per compound of two words of eight bits; `char` is signed. -/
def exF (bigBits bigWords aligned : Bool) : Fmt :=
  { I := 31, compound := ⟨true, 15⟩, word := ⟨true, 7⟩, comp := ⟨true, 7⟩, M := 4, N := 3, bigBits, B := 8, D := 2, bigWords, aligned }

example : Spec.Ok (exF true false true) := by constructor <;> decide

example : Spec.encode (exF true true true) 2 (fun i => i + 1) = [0x01, 0x23, 0x04, 0x56] ∧
    Spec.encode (exF true false true) 2 (fun i => i + 1) = [0x23, 0x01, 0x56, 0x04] ∧
    Spec.encode (exF false true true) 2 (fun i => i + 1) = [0x03, 0x21, 0x06, 0x54] ∧
    Spec.encode (exF false true true) 2 (fun i => i + 9) = [0x0B, 0xA9 - 256, 0x0E, 0xDC - 256] := by decide +kernel

-- Two rows of two pixels, aligned: the third pixel of each compound is unused
example : read (exF true true true) [0x01, 0x23, 0x04, 0x56] 2 2 0 0 2 2 = some [[1, 2], [4, 5]] := by decide +kernel
example : read (exF true true false) [0x01, 0x23, 0x04, 0x56] 2 2 0 0 2 2 = some [[1, 2], [3, 4]] := by decide +kernel

-- The pixels are 1, 2, 3, 4, 5, 6, and the second column is changed to 7, 8, 9
example : write (exF false false false) [0x21, 0x03, 0x54, 0x06] 2 3 1 0 1 3 (fun _ y => some (y + 7)) =
    some [0x71, 0x03, 0x58, 0x09] := by decide +kernel

example : getBufferSize (exF true true true) 64 4 5 = some (some 20) ∧ getBufferSize (exF true true false) 64 4 5 = some (some 14) := by
  decide +kernel

-- A color index that does not fit in the bits of a pixel changes the neighboring pixel
example : fill (exF true true true) [0x00, 0x23] 3 1 1 0 1 1 0x1F = some [0x01, 0xF3 - 256] := by decide +kernel

end Verif.IndexedPixel
