import Verif.SubwordPixel.Main
import Verif.BitMedium.Props
/-!
C75: pixel formats with several pixels per word.
-/
namespace Verif.SubwordPixel
open Verif.Integer Verif.PixelLoops

/-- C75: reading an area gives exactly the pixels of the area. Nothing outside the buffer is accessed. -/
theorem C75_read (f : Fmt) (hf : Spec.Ok f) (img : Nat → List Nat) (himg : ∀ i, Spec.ValidPixel f (img i)) (m W H px py w h : Nat)
    (hm : Spec.numPixels f W H ≤ m * f.D) (hx : px + w ≤ W) (hy : py + h ≤ H) :
    read f (Spec.encode f m img) W H px py w h =
      some (PixelLoops.Spec.crop (Spec.rowStride f W) px py w h (fun i => Spec.transferred f (img i))) := by
  rw [enc_eq]
  unfold read
  refine (read_spec (sem hf m) (dv := fun v => Spec.transferred f (unpix f v)) (fun i => pixelBits_lt (himg i)) ?_ hm hx hy).trans ?_
  · intro k p hp
    exact getPixel_spec hf (fun i => pixelBits_lt (himg i)) k hp
  · simp only [unpix_pixelBits (himg _)]; rfl

/-- C75: writing changes exactly the pixels of the area. -/
theorem C75_write (f : Fmt) (hf : Spec.Ok f) (img : Nat → List Nat) (himg : ∀ i, Spec.ValidPixel f (img i)) (m W H px py w h : Nat)
    (hm : Spec.numPixels f W H ≤ m * f.D) (hx : px + w ≤ W) (hy : py + h ≤ H) (src : Nat → Nat → List Nat)
    (hsrc : ∀ x y, x < w → y < h → Spec.ValidColor f (src x y)) (tray : Nat → Nat → Option (List Int))
    (htray : ∀ x y, x < w → y < h → tray x y = some (Spec.color f (src x y))) :
    write f (Spec.encode f m img) W H px py w h tray =
      some (Spec.encode f m (PixelLoops.Spec.draw (Spec.rowStride f W) px py w h (fun x y => Spec.quantized f (src x y)) img)) := by
  rw [enc_eq, enc_eq]
  unfold write
  have hcv : ∀ c, Spec.ValidColor f c → ((encodePixel f (Spec.color f c)).getD 0).toNat = Spec.pixelBits f (Spec.quantized f c) := by
    intro c hc
    rw [encodePixel_spec hf hc]; simp
  refine (write_spec (sem hf m) (cv := fun a => ((encodePixel f a).getD 0).toNat)
    (ok := fun a => ∃ c, Spec.ValidColor f c ∧ a = Spec.color f c) ?_ ?_ (f := fun x y => Spec.color f (src x y))
    (fun i => pixelBits_lt (himg i)) hm hx hy (fun x y hx hy => ⟨htray x y hx hy, _, hsrc x y hx hy, rfl⟩)).trans ?_
  · rintro a ⟨c, hc, rfl⟩
    rw [hcv c hc]
    exact pixelBits_lt (quantized_valid hf hc)
  · rintro s k p a hs hp ⟨c, hc, rfl⟩
    unfold setPixel
    rw [hcv c hc, encodePixel_spec hf hc]
    exact doSetPixel_spec hf hs k hp (pixelBits_lt (quantized_valid hf hc))
  · congr 2
    funext i
    rw [draw_comp (Spec.pixelBits f)]
    exact congrFun (draw_congr (fun x y hx hy => hcv _ (hsrc x y hx hy))) i

/-- C75: filling changes exactly the pixels of the area. -/
theorem C75_fill (f : Fmt) (hf : Spec.Ok f) (img : Nat → List Nat) (himg : ∀ i, Spec.ValidPixel f (img i)) (m W H px py w h : Nat)
    (hm : Spec.numPixels f W H ≤ m * f.D) (hx : px + w ≤ W) (hy : py + h ≤ H) (c : List Nat) (hc : Spec.ValidColor f c) :
    fill f (Spec.encode f m img) W H px py w h (Spec.color f c) =
      some (Spec.encode f m (PixelLoops.Spec.draw (Spec.rowStride f W) px py w h (fun _ _ => Spec.quantized f c) img)) := by
  rw [enc_eq, enc_eq]
  unfold fill
  rw [if_pos (by unfold contained; simp; omega), encodePixel_spec hf hc]
  have hlt := pixelBits_lt (quantized_valid hf hc)
  refine (fill_spec (sem hf m) hlt (fun s k p hs hp => doSetPixel_spec hf hs k hp hlt) (fun i => pixelBits_lt (himg i)) hm hx
    hy).trans ?_
  congr 2
  funext i
  rw [draw_comp (Spec.pixelBits f)]; rfl

/-- C75: a pixel that is read anywhere after something was written is the one that was written, if its position is in the
written area, and what it was before otherwise. -/
theorem C75_read_after_write (f : Fmt) (hf : Spec.Ok f) (img : Nat → List Nat) (himg : ∀ i, Spec.ValidPixel f (img i))
    (m W H px py w h : Nat) (hm : Spec.numPixels f W H ≤ m * f.D) (hx : px + w ≤ W) (hy : py + h ≤ H)
    (src : Nat → Nat → List Nat) (hsrc : ∀ x y, x < w → y < h → Spec.ValidColor f (src x y))
    (tray : Nat → Nat → Option (List Int)) (htray : ∀ x y, x < w → y < h → tray x y = some (Spec.color f (src x y)))
    (x y : Nat) (hxW : x < W) (hyH : y < H) :
    ∃ buf, write f (Spec.encode f m img) W H px py w h tray = some buf ∧
      read f buf W H x y 1 1 = if px ≤ x ∧ x < px + w ∧ py ≤ y ∧ y < py + h then
          some [[Spec.transferred f (Spec.quantized f (src (x - px) (y - py)))]]
        else read f (Spec.encode f m img) W H x y 1 1 := by
  refine ⟨_, C75_write f hf img himg m W H px py w h hm hx hy src hsrc tray htray, ?_⟩
  have hS : W ≤ Spec.rowStride f W := width_le_stride hf.D _ _
  rw [C75_read f hf _ (draw_all himg (fun x y hx hy => quantized_valid hf (hsrc x y hx hy))) m W H x y 1 1 hm (by omega) (by omega),
    C75_read f hf img himg m W H x y 1 1 hm (by omega) (by omega)]
  split
  · rename_i hin
    have := draw_inside (img := img) (src := fun x y => Spec.quantized f (src x y)) (px := px) (py := py) (w := w) (h := h)
      (x := x - px) (y := y - py) (S := Spec.rowStride f W) (by omega) (by omega) (by omega)
    rw [show px + (x - px) = x by omega, show py + (y - py) = y by omega] at this
    simp [PixelLoops.Spec.crop, this]
  · rename_i hout
    have := draw_outside (img := img) (src := fun x y => Spec.quantized f (src x y)) (px := px) (py := py) (w := w) (h := h)
      (x := x) (y := y) (S := Spec.rowStride f W) (by omega) hout
    simp [PixelLoops.Spec.crop, this]

/-- The components, as natural numbers, of a pixel that is read. -/
def widened (f : Fmt) (c : List Nat) : List Nat :=
  c.map fun v => UnitFrac.Spec.convert v (2 ^ f.B - 1) (2 ^ Spec.compBits f - 1)

/-- C75: a pixel that is read can be written, and it is then stored without loss. -/
theorem C75_lossless (f : Fmt) (hf : Spec.Ok f) (c : List Nat) (hc : Spec.ValidPixel f c) :
    ∃ d, Spec.ValidColor f d ∧ Spec.transferred f c = Spec.color f d ∧ Spec.quantized f d = c := by
  refine ⟨widened f c, ⟨by simp [widened, hc.1], fun v hv => ?_⟩, ?_, ?_⟩
  · obtain ⟨w, _, rfl⟩ := List.mem_map.1 hv
    have := Nat.two_pow_pos (Spec.compBits f)
    unfold UnitFrac.Spec.convert; omega
  · unfold Spec.transferred Spec.color widened
    rw [List.map_map]; rfl
  · unfold Spec.quantized widened
    rw [List.map_map]
    conv_rhs => rw [← List.map_id c]
    apply List.map_congr_left
    intro v hv
    exact BitMedium.convert_round_trip hf.B (B_le_compBits hf) (hc.2 v hv)

/-- C75: an area that is not contained in the image is rejected. -/
theorem C75_outside (f : Fmt) (buf : List Int) (W H : Nat) (x y : Int) (w h : Nat)
    (hout : ¬ (0 ≤ x ∧ 0 ≤ y ∧ x + w ≤ W ∧ y + h ≤ H)) (tray : Nat → Nat → Option (List Int)) (color : List Int) :
    read f buf W H x y w h = none ∧ write f buf W H x y w h tray = none ∧ fill f buf W H x y w h color = none := by
  have : contained W H x y w h = false := by
    unfold contained
    simp only [decide_eq_false_iff_not, Bool.and_eq_false_iff]
    omega
  refine ⟨?_, ?_, ?_⟩
  · unfold read PixelLoops.read; rw [this]; rfl
  · unfold write PixelLoops.write; rw [this]; rfl
  · unfold fill; rw [this]; rfl

/-- C75: every buffer whose words have at most the used bits set is the encoding of an image. -/
theorem C75_every_buffer (f : Fmt) (hf : Spec.Ok f) (buf : List Int)
    (hbuf : ∀ w ∈ buf, ∃ v, v < 2 ^ (f.D * (f.n * f.B)) ∧ w = BitMedium.Spec.packed f.word (f.D * (f.n * f.B)) v) :
    ∃ img, (∀ i, Spec.ValidPixel f (img i)) ∧ buf = Spec.encode f buf.length img := by
  have hch : ∃ v : Nat → Nat, ∀ k, v k < 2 ^ f.bpw ∧ ∀ hk : k < buf.length, buf[k] = BitMedium.Spec.packed f.word f.bpw (v k) := by
    have : ∀ k, ∃ v, v < 2 ^ f.bpw ∧ ∀ hk : k < buf.length, buf[k] = BitMedium.Spec.packed f.word f.bpw v := by
      intro k
      by_cases hk : k < buf.length
      · obtain ⟨v, h1, h2⟩ := hbuf _ (List.getElem_mem hk)
        exact ⟨v, h1, fun _ => h2⟩
      · exact ⟨0, Nat.two_pow_pos _, fun h => absurd h hk⟩
    exact ⟨fun k => (this k).choose, fun k => (this k).choose_spec⟩
  obtain ⟨v, hv⟩ := hch
  let s : Nat → Nat := fun i => v (i / f.D) / 2 ^ (f.bpp * (f.D - 1 - stored f.D false false (!f.big) (i % f.D))) % 2 ^ f.bpp
  have hs : ∀ i, s i < 2 ^ f.bpp := fun i => Nat.mod_lt _ (Nat.two_pow_pos _)
  have hpb : ∀ i, Spec.pixelBits f (unpix f (s i)) = s i := by
    intro i
    unfold Spec.pixelBits unpix
    rw [order_digits (fun j => s i / 2 ^ (f.B * (f.n - 1 - j)) % 2 ^ f.B)]
    exact num_digits (by have := hs i; rw [Nat.mul_comm]; exact this)
  refine ⟨fun i => unpix f (s i), fun i => ⟨by simp [unpix], unpix_lt f _⟩, ?_⟩
  rw [enc_eq]
  simp only [hpb]
  apply List.ext_getElem?
  intro k
  unfold enc
  by_cases hk : k < buf.length
  · rw [List.getElem?_eq_getElem hk, (hv k).2 hk, List.getElem?_map, List.getElem?_range hk, Option.map_some]
    congr 2
    unfold uvN pixels
    have e : ((List.range f.D).map fun p => s (k * f.D + p)) = (List.range f.D).map fun p =>
        v k / 2 ^ (f.bpp * (f.D - 1 - stored f.D false false (!f.big) p)) % 2 ^ f.bpp := by
      apply List.map_congr_left
      intro p hp
      have hp := List.mem_range.1 hp
      show v ((k * f.D + p) / f.D) / 2 ^ (f.bpp * (f.D - 1 - stored f.D false false (!f.big) ((k * f.D + p) % f.D))) % _ = _
      rw [div_of hp, show (k * f.D + p) % f.D = p by rw [Nat.mul_comm, Nat.mul_add_mod, Nat.mod_eq_of_lt hp]]
    rw [e, order_digits (fun j => v k / 2 ^ (f.bpp * (f.D - 1 - j)) % 2 ^ f.bpp)]
    exact (num_digits (by have := (hv k).1; rw [Nat.mul_comm]; exact this)).symm
  · rw [List.getElem?_eq_none (by omega), List.getElem?_eq_none (by simp; omega)]

/-- Division with rounding up gives the smallest number of units. -/
theorem unitCount_eq {D N m : Nat} (hD : 0 < D) (h1 : N ≤ m * D) (h2 : ∀ m', N ≤ m' * D → m ≤ m') :
    N / D + (if N % D = 0 then 0 else 1) = m := by
  have d := Nat.div_add_mod' N D
  have l := Nat.mod_lt N hD
  apply Nat.le_antisymm
  · split
    · have : N / D * D ≤ m * D := by omega
      exact Nat.le_of_mul_le_mul_right this hD
    · by_contra hc
      have : m * D ≤ N / D * D := Nat.mul_le_mul_right _ (by omega)
      omega
  · apply h2
    split
    · rw [Nat.add_zero]; omega
    · rw [Nat.add_mul]; omega

theorem sizeMul_nat {I Z x y : Nat} (hx : x < 2 ^ Z) (hy : y < 2 ^ I) :
    sizeMul I Z x y = some (if x * y < 2 ^ Z then some ((x * y : Nat) : Int) else none) := by
  unfold sizeMul
  rw [tryMul_spec _ _ _ _ _ ((In_nonneg (by omega)).2 (by exact_mod_cast hx)) ((In_nonneg (by omega)).2 (by exact_mod_cast hy))]
  unfold checked
  have : (⟨false, Z⟩ : Ty).In ((x : Int) * y) ↔ x * y < 2 ^ Z := by
    rw [In_nonneg (by positivity)]
    show (x : Int) * y < 2 ^ Z ↔ _
    exact_mod_cast Iff.rfl
  simp only [this]
  push_cast; rfl

theorem divRoundUp_nat {I Z N D : Nat} (hN : N < 2 ^ Z) (hD : 0 < D) (hD' : D < 2 ^ I) :
    divRoundUp I ⟨false, Z⟩ (intTy I) N D = some ((N / D + (if N % D = 0 then 0 else 1) : Nat) : Int) := by
  rw [divRoundUp_spec _ _ _ _ _ ((In_nonneg (by omega)).2 (by exact_mod_cast hN)) ((In_nonneg (by omega)).2 (by exact_mod_cast hD'))
    (by omega) (by omega)]
  congr 1
  push_cast
  congr 1
  by_cases h : N % D = 0
  · rw [if_pos h, if_pos (by exact_mod_cast h)]
  · rw [if_neg h, if_neg (by exact_mod_cast h)]

/-- C75: the buffer size is the smallest number of words that hold the image. An exception is thrown if that number, or, when
rows are not aligned, the number of pixels, is too large for the type of sizes. -/
theorem C75_buffer_size (f : Fmt) (hf : Spec.Ok f) (Z W H m : Nat) (hZ : f.I ≤ Z) (hD : f.D < 2 ^ f.I) (hW : W < 2 ^ f.I)
    (hH : H < 2 ^ f.I) (hm : PixelLoops.Spec.IsUnitCount f.D f.aligned W H m) :
    getBufferSize f Z W H =
      some (if (if f.aligned then m else W * H) < 2 ^ Z then some (m : Int) else none) := by
  have hIZ : 2 ^ f.I ≤ 2 ^ Z := Nat.pow_le_pow_right (by decide) hZ
  have hD0 := hf.D
  have h1 : sizeMul f.I Z 1 W = some (some (W : Int)) := by
    have := sizeMul_nat (I := f.I) (Z := Z) (x := 1) (y := W) (by have := Nat.one_lt_two_pow (n := Z) (by have := hf.I; omega); omega) hW
    rw [Nat.one_mul, if_pos (by omega)] at this
    exact this
  unfold getBufferSize
  obtain ⟨hm1, hm2⟩ := hm
  cases ha : f.aligned
  · rw [ha] at hm1 hm2
    simp only [Bool.false_eq_true, if_false]
    rw [h1]
    simp only
    rw [sizeMul_nat (by omega) hH]
    by_cases hlt : W * H < 2 ^ Z
    · rw [if_pos hlt, if_pos hlt]
      simp only
      rw [divRoundUp_nat hlt hD0 hD, unitCount_eq (N := W * H) hD0 hm1 hm2]; rfl
    · rw [if_neg hlt, if_neg hlt]
  · rw [ha] at hm1 hm2
    simp only [if_true]
    unfold getWordsPerRow
    rw [h1]
    simp only
    rw [divRoundUp_nat (by omega) hD0 hD]
    simp only [Option.map_some]
    have hup : (W / f.D + if W % f.D = 0 then 0 else 1) ≤ W := by
      have d := Nat.div_add_mod' W f.D
      have l := Nat.div_le_self W f.D
      split
      · omega
      · rename_i h0
        by_cases hd1 : f.D = 1
        · rw [hd1] at h0; omega
        · have : W / f.D < W := Nat.div_lt_self (by by_contra hc; apply h0; rw [show W = 0 by omega]; simp) (by omega)
          omega
    have hst : Spec.stride f.D true W = (W / f.D + if W % f.D = 0 then 0 else 1) * f.D := by
      have d := Nat.div_add_mod' W f.D
      unfold Spec.stride
      simp only [if_true]
      split
      · rw [Nat.add_zero]; omega
      · rfl
    generalize (W / f.D + if W % f.D = 0 then 0 else 1) = r at *
    have hmr : m = r * H := by
      rw [hst] at hm1 hm2
      apply Nat.le_antisymm
      · exact hm2 _ (by rw [Nat.mul_right_comm])
      · rw [Nat.mul_right_comm] at hm1
        exact Nat.le_of_mul_le_mul_right hm1 hD0
    rw [sizeMul_nat (by omega) hH, hmr]

/-- The smallest number of units exists. -/
theorem unitCount_exists (D : Nat) (hD : 0 < D) (aligned : Bool) (W H : Nat) :
    ∃ m, PixelLoops.Spec.IsUnitCount D aligned W H m := by
  classical
  have h : ∃ m, Spec.stride D aligned W * H ≤ m * D := ⟨Spec.stride D aligned W * H, Nat.le_mul_of_pos_right _ hD⟩
  exact ⟨Nat.find h, Nat.find_spec h, fun m' hm' => Nat.find_min' h hm'⟩

/-! ### Examples -/

/-- Three channels (the last of which is alpha, which is stored first) of two bits, two pixels per word of 16 bits. -/
def exF (big reverse aligned : Bool) : Fmt :=
  { I := 31, word := ⟨true, 15⟩, comp := ⟨false, 8⟩, n := 3, B := 2, D := 2, big, hasAlpha := true, alphaFirst := true, reverse, aligned }

def exImg (i : Nat) : List Nat := [i % 4, i / 4 % 4, 3]

example : Spec.Ok (exF true false true) := by constructor <;> decide

example : Spec.encode (exF true false true) 4 exImg = [0b110000_110100, 0b111000_111100, 0b110001_110101, 0b111001_111101] := by
  decide +kernel

example : Spec.encode (exF false true false) 2 exImg = [0b000111_000011, 0b001111_001011] := by decide +kernel

-- An image of size 3 by 2
example : read (exF true false true) (Spec.encode (exF true false true) 4 exImg) 3 2 1 0 2 2 =
    some [[[85, 0, 255], [170, 0, 255]], [[85, 85, 255], [170, 85, 255]]] := by decide +kernel

example : fill (exF true false true) (Spec.encode (exF true false true) 4 exImg) 3 2 1 0 1 2 [0, 0, 0] =
    some [0b110000_000000, 0b111000_111100, 0b110001_000000, 0b111001_111101] := by decide +kernel

example : getBufferSize (exF true false true) 64 3 5 = some (some 10) ∧ getBufferSize (exF true false false) 64 3 5 = some (some 8) ∧
    getBufferSize (exF true false false) 32 (2 ^ 30) 5 = some none := by decide +kernel

end Verif.SubwordPixel
