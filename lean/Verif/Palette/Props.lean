import Verif.Palette.Main
import Verif.ImageReader.Props
import Verif.ColorSlot.Props
/-!
Palettes (C94).
-/
namespace Verif.Palette
open Verif.Integer Verif.ImageIter Verif.ImageReader Verif.ColorSlot Verif.PixelBox.Spec Spec

variable {α φ γ : Type}

/-- The number of colors: It is the number of pixels of the palette image, but at most 256, and 0 if there is no palette. No overflow has
an effect on this. -/
theorem C94_size (I Z : Nat) (palette : Option (Int × Int)) (hI : 9 ≤ I) (hZ : I < Z) (hp : ∀ w h, palette = some (w, h) → w < 2 ^ I ∧ h < 2 ^ I) :
    determineSize I Z palette = some (numColors palette : Int) := determineSize_eq (by omega) hZ (by omega) hp

example : determineSize 31 32 (some (2 ^ 31 - 1, 2 ^ 31 - 1)) = some 256 := by decide +kernel

example : determineSize 31 32 (some (15, 17)) = some 255 := by decide +kernel

/-! ### Reading from the palette image -/

/-- The palette image is read without loss. -/
theorem reads_lossless {I : Nat} {r : Reader α φ} (hr : ImageReader.Spec.Consistent I r) {q : ImageReader.Request} (hq : lossless r q = true)
    (ha : q.hasAlpha = true) (hc : q.colors = r.colors) :
    Reads (r.colors + 1) (getBlock I (r.readG I q)) r.w r.h (ImageReader.Spec.color r true) := by
  intro x y t m hx hw hxw hy hh hyh hg
  have := hr.w; have := hr.h
  have hn : q.colors + q.hasAlpha.toNat = r.colors + 1 := by rw [hc, ha]; rfl
  obtain ⟨m', e, s, o⟩ := C92_lossless I r q x y t m hr hq hc
    (by simp only [PixelBox.Spec.Exists, Rep]; omega) (by simp only [Valid, Rep]; omega) (by rw [hn]; exact hg)
  rw [hn] at s o
  refine ⟨m', e, ?_, o⟩
  rintro i j c ⟨⟨k1, k2⟩, k3, k4⟩ hc'
  simp only at k1 k2 k3 k4
  have := s i j c ⟨⟨k1, k2⟩, k3, k4⟩ hc'
  beta_reduce at this
  rw [ha, C92_inside _ _ _ _ _ _ _ _ ⟨by omega, by omega⟩ ⟨by omega, by omega⟩] at this
  exact this

/-- The palette image is read with conversion, and its representation is not `float_`. -/
theorem reads_converted {I : Nat} {r : Reader α φ} (hr : ImageReader.Spec.Consistent I r) {q : ImageReader.Request} (ha : q.hasAlpha = true)
    {conv : List φ → List γ} (hk : ((r.colors : Int) + 1) * 4096 ≤ 2 ^ I - 1) (hc : ∀ p, p.length = r.colors + 1 → (conv p).length = q.colors + 1) :
    Reads (q.colors + 1) (getBlock I (r.readGF I q conv)) r.w r.h (fun x y => conv (ImageReader.Spec.colorF r x y)) := by
  intro x y t m hx hw hxw hy hh hyh hg
  have := hr.w; have := hr.h
  have hn : q.colors + q.hasAlpha.toNat = q.colors + 1 := by rw [ha]; rfl
  obtain ⟨m', e, s, o⟩ := C92_converted I r q conv x y t m hr hk (by rw [hn]; exact hc)
    (by simp only [PixelBox.Spec.Exists, Rep]; omega) (by simp only [Valid, Rep]; omega) (by rw [hn]; exact hg)
  rw [hn] at s o
  refine ⟨m', e, ?_, o⟩
  rintro i j c ⟨⟨k1, k2⟩, k3, k4⟩ hc'
  simp only at k1 k2 k3 k4
  have := s i j c ⟨⟨k1, k2⟩, k3, k4⟩ hc'
  beta_reduce at this
  rw [C92_inside _ _ _ _ _ _ _ _ ⟨by omega, by omega⟩ ⟨by omega, by omega⟩] at this
  exact this

/-- The palette image is read with conversion, and its representation is `float_`. -/
theorem reads_converted_float {I : Nat} {r : Reader α φ} (hr : ImageReader.Spec.Consistent I r) {q : ImageReader.Request} (ha : q.hasAlpha = true)
    {conv : List α → List γ} (hk : ((r.colors : Int) + 1) * 4096 ≤ 2 ^ I - 1) (hc : ∀ p, p.length = r.colors + 1 → (conv p).length = q.colors + 1) :
    Reads (q.colors + 1) (getBlock I (r.readGN I q conv)) r.w r.h (fun x y => conv (ImageReader.Spec.color r true x y)) := by
  intro x y t m hx hw hxw hy hh hyh hg
  have := hr.w; have := hr.h
  have hn : q.colors + q.hasAlpha.toNat = q.colors + 1 := by rw [ha]; rfl
  obtain ⟨m', e, s, o⟩ := C92_converted_float I r q conv x y t m hr hk (by rw [hn]; exact hc)
    (by simp only [PixelBox.Spec.Exists, Rep]; omega) (by simp only [Valid, Rep]; omega) (by rw [hn]; exact hg)
  rw [hn] at s o
  refine ⟨m', e, ?_, o⟩
  rintro i j c ⟨⟨k1, k2⟩, k3, k4⟩ hc'
  simp only at k1 k2 k3 k4
  have := s i j c ⟨⟨k1, k2⟩, k3, k4⟩ hc'
  beta_reduce at this
  rw [C92_inside _ _ _ _ _ _ _ _ ⟨by omega, by omega⟩ ⟨by omega, by omega⟩] at this
  exact this

/-! ### Operations -/

variable [DecidableEq α] [DecidableEq φ]

/-- Palettes: In every sequence of operations on a reader, palette lookups give the pixels of the palette image in row-major order, or
the background color if the index is not less than the number of colors, and color slots are not affected. What is used when pixels are read are
likewise the colors of the palette image. There is no undefined behavior.

Not in general: The pixels of an image whose palette image has width zero cannot be read (`C94_zero_width`), and the width of the palette image
times the number of channels must be representable (`C94_wide`; in `EnvOk`). -/
theorem C94_results_partial (e : Env α φ) (img : Int → Int → List α) (ops : List (Op α φ)) (he : EnvOk e img)
    (ho : ∀ op ∈ ops, Spec.OpOk e.k e.palette op) (hz : .entries ∈ ops ∨ .entriesF ∈ ops → ∀ w h, e.palette = some (w, h) → 0 < w) :
    ∃ st, run e ops pinit = some (st, Spec.results e.s (colors img e.palette) ops (ColorSlot.Spec.defaults e.s e.dflt)) :=
  run_ok he ops pinit _ ho hz (pinit_ok e img)

/-- The colors of the palette. -/
theorem C94_colors (img : Int → Int → List α) (w h : Int) (index : Nat) :
    (colors img (some (w, h)))[index]? = if index < min (w.toNat * h.toNat) 256 then some (img (index % w) (index / w)) else none := by
  simp only [colors, numColors, List.getElem?_map]
  split
  · rename_i hi
    rw [List.getElem?_eq_getElem (by simpa using hi)]
    simp [entry]
  · rename_i hi
    rw [List.getElem?_eq_none (by simp; omega)]
    rfl

/-- Reading of an indexed-color image: If the palette cache is what it is according to `C94_results_partial`, the color of a pixel is that of
the pixel of the palette image at row-major position `index`, or else the background color. -/
theorem C94_indexed (r : Reader α φ) (img : Int → Int → List α) (w h : Int) (index : Int → Int → Nat) (hr : r.pixels = .indexed index)
    (hp : r.palette = colors img (some (w, h))) (x y : Int) :
    ImageReader.Spec.color r true x y = if index x y < min (w.toNat * h.toNat) 256 then img (index x y % w) (index x y / w) else r.bgU := by
  simp only [ImageReader.Spec.color, hr, hp, C94_colors]
  split <;> rfl

/-! ### Cases that do not work -/

/-- According to the documentation of `Image::get_palette()`, a palette can have zero colors, and then the color of every pixel is the background
color. However, reading of any pixel of such an image divides by zero if the width of the palette image is zero. -/
theorem C94_zero_width (e : Env α φ) (h : Int) (hp : e.palette = some (0, h)) : step e .entries pinit = none ∧ step e .entriesF pinit = none := by
  have : ∀ size : Int, instantiate e.I e.Z e.block 0 size e.k = none := by
    intro size
    simp only [instantiate, divOp, Option.bind_eq_bind]
    rw [if_pos]
    · rfl
    · have : Integer.cast (opTy e.I e.Z) 0 = 0 := by
        unfold Integer.cast
        split
        · rw [Int.emod_eq_of_lt] <;> [simp; positivity; (rw [pow_succ]; have : (0 : Int) < 2 ^ (opTy e.I e.Z).bits := by positivity
                                                         omega)]
        · simp
      exact this
  constructor <;> simp only [step, Option.bind_eq_bind, hp] <;> cases determineSize e.I e.Z (some (0, h)) <;>
    simp [ensureCache, ensureCacheF, pinit, hp, this]

/-- If the width of the palette image times the number of channels is not representable in type `int`, then palette lookup has undefined behavior. -/
theorem C94_wide (e : Env α φ) (w h : Int) (index : Nat) (q : ColorSlot.Request) (hp : e.palette = some (w, h)) (hw : 0 < w) (hw2 : w < 2 ^ e.I)
    (hh : 0 < h) (hh2 : h < 2 ^ e.I) (hI : 9 ≤ e.I) (hZ : e.I < e.Z) (hk : 2 ^ e.I ≤ w * e.k) (hi : index < min (w.toNat * h.toNat) 256) :
    step e (.lookup index q) pinit = none := by
  have hs : determineSize e.I e.Z e.palette = some ((min (w.toNat * h.toNat) 256 : Nat) : Int) := by
    rw [hp, determineSize_eq (by omega) hZ (by omega)]
    · rfl
    · intro w' h' hp'
      cases hp'
      exact ⟨hw2, hh2⟩
  have hn : ∀ size : Int, instantiate e.I e.Z e.block w size e.k = none := by
    intro size
    have : arith e.I (intTy e.I) (w * e.k) = none := by
      unfold arith
      simp only [promote, intTy, le_refl, if_true, Ty.In, Ty.min, Ty.max]
      rw [if_neg (by omega)]
    simp only [instantiate, Option.bind_eq_bind, this]
    cases divOp e.I (opTy e.I e.Z) (Integer.cast (opTy e.I e.Z) size) (Integer.cast (opTy e.I e.Z) w) <;> rfl
  simp only [step, lookup, Option.bind_eq_bind, hs, Option.bind_some]
  rw [if_neg (by omega)]
  split <;> simp [lookupNeutral, ensureCacheF, ensureCache, pinit, hp, hn]

/-! ### Examples -/

/-- A palette image of size 3 by 2 that has the colors 0, 1, 2, 3, 4, 0 with transparency for the last one, in the format of the example of color
slots. -/
def paletteImage : Reader Nat Int where
  w := 3
  h := 2
  horz := .background
  vert := .background
  pixels := .direct fun x y => if x = 2 ∧ y = 1 then [0, 1] else [(x + 3 * y).toNat, 4]
  hasAlpha := true
  colors := 1
  isFloat := false
  max := 4
  palette := []
  paletteF := []
  bgU := [0, 0]
  bgR := [0, 0]
  bgN := [0, 0]
  bgF := [0, 0]
  toFloat := fun _ _ p => quarters.toFloat true p

def exampleEnv : Env Nat Int where
  I := 31
  Z := 64
  s := quarters
  k := 2
  dflt := blackAndWhite
  palette := some (3, 2)
  block := getBlock 31 (paletteImage.readG 31 ⟨true, true, true, 1⟩)

theorem paletteImage_ok : ImageReader.Spec.Consistent 31 paletteImage where
  w := ⟨by show (0 : Int) ≤ 3; omega, by show (3 : Int) ≤ _; omega⟩
  h := ⟨by show (0 : Int) ≤ 2; omega, by show (2 : Int) ≤ _; omega⟩
  color := by
    intro color h x y _ _ _ _
    cases h
    dsimp only
    split <;> rfl
  palette := by intro p h; cases h
  paletteF := by intro p h; cases h
  bgU := rfl
  bgR := rfl
  bgN := rfl
  bgF := rfl
  toFloat := by
    intro p h
    show (quarters.toFloat true p).length = _
    rw [toFloat_length, h]
    rfl

theorem exampleEnv_ok : EnvOk exampleEnv (ImageReader.Spec.color paletteImage true) where
  I := by decide
  Z := by decide
  k := by decide
  laws := quarters_laws
  dflt := blackAndWhite_ok.len
  white := blackAndWhite_ok.white
  size := by
    intro w h hp
    cases hp
    decide
  wide := by
    intro w h hp
    cases hp
    decide
  reads := by
    intro w h hp
    cases hp
    exact reads_lossless paletteImage_ok rfl rfl rfl
  len := by
    intro w h hp x y h1 h2 h3 h4
    show (if x = 2 ∧ y = 1 then [0, 1] else [(x + 3 * y).toNat, 4]).length = 2
    split <;> rfl

example : ∃ st, run exampleEnv [.lookup 4 ⟨true, true, false⟩, .lookup 5 ⟨true, true, true⟩, .lookup 5 ⟨true, true, false⟩, .lookup 3 ⟨false, true, true⟩,
      .slot (.set .background (.native [2] false) 16), .lookup 6 ⟨true, true, false⟩, .entries] pinit =
    some (st, [.lookup (.exact [4]), .lookup (.exact [0, 1]), .lookup (.converted [0, 4]), .lookup (.converted [12, 16]), .slot .nothing,
      .lookup (.exact [2]), .entries [[0, 4], [1, 4], [2, 4], [3, 4], [4, 4], [0, 1]]]) :=
  C94_results_partial exampleEnv (ImageReader.Spec.color paletteImage true) _ exampleEnv_ok
    (by simp [Spec.OpOk, ColorSlot.Spec.OpOk, ColorSlot.Spec.ArgOk, exampleEnv])
    (by
      intro _ w h hp
      cases hp
      decide)

example : (run exampleEnv [.entriesF, .lookup 4 ⟨true, true, false⟩] pinit).map (·.2) =
    some [.entriesF [[0, 16], [4, 16], [8, 16], [12, 16], [16, 16], [0, 4]], .lookup (.exact [4])] := by decide +kernel

end Verif.Palette
