import Verif.ImageReader.Reads
/-!
Reading of blocks of pixels (C92).
-/
namespace Verif.ImageReader
open Verif.Integer Verif.PixelBox Verif.PixelBox.Spec Verif.ImageIter Verif.ImageIter.Spec Spec

variable {α φ γ : Type}

/-- What holds for the background and for all pixels of the image holds for what is seen. -/
theorem extended_all {β : Type} {P : β → Prop} {horz vert : Mode} {W H : Int} {img : Int → Int → β} {bg : β} (hb : P bg)
    (hl : ∀ x y : Int, 0 ≤ x → x < W → 0 ≤ y → y < H → P (img x y)) (x y : Int) : P (extended horz vert W H img bg x y) := by
  unfold extended
  split
  · rename_i hWH
    split
    · rename_i a b ha hb'
      have ra : ∀ (mode : Mode) (S v a : Int), 0 < S → seen mode S v = some a → 0 ≤ a ∧ a < S := by
        intro mode S v a hS h
        cases mode with
        | background =>
          simp only [seen] at h
          split at h
          · cases h; assumption
          · cases h
        | edge => simp only [seen, Option.some.injEq] at h; omega
        | «repeat» =>
          simp only [seen, Option.some.injEq] at h
          have := Int.emod_nonneg v (by omega : S ≠ 0)
          have := Int.emod_lt_of_pos v hS
          omega
      have h1 := ra _ _ _ _ hWH.1 ha
      have h2 := ra _ _ _ _ hWH.2 hb'
      exact hl a b h1.1 h1.2 h2.1 h2.2
    · exact hb
  · exact hb

theorem extended_congr {β δ : Type} {g : β → δ} {horz vert : Mode} {W H : Int} {img : Int → Int → β} {img' : Int → Int → β} {bg bg' : β} (hb : g bg = g bg')
    (hl : ∀ x y : Int, 0 ≤ x → x < W → 0 ≤ y → y < H → g (img x y) = g (img' x y)) (x y : Int) :
    g (extended horz vert W H img bg x y) = g (extended horz vert W H img' bg' x y) := by
  have := extended_all (P := fun p : β × β => g p.1 = g p.2) (horz := horz) (vert := vert) (W := W) (H := H) (img := fun x y => (img x y, img' x y))
    (bg := (bg, bg')) hb hl x y
  unfold extended at this ⊢
  split
  · rename_i h
    rw [if_pos h] at this
    split <;> simp_all
  · rename_i h
    rw [if_neg h] at this
    exact this

/-- From the updates to what is seen. -/
theorem shows_of {I : Nat} {read : Int → Int → Tray → Mem α → Option (Mem α)} {n : Nat} {img : Int → Int → List α}
    (hr : ReadAll I (fun _ _ => True) read n img) (hl : ∀ x y : Int, n ≤ (img x y).length) {x y : Int} {t : Tray} {m : Mem α}
    (he : PixelBox.Spec.Exists I ⟨x, y, t.w, t.h⟩) (hv : Valid I ⟨x, y, t.w, t.h⟩) (hg : Grid t.iter n ⟨0, 0, t.w, t.h⟩ m) :
    ∃ m', read x y t m = some m' ∧ Shows t.iter n ⟨0, 0, t.w, t.h⟩ (fun i j => img (x + i) (y + j)) m' ∧
      SameElsewhere t.iter n ⟨0, 0, t.w, t.h⟩ m m' := by
  obtain ⟨it, w, h⟩ := t
  simp only [PixelBox.Spec.Exists, Valid, Rep] at he hv
  have hi : Inj it (Part 0 0 w h n) := hg.inj.mono fun x y c hp => ⟨⟨⟨hp.1, hp.2.1⟩, hp.2.2.1, hp.2.2.2.1⟩, hp.2.2.2.2⟩
  have hm : Cells it w h n m := fun x y c hp => hg.cell x y c ⟨⟨hp.1, hp.2.1⟩, hp.2.2.1, hp.2.2.2.1⟩ hp.2.2.2.2
  obtain ⟨m', e, -, u⟩ := hr it w h x y m (by omega) (by omega) (by omega) (by omega) (by omega) (by omega) (by omega) (by omega) trivial hi hm
  refine ⟨m', e, ?_, fun a ha => u.miss a fun i j c hp => ha i j c ⟨⟨hp.1, hp.2.1⟩, hp.2.2.1, hp.2.2.2.1⟩ hp.2.2.2.2⟩
  rintro i j c ⟨⟨k1, k2⟩, k3, k4⟩ hc
  have := hl (x + i) (y + j)
  refine ⟨(img (x + i) (y + j))[c], List.getElem?_eq_getElem _, ?_⟩
  rw [u.hit i j c ⟨k1, k2, k3, k4, hc⟩, val, List.getElem?_eq_getElem]

/-- Reading from the image in its own representation. -/
theorem read_ok {I : Nat} {r : Reader α φ} (hr : Consistent I r) {alpha : Bool} :
    ReadOk (r.read alpha) (if alpha then r.numChannelsExt else r.numChannels) r.w r.h (color r alpha) ∧
      ∀ x y : Int, 0 ≤ x → x < r.w → 0 ≤ y → y < r.h → (if alpha then r.numChannelsExt else r.numChannels) ≤ (color r alpha x y).length := by
  have e1 : r.numChannels = r.colors + r.hasAlpha.toNat := rfl
  have e2 : r.numChannelsExt = r.colors + 1 := rfl
  cases hp : r.pixels with
  | direct col =>
    have hc := hr.color col hp
    by_cases ha : (alpha && !r.hasAlpha) = true
    · have ha' := ha
      rw [Bool.and_eq_true, Bool.not_eq_true'] at ha'
      obtain ⟨a1, a2⟩ := ha'
      subst a1
      rw [a2] at e1 hc
      have h1 : r.read true = fun x y tray m => (imageRead r.w r.h col r.colors x y tray m).bind fun m => addAlpha r.max r.colors tray m := by
        funext x y tray m
        simp only [Reader.read, hp, a2, e1, e2, Option.bind_eq_bind]
        rfl
      have h2 : color r true = fun x y => col x y ++ [r.max] := by
        funext x y
        simp [color, hp, a2]
      rw [h1, h2, if_pos rfl, e2]
      refine ⟨addAlpha_ok (by simpa using hc), ?_⟩
      intro x y k1 k2 k3 k4
      rw [List.length_append, hc x y k1 k2 k3 k4]
      simp
    · rw [Bool.not_eq_true] at ha
      have h1 : r.read alpha = imageRead r.w r.h col r.numChannels := by
        funext x y tray m
        simp only [Reader.read, hp, ha, Option.bind_eq_bind]
        cases imageRead r.w r.h col r.numChannels x y tray m <;> rfl
      have h2 : color r alpha = col := by
        funext x y
        simp [color, hp, ha]
      have h3 : (if alpha = true then r.numChannelsExt else r.numChannels) = r.numChannels := by
        cases alpha with
        | false => rfl
        | true =>
          simp at ha
          rw [if_pos rfl, e1, e2, ha]
          rfl
      rw [h1, h2, h3]
      have : ∀ x y : Int, 0 ≤ x → x < r.w → 0 ≤ y → y < r.h → r.numChannels ≤ (col x y).length := fun x y k1 k2 k3 k4 => (hc x y k1 k2 k3 k4).ge
      exact ⟨imageRead_ok this, this⟩
  | indexed index =>
    have hN : r.numChannels ≤ r.colors + 1 := by rw [e1]; have := Bool.toNat_le r.hasAlpha; omega
    have h2 : color r alpha = fun x y => chooseColor r.palette (if alpha then r.bgU else r.bgR) (index x y) := by
      funext x y
      simp only [color, hp, chooseColor, List.getD_eq_getElem?_getD]
    have hlen : ∀ x y : Int, (if alpha then r.numChannelsExt else r.numChannels) ≤ (color r alpha x y).length := by
      intro x y
      rw [h2]
      simp only [chooseColor, List.getD_eq_getElem?_getD]
      cases hq : r.palette[index x y]? with
      | some p =>
        have := hr.palette p (List.mem_of_getElem? hq)
        simp only [Option.getD_some, this]
        split <;> omega
      | none =>
        simp only [Option.getD_none]
        split
        · rw [hr.bgU, e2]
        · rw [hr.bgR, e1]
    have h1 : r.read alpha = imageRead r.w r.h (color r alpha) (if alpha then r.numChannelsExt else r.numChannels) := by
      funext x y tray m
      rw [h2]
      simp only [Reader.read, hp]
    rw [h1]
    exact ⟨imageRead_ok fun x y _ _ _ _ => hlen x y, fun x y _ _ _ _ => hlen x y⟩

/-- Reading from the image in representation `float_`. -/
theorem readF_ok {I : Nat} {r : Reader α φ} (hr : Consistent I r) :
    ReadOk r.readF r.numChannelsExt r.w r.h (colorF r) ∧
      ∀ x y : Int, 0 ≤ x → x < r.w → 0 ≤ y → y < r.h → (colorF r x y).length = r.numChannelsExt := by
  have e2 : r.numChannelsExt = r.colors + 1 := rfl
  have hlen : ∀ x y : Int, 0 ≤ x → x < r.w → 0 ≤ y → y < r.h → (colorF r x y).length = r.numChannelsExt := by
    intro x y k1 k2 k3 k4
    unfold colorF
    cases hp : r.pixels with
    | direct col => exact hr.toFloat _ (hr.color col hp x y k1 k2 k3 k4)
    | indexed index =>
      simp only
      cases hq : r.paletteF[index x y]? with
      | some p => exact hr.paletteF p (List.mem_of_getElem? hq)
      | none => exact hr.bgF
  refine ⟨?_, hlen⟩
  have h1 : r.readF = imageRead r.w r.h (colorF r) r.numChannelsExt := by
    funext x y tray m
    unfold Reader.readF colorF
    cases hp : r.pixels with
    | direct col => rfl
    | indexed index => simp only [chooseColor, List.getD_eq_getElem?_getD]
  rw [h1]
  exact imageRead_ok fun x y k1 k2 k3 k4 => (hlen x y k1 k2 k3 k4).ge

theorem background_len {I : Nat} {r : Reader α φ} (hr : Consistent I r) (alpha : Bool) :
    (if alpha then r.numChannelsExt else r.numChannels) ≤ (background r alpha).length := by
  have e1 : r.numChannels = r.colors + r.hasAlpha.toNat := rfl
  have e2 : r.numChannelsExt = r.colors + 1 := rfl
  have := Bool.toNat_le r.hasAlpha
  have b1 := hr.bgN; have b2 := hr.bgU; have b3 := hr.bgR
  unfold background
  split <;> split <;> omega

theorem readN_all {I : Nat} {r : Reader α φ} (hr : Consistent I r) {alpha : Bool} :
    ReadAll I (fun _ _ => True) (r.readN I alpha) (if alpha then r.numChannelsExt else r.numChannels)
      (extended r.horz r.vert r.w r.h (color r alpha) (background r alpha)) := by
  have h1 : r.readN I alpha = readE I (r.read alpha) (background r alpha) (if alpha then r.numChannelsExt else r.numChannels) r.w r.h r.horz r.vert := by
    funext x y tray m
    unfold Reader.readN background
    cases alpha <;> rfl
  rw [h1]
  have := hr.w; have := hr.h
  exact readE_all (read_ok hr).1 (background_len hr alpha) (read_ok hr).2 (by omega) (by omega) (by omega) (by omega)

theorem ReadAll.weaken {I : Nat} {P Q : Int → Int → Prop} {read : Int → Int → Tray → Mem α → Option (Mem α)} {n : Nat} {img : Int → Int → List α}
    (h : ReadAll I P read n img) (hPQ : ∀ w h, Q w h → P w h) : ReadAll I Q read n img :=
  fun it w h' x y m a1 a2 a3 a4 a5 a6 a7 a8 hQ hi hm => h it w h' x y m a1 a2 a3 a4 a5 a6 a7 a8 (hPQ _ _ hQ) hi hm

/-- Reading without loss: When pixels are requested in the representation and color space of the image, and not without the alpha channel of the image,
then every pixel of the tray gets the very color of the pixel that is seen at its position, as determined by the falloff modes. Nothing
else is changed, and there is no undefined behavior. -/
theorem C92_lossless (I : Nat) (r : Reader α φ) (q : Request) (x y : Int) (t : Tray) (m : Mem α) (hr : Consistent I r) (hq : lossless r q = true)
    (hcs : q.colors = r.colors) (he : PixelBox.Spec.Exists I ⟨x, y, t.w, t.h⟩) (hv : Valid I ⟨x, y, t.w, t.h⟩)
    (hg : Grid t.iter (q.colors + q.hasAlpha.toNat) ⟨0, 0, t.w, t.h⟩ m) :
    ∃ m', getBlock I (r.readG I q) x y t m = some m' ∧
      Shows t.iter (q.colors + q.hasAlpha.toNat) ⟨0, 0, t.w, t.h⟩
        (fun i j => extended r.horz r.vert r.w r.h (color r q.hasAlpha) (background r q.hasAlpha) (x + i) (y + j)) m' ∧
      SameElsewhere t.iter (q.colors + q.hasAlpha.toNat) ⟨0, 0, t.w, t.h⟩ m m' := by
  have hn : q.colors + q.hasAlpha.toNat = if q.hasAlpha then r.numChannelsExt else r.numChannels := by
    unfold Reader.numChannelsExt Reader.numChannels
    unfold lossless at hq
    rw [hcs]
    cases ha : q.hasAlpha with
    | true => rfl
    | false =>
      rw [ha] at hq
      simp at hq
      rw [hq.2]
      rfl
  rw [hn] at hg ⊢
  exact shows_of (getBlock_all ((readN_all hr).weaken fun _ _ _ => trivial))
    (extended_all (P := fun l : List α => _ ≤ l.length) (background_len hr _) (read_ok hr).2) he hv hg

/-- An image of 2 by 2 pixels with one channel, and with colors 1, 2, 3, 4. The background color is 9 with opacity 7, and 100 is full opacity. -/
def small (horz vert : Mode) : Reader Nat Nat where
  w := 2
  h := 2
  horz := horz
  vert := vert
  pixels := .direct fun x y => [(1 + x + 2 * y).toNat]
  hasAlpha := false
  colors := 1
  isFloat := false
  max := 100
  palette := []
  paletteF := []
  bgU := [9, 7]
  bgR := [9]
  bgN := [9, 7]
  bgF := [90, 70]
  toFloat := fun _ _ p => p.map (· * 10) ++ [1000]

example (horz vert : Mode) : Consistent 15 (small horz vert) where
  w := ⟨by show (0 : Int) ≤ 2; omega, by show (2 : Int) ≤ _; omega⟩
  h := ⟨by show (0 : Int) ≤ 2; omega, by show (2 : Int) ≤ _; omega⟩
  color := by
    intro color h x y _ _ _ _
    cases h
    rfl
  palette := by intro p h; cases h
  paletteF := by intro p h; cases h
  bgU := rfl
  bgR := rfl
  bgN := rfl
  bgF := rfl
  toFloat := by
    intro p h
    show (p.map _ ++ [1000]).length = _
    rw [List.length_append, List.length_map, h]
    rfl

/-- Falloff mode is background horizontally, and edge vertically. The box is of size 5 by 4, and at (-1, -1). -/
example : dump (getBlock 15 ((small .background .edge).readG 15 ⟨true, true, false, 1⟩) (-1) (-1) ⟨⟨0, 1, 5⟩, 5, 4⟩ (cells (List.replicate 21 none))) 21 =
    some ([9, 1, 2, 9, 9,
           9, 1, 2, 9, 9,
           9, 3, 4, 9, 9,
           9, 3, 4, 9, 9].map some ++ [none]) := by decide +kernel

/-- Falloff mode is repeat in both directions. Alpha components are requested. -/
example : dump (getBlock 15 ((small .repeat .repeat).readG 15 ⟨true, true, true, 1⟩) (-3) 1 ⟨⟨0, 2, 6⟩, 3, 3⟩ (cells (List.replicate 18 none))) 18 =
    some ([4, 100, 3, 100, 4, 100,
           2, 100, 1, 100, 2, 100,
           4, 100, 3, 100, 4, 100].map some) := by decide +kernel

/-- Reading with conversion, when the representation of the image is not `float_`: Every pixel of the tray gets the converted color of the pixel that
is seen at its position, where the color is in representation `float_`, and has an alpha component. -/
theorem C92_converted (I : Nat) (r : Reader α φ) (q : Request) (conv : List φ → List γ) (x y : Int) (t : Tray) (m : Mem γ) (hr : Consistent I r)
    (hk : ((r.colors : Int) + 1) * 4096 ≤ 2 ^ I - 1) (hc : ∀ p, p.length = r.colors + 1 → (conv p).length = q.colors + q.hasAlpha.toNat)
    (he : PixelBox.Spec.Exists I ⟨x, y, t.w, t.h⟩) (hv : Valid I ⟨x, y, t.w, t.h⟩) (hg : Grid t.iter (q.colors + q.hasAlpha.toNat) ⟨0, 0, t.w, t.h⟩ m) :
    ∃ m', getBlock I (r.readGF I q conv) x y t m = some m' ∧
      Shows t.iter (q.colors + q.hasAlpha.toNat) ⟨0, 0, t.w, t.h⟩
        (fun i j => conv (extended r.horz r.vert r.w r.h (colorF r) r.bgF (x + i) (y + j))) m' ∧
      SameElsewhere t.iter (q.colors + q.hasAlpha.toNat) ⟨0, 0, t.w, t.h⟩ m m' := by
  have := hr.w; have := hr.h
  have hl : ∀ x y : Int, (extended r.horz r.vert r.w r.h (colorF r) r.bgF x y).length = r.numChannelsExt :=
    extended_all (P := fun l : List φ => l.length = r.numChannelsExt) hr.bgF (readF_ok hr).2
  have h1 : ReadAll I (fun _ _ => True) (r.readEF I) r.numChannelsExt (extended r.horz r.vert r.w r.h (colorF r) r.bgF) :=
    readE_all (readF_ok hr).1 (by rw [hr.bgF]; rfl) (fun x y k1 k2 k3 k4 => ((readF_ok hr).2 x y k1 k2 k3 k4).ge) (by omega) (by omega) (by omega) (by omega)
  have h2 := convert_all h1 hl (conv := conv) (n := q.colors + q.hasAlpha.toNat) (fun p hp => (hc p hp).ge)
    (by show ((r.colors + 1 : Nat) : Int) * 4096 < _; push_cast; omega)
  exact shows_of (read := getBlock I (r.readGF I q conv)) (getBlock_all (h2.weaken fun _ _ h => ⟨trivial, h.1⟩)) (fun x y => (hc _ (hl x y)).ge) he hv hg

/-- Conversion adds the two components. -/
example : dump (getBlock 15 ((small .edge .background).readGF 15 ⟨false, true, false, 1⟩ fun p => [p.sum]) 1 1 ⟨⟨0, 1, 2⟩, 2, 2⟩
      (cells (List.replicate 4 none))) 4 =
    some ([1040, 1040,
           160, 160].map some) := by decide +kernel

/-- Reading with conversion, when the representation of the image is `float_`. -/
theorem C92_converted_float (I : Nat) (r : Reader α φ) (q : Request) (conv : List α → List γ) (x y : Int) (t : Tray) (m : Mem γ) (hr : Consistent I r)
    (hk : ((r.colors : Int) + 1) * 4096 ≤ 2 ^ I - 1) (hc : ∀ p, p.length = r.colors + 1 → (conv p).length = q.colors + q.hasAlpha.toNat)
    (he : PixelBox.Spec.Exists I ⟨x, y, t.w, t.h⟩) (hv : Valid I ⟨x, y, t.w, t.h⟩) (hg : Grid t.iter (q.colors + q.hasAlpha.toNat) ⟨0, 0, t.w, t.h⟩ m) :
    ∃ m', getBlock I (r.readGN I q conv) x y t m = some m' ∧
      Shows t.iter (q.colors + q.hasAlpha.toNat) ⟨0, 0, t.w, t.h⟩
        (fun i j => conv (extended r.horz r.vert r.w r.h (color r true) (background r true) (x + i) (y + j))) m' ∧
      SameElsewhere t.iter (q.colors + q.hasAlpha.toNat) ⟨0, 0, t.w, t.h⟩ m m' := by
  have hcol : ∀ x y : Int, 0 ≤ x → x < r.w → 0 ≤ y → y < r.h → (color r true x y).length = r.numChannelsExt := by
    intro x y k1 k2 k3 k4
    unfold color
    cases hp : r.pixels with
    | direct col =>
      have := hr.color col hp x y k1 k2 k3 k4
      cases ha : r.hasAlpha with
      | true => rw [ha] at this; simpa [Reader.numChannelsExt] using this
      | false => rw [ha] at this; simpa [Reader.numChannelsExt] using this
    | indexed index =>
      simp only
      cases hq : r.palette[index x y]? with
      | some p => exact hr.palette p (List.mem_of_getElem? hq)
      | none => exact hr.bgU
  have hb : (background r true).length = r.numChannelsExt := by
    unfold background
    split
    · exact hr.bgN
    · exact hr.bgU
  have hl : ∀ x y : Int, (extended r.horz r.vert r.w r.h (color r true) (background r true) x y).length = r.numChannelsExt :=
    extended_all (P := fun l : List α => l.length = r.numChannelsExt) hb hcol
  have h2 := convert_all (readN_all hr (alpha := true)) hl (conv := conv) (n := q.colors + q.hasAlpha.toNat) (fun p hp => (hc p hp).ge)
    (by show ((r.colors + 1 : Nat) : Int) * 4096 < _; push_cast; omega)
  exact shows_of (read := getBlock I (r.readGN I q conv)) (getBlock_all (h2.weaken fun _ _ h => ⟨trivial, h.1⟩)) (fun x y => (hc _ (hl x y)).ge) he hv hg

example : dump (getBlock 15 ({ small .edge .background with isFloat := true }.readGN 15 ⟨false, true, false, 1⟩ fun p => [p.sum]) 1 1 ⟨⟨0, 1, 2⟩, 2, 2⟩
      (cells (List.replicate 4 none))) 4 =
    some ([104, 104,
           16, 16].map some) := by decide +kernel

/-- The palette has two colors, and color index 2 is not in the palette. -/
example : dump (getBlock 15 ({ small .edge .edge with pixels := .indexed fun x y => (x + y).toNat, palette := [[1, 5], [2, 6]] }.readG 15 ⟨true, true, true, 1⟩)
      0 0 ⟨⟨0, 2, 4⟩, 2, 2⟩ (cells (List.replicate 8 none))) 8 =
    some ([1, 5, 2, 6,
           2, 6, 9, 7].map some) := by decide +kernel

/-! ### What is seen -/

/-- Inside the image, the image is seen, no matter the falloff modes. -/
theorem C92_inside {β : Type} (horz vert : Mode) (W H : Int) (img : Int → Int → β) (bg : β) (x y : Int) (hx : 0 ≤ x ∧ x < W) (hy : 0 ≤ y ∧ y < H) :
    extended horz vert W H img bg x y = img x y := by
  have inn : ∀ (mode : Mode) (S v : Int), 0 ≤ v → v < S → seen mode S v = some v := by
    intro mode S v h1 h2
    cases mode with
    | background => simp only [seen]; rw [if_pos ⟨h1, h2⟩]
    | edge => simp only [seen, Option.some.injEq]; omega
    | «repeat» => simp only [seen, Option.some.injEq]; exact Int.emod_eq_of_lt h1 h2
  unfold extended
  rw [if_pos (by omega), inn _ _ _ hx.1 hx.2, inn _ _ _ hy.1 hy.2]

/-- It does not matter in which order the image is extended in the two directions. -/
theorem C92_order {β : Type} (horz vert : Mode) (W H : Int) (img : Int → Int → β) (bg : β) (hW : 0 < W) (hH : 0 < H) :
    extendHorz horz W (extendVert vert H img bg) bg = extended horz vert W H img bg ∧
      extendVert vert H (extendHorz horz W img bg) bg = extended horz vert W H img bg := by
  constructor
  · funext x y
    unfold extendHorz extendVert extended
    rw [if_pos ⟨hW, hH⟩]
    cases seen horz W x <;> cases seen vert H y <;> rfl
  · funext x y
    unfold extendHorz extendVert extended
    beta_reduce
    rw [if_pos ⟨hW, hH⟩]
    cases seen horz W x <;> cases seen vert H y <;> rfl

/-- What is seen in one direction: with `background`, nothing outside the image, with `edge`, what is nearest, and with `repeat`, what is at a distance of a
multiple of the size. -/
theorem C92_seen (S v : Int) (hS : 0 < S) :
    (¬(0 ≤ v ∧ v < S) → seen .background S v = none) ∧
      (∃ a, seen .edge S v = some a ∧ 0 ≤ a ∧ a < S ∧ ∀ b : Int, 0 ≤ b → b < S → |a - v| ≤ |b - v|) ∧
      (∃ a, seen .repeat S v = some a ∧ 0 ≤ a ∧ a < S ∧ S ∣ v - a) := by
  refine ⟨fun h => by simp only [seen]; rw [if_neg h], ⟨_, rfl, by omega, by omega, ?_⟩, ⟨_, rfl, Int.emod_nonneg _ (by omega), Int.emod_lt_of_pos _ hS, ?_⟩⟩
  · intro b h1 h2
    rcases abs_cases (b - v) with h | h <;> rcases abs_cases (max 0 (min v (S - 1)) - v) with h' | h' <;> omega
  · exact ⟨v / S, by have := Int.mul_ediv_add_emod v S; omega⟩

/-- Blocks are read in parts, each of at most 4096 pixels, such that each pixel is in exactly one of them. -/
theorem C92_subdivide (I : Nat) (box : Box) (he : PixelBox.Spec.Exists I box) (hv : Valid I box) :
    ∃ l, subdivide I box = some l ∧ (∀ b ∈ l, 0 ≤ b.w ∧ 0 ≤ b.h ∧ b.w * b.h ≤ 4096 ∧ ∀ x y : Int, Pixel b x y → Pixel box x y) ∧
      (∀ x y : Int, Pixel box x y → ∃ b ∈ l, Pixel b x y) ∧ l.Pairwise (fun a b => ∀ x y : Int, ¬(Pixel a x y ∧ Pixel b x y)) := by
  simp only [PixelBox.Spec.Exists, Valid, Rep] at he hv
  obtain ⟨l, e, p1, p2, p3⟩ := subdivide_spec (I := I) (box := box) (by omega) (by omega) (by omega) (by omega) (by omega) (by omega) (by omega) (by omega)
  refine ⟨l, e, ?_, p2, p3⟩
  intro b hb
  have s := p1 b hb
  refine ⟨s.w0, s.h0, s.area, ?_⟩
  rintro x y ⟨⟨k1, k2⟩, k3, k4⟩
  have := s.x0; have := s.x1; have := s.y0; have := s.y1
  exact ⟨⟨by omega, by omega⟩, by omega, by omega⟩

example : subdivide 15 ⟨-5, 3, 100, 70⟩ = some [⟨-5, 3, 64, 64⟩, ⟨59, 3, 36, 64⟩, ⟨-5, 67, 100, 6⟩] := by decide +kernel

end Verif.ImageReader
