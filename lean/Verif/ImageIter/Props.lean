import Verif.ImageIter.Repeat
import Verif.PixelBox.Props
/-!
Properties of pixel iterators and trays (C91).
-/
namespace Verif.ImageIter
open Verif.Integer Verif.PixelBox Verif.PixelBox.Spec Spec

variable {α : Type}

/-- The components of the pixels in a box. -/
abbrev InBox (b : Box) (n : Nat) (x y : Int) (c : Nat) : Prop := Pixel b x y ∧ c < n

theorem Spec.Grid.inj {it : Iter} {n : Nat} {b : Box} {m : Mem α} (h : Grid it n b m) : Inj it (InBox b n) :=
  fun x y c x' y' c' h1 h2 => h.distinct x y c x' y' c' h1.1 h1.2 h2.1 h2.2

theorem Spec.Grid.sameCells {it : Iter} {n : Nat} {b : Box} {m m' : Mem α} (h : Grid it n b m) (hc : SameCells m m') : Grid it n b m' :=
  ⟨fun x y c hp hn => by rw [Ne, hc]; exact h.cell x y c hp hn, h.distinct⟩

theorem fold_range {start len v : Int} (h : 0 < len) : start ≤ fold start len v ∧ fold start len v < start + len := by
  unfold fold
  have := Int.emod_nonneg (v - start) (by omega : len ≠ 0)
  have := Int.emod_lt_of_pos (v - start) h
  omega

theorem fold_self {start len v : Int} (h1 : start ≤ v) (h2 : v < start + len) : fold start len v = v :=
  fold_eq h1 h2 ⟨0, by ring⟩

/-- Repetition of a pattern in memory. -/
theorem repeat_upd {I : Nat} {it : Iter} {n : Nat} {pattern area : Box} {m : Mem α} (hI : PixelBox.Spec.Exists I area) (hv : Valid I area)
    (hw : 0 < pattern.w) (hh : 0 < pattern.h) (hx1 : area.x ≤ pattern.x) (hx2 : pattern.x + pattern.w ≤ area.x + area.w)
    (hy1 : area.y ≤ pattern.y) (hy2 : pattern.y + pattern.h ≤ area.y + area.h) (hg : Grid it n area m)
    (hP : ∀ (x y : Int) (c : Nat), Pixel pattern x y → c < n → ∃ u, m (addr it x y c) = some (some u)) :
    ∃ m', it.repeat I pattern area n m = some m' ∧ SameCells m m' ∧
      Upd it (InBox area n) (fun x y c => m (addr it (fold pattern.x pattern.w x) (fold pattern.y pattern.h y) c)) m m' := by
  obtain ⟨px, py, pw, ph⟩ := pattern
  obtain ⟨ax, ay, aw, ah⟩ := area
  simp only [PixelBox.Spec.Exists, Valid, Rep] at hI hv hw hh hx1 hx2 hy1 hy2
  have h2 : (0 : Int) < 2 ^ I := by positivity
  have hc : (⟨ax, ay, aw, ah⟩ : Box).contains I ⟨px, py, pw, ph⟩ = some true := by
    obtain ⟨r, e, hr⟩ := contains_eq (I := I) (a := ⟨ax, ay, aw, ah⟩) (b := ⟨px, py, pw, ph⟩) ⟨hw.le, hh.le⟩ hI
      ⟨by show |ax - px| ≤ _; rw [abs_le]; omega, by show |ay - py| ≤ _; rw [abs_le]; omega⟩
    rw [e, hr.mpr ⟨⟨hx1, hx2⟩, hy1, hy2⟩]
  have hi := hg.inj
  have hcell := hg.cell
  simp only [Pixel] at hcell hP
  replace hi : Inj it (fun x y c => ((ax ≤ x ∧ x < ax + aw) ∧ (ay ≤ y ∧ y < ay + ah)) ∧ c < n) := hi
  have s1 := sub_ok (I := I) (a := px) (b := ax) (by omega) (by omega)
  have s2 := sub_ok (I := I) (a := py) (b := ay) (by omega) (by omega)
  have s3 := add_ok (I := I) (a := px - ax) (b := pw) (by omega) (by omega)
  have s4 := add_ok (I := I) (a := py - ay) (b := ph) (by omega) (by omega)
  have s5 := sub_ok (I := I) (a := aw) (b := px - ax + pw) (by omega) (by omega)
  have s6 := sub_ok (I := I) (a := ah) (b := py - ay + ph) (by omega) (by omega)
  obtain ⟨m1, e1, c1, u1⟩ := repeatLeft_upd (I := I) hi (n := n) (px := px) (py := py) (pw := pw) (ph := ph) (size := px - ax) hw (by omega) (by omega)
    (by omega) (by omega) (by omega) (by omega) (m := m)
    (fun x y c h1 h2 h3 h4 hc => ⟨⟨⟨by omega, by omega⟩, hc⟩, hP x y c ⟨⟨h1, h2⟩, h3, h4⟩ hc⟩)
    (fun x y c h1 h2 h3 h4 hc => ⟨⟨⟨by omega, by omega⟩, hc⟩, hcell x y c ⟨by omega, by omega⟩ hc⟩)
  obtain ⟨m2, e2, c2, u2⟩ := repeatRight_upd (I := I) hi (n := n) (px := px) (py := py) (pw := pw) (ph := ph) (size := aw - (px - ax + pw)) hw (by omega) (by omega)
    (by omega) (by omega) (by omega) (by omega) (m := m1)
    (fun x y c h1 h2 h3 h4 hc => ⟨⟨⟨by omega, by omega⟩, hc⟩, by
      rw [u1.other hi (fun x' y' c' h => ⟨⟨by omega, by omega⟩, by omega⟩) ⟨⟨by omega, by omega⟩, hc⟩ (by omega)]
      exact hP x y c ⟨⟨h1, h2⟩, h3, h4⟩ hc⟩)
    (fun x y c h1 h2 h3 h4 hc => ⟨⟨⟨by omega, by omega⟩, hc⟩, by rw [Ne, c1]; exact hcell x y c ⟨by omega, by omega⟩ hc⟩)
  -- The rows of the pattern
  have hrow : ∀ (x y : Int) (c : Nat), ax ≤ x → x < ax + aw → py ≤ y → y < py + ph → c < n →
      m2 (addr it x y c) = m (addr it (fold px pw x) y c) := by
    intro x y c h1 h2 h3 h4 hc
    have hE : ∀ x' y' : Int, ax ≤ x' → x' < ax + aw → py ≤ y' → y' < py + ph → ((ax ≤ x' ∧ x' < ax + aw) ∧ (ay ≤ y' ∧ y' < ay + ah)) ∧ c < n :=
      fun x' y' _ _ _ _ => ⟨⟨by omega, by omega⟩, hc⟩
    have hfr := fold_range (start := px) (v := x) hw
    by_cases k1 : x < px
    · rw [u2.other hi (fun x' y' c' h => ⟨⟨by omega, by omega⟩, by omega⟩) (hE x y h1 h2 h3 h4) (by omega)]
      exact u1.hit x y c ⟨by omega, k1, h3, h4, hc⟩
    · by_cases k2 : x < px + pw
      · rw [u2.other hi (fun x' y' c' h => ⟨⟨by omega, by omega⟩, by omega⟩) (hE x y h1 h2 h3 h4) (by omega),
          u1.other hi (fun x' y' c' h => ⟨⟨by omega, by omega⟩, by omega⟩) (hE x y h1 h2 h3 h4) (by omega), fold_self (by omega) k2]
      · rw [u2.hit x y c ⟨by omega, by omega, h3, h4, hc⟩,
          u1.other hi (fun x' y' c' h => ⟨⟨by omega, by omega⟩, by omega⟩) (hE _ y (by omega) (by omega) h3 h4) (by omega)]
  have hini : ∀ (x y : Int) (c : Nat), ax ≤ x → x < ax + aw → py ≤ y → y < py + ph → c < n →
      (((ax ≤ x ∧ x < ax + aw) ∧ (ay ≤ y ∧ y < ay + ah)) ∧ c < n) ∧ ∃ u, m2 (addr it x y c) = some (some u) := by
    intro x y c h1 h2 h3 h4 hc
    refine ⟨⟨⟨by omega, by omega⟩, hc⟩, ?_⟩
    rw [hrow x y c h1 h2 h3 h4 hc]
    have hfr := fold_range (start := px) (v := x) hw
    exact hP _ y c ⟨hfr, h3, h4⟩ hc
  obtain ⟨m3, e3, c3, u3⟩ := repeatUp_upd (I := I) hi (n := n) (px := ax) (py := py) (pw := aw) (ph := ph) (size := py - ay) hh (by omega) (by omega)
    (by omega) (by omega) (by omega) (by omega) (m := m2) hini
    (fun x y c h1 h2 h3 h4 hc => ⟨⟨⟨by omega, by omega⟩, hc⟩, by rw [Ne, c2, c1]; exact hcell x y c ⟨by omega, by omega⟩ hc⟩)
  obtain ⟨m4, e4, c4, u4⟩ := repeatDown_upd (I := I) hi (n := n) (px := ax) (py := py) (pw := aw) (ph := ph) (size := ah - (py - ay + ph)) hh (by omega) (by omega)
    (by omega) (by omega) (by omega) (by omega) (m := m3)
    (fun x y c h1 h2 h3 h4 hc => ⟨(hini x y c h1 h2 h3 h4 hc).1, by
      rw [u3.other hi (fun x' y' c' h => ⟨⟨by omega, by omega⟩, by omega⟩) (hini x y c h1 h2 h3 h4 hc).1 (by omega)]
      exact (hini x y c h1 h2 h3 h4 hc).2⟩)
    (fun x y c h1 h2 h3 h4 hc => ⟨⟨⟨by omega, by omega⟩, hc⟩, by rw [Ne, c3, c2, c1]; exact hcell x y c ⟨by omega, by omega⟩ hc⟩)
  refine ⟨m4, ?_, fun a => (c4 a).trans ((c3 a).trans ((c2 a).trans (c1 a))), ?_, ?_⟩
  · unfold Iter.repeat
    rw [hc]
    simp only [Option.bind_eq_bind, Option.bind_some, if_true, s1, s2, s3, s4, s5, s6, e1, e2, splice, e3, e4]
  · rintro x y c ⟨⟨⟨h1, h2⟩, h3, h4⟩, hc⟩
    simp only at h1 h2 h3 h4
    have hE : ∀ y' : Int, ay ≤ y' → y' < ay + ah → ((ax ≤ x ∧ x < ax + aw) ∧ (ay ≤ y' ∧ y' < ay + ah)) ∧ c < n :=
      fun y' _ _ => ⟨⟨by omega, by omega⟩, hc⟩
    have hfr := fold_range (start := py) (v := y) hh
    show m4 (addr it x y c) = m (addr it (fold px pw x) (fold py ph y) c)
    by_cases k1 : y < py
    · rw [u4.other hi (fun x' y' c' h => ⟨⟨by omega, by omega⟩, by omega⟩) (hE y h3 h4) (by omega),
        u3.hit x y c ⟨h1, h2, by omega, k1, hc⟩, hrow _ _ _ h1 h2 hfr.1 hfr.2 hc]
    · by_cases k2 : y < py + ph
      · rw [u4.other hi (fun x' y' c' h => ⟨⟨by omega, by omega⟩, by omega⟩) (hE y h3 h4) (by omega),
          u3.other hi (fun x' y' c' h => ⟨⟨by omega, by omega⟩, by omega⟩) (hE y h3 h4) (by omega), fold_self (by omega) k2,
          hrow x y c h1 h2 (by omega) k2 hc]
      · rw [u4.hit x y c ⟨h1, h2, by omega, by omega, hc⟩,
          u3.other hi (fun x' y' c' h => ⟨⟨by omega, by omega⟩, by omega⟩) (hE _ (by omega) (by omega)) (by omega),
          hrow _ _ _ h1 h2 hfr.1 hfr.2 hc]
  · intro a ha
    rw [u4.miss a fun x y c h => ha x y c ⟨⟨⟨by simp only; omega, by simp only; omega⟩, by simp only; omega, by simp only; omega⟩, by omega⟩,
      u3.miss a fun x y c h => ha x y c ⟨⟨⟨by simp only; omega, by simp only; omega⟩, by simp only; omega, by simp only; omega⟩, by omega⟩,
      u2.miss a fun x y c h => ha x y c ⟨⟨⟨by simp only; omega, by simp only; omega⟩, by simp only; omega, by simp only; omega⟩, by omega⟩,
      u1.miss a fun x y c h => ha x y c ⟨⟨⟨by simp only; omega, by simp only; omega⟩, by simp only; omega, by simp only; omega⟩, by omega⟩]

theorem updHolds {it : Iter} {n : Nat} {b : Box} {D : Int → Int → Nat → Prop} {v : Int → Int → Nat → Option (Option α)} {m m' : Mem α}
    (u : Upd it D v m m') (hD : ∀ (x y : Int) (c : Nat), D x y c ↔ InBox b n x y c) {f : Int → Int → Nat → α}
    (hf : ∀ (x y : Int) (c : Nat), Pixel b x y → c < n → v x y c = some (some (f x y c))) :
    Holds it n b f m' ∧ SameElsewhere it n b m m' :=
  ⟨fun x y c hp hc => by rw [u.hit x y c ((hD x y c).mpr ⟨hp, hc⟩), hf x y c hp hc],
   fun a ha => u.miss a fun x y c hd => ha x y c ((hD x y c).mp hd).1 ((hD x y c).mp hd).2⟩

/-- Some memory, for examples. -/
def cells (l : List (Option Nat)) : Mem Nat := fun a => if 0 ≤ a then l[a.toNat]? else none

/-- The contents of the first `k` cells, for examples. -/
def dump (m : Option (Mem Nat)) (k : Nat) : Option (List (Option Nat)) := m.bind fun m => (List.range k).mapM fun i => m i

/-! ### Filling -/

/-- Filling of an area assigns the specified pixel to each pixel of the area, and leaves all other memory as it is. -/
theorem C91_fill (I : Nat) (it : Iter) (n : Nat) (area : Box) (pixel : List α) (m : Mem α) (hI : PixelBox.Spec.Exists I area) (hv : Valid I area)
    (hg : Grid it n area m) (hl : pixel.length = n) :
    ∃ m', it.fill I pixel area n m = some m' ∧ SameElsewhere it n area m m' ∧
      ∀ (x y : Int) (c : Nat) (h : c < n), Pixel area x y → m' (addr it x y c) = some (some pixel[c]) := by
  simp only [PixelBox.Spec.Exists, Valid, Rep] at hI hv
  obtain ⟨m', e, -, u⟩ := fill_upd (I := I) hg.inj (n := n) (area := area) (pixel := pixel) (m := m) (by omega) (by omega) (by omega) (by omega) (by omega)
    (fun x y c h1 h2 h3 h4 hc => ⟨⟨⟨⟨h1, h2⟩, h3, h4⟩, hc⟩, hg.cell x y c ⟨⟨h1, h2⟩, h3, h4⟩ hc⟩)
  refine ⟨m', e, fun a ha => u.miss a fun x y c h => ha x y c ⟨⟨h.1, h.2.1⟩, h.2.2.1, h.2.2.2.1⟩ h.2.2.2.2, ?_⟩
  rintro x y c h ⟨⟨h1, h2⟩, h3, h4⟩
  rw [u.hit x y c ⟨h1, h2, h3, h4, h⟩, List.getElem?_eq_getElem]

/-- A 2-by-2 area of a 3-by-3 grid with 2 components per pixel. -/
example : dump (Iter.fill 15 ⟨0, 2, 6⟩ [7, 8] ⟨1, 1, 2, 2⟩ 2 (cells (List.replicate 18 (some 0)))) 18 =
    some [some 0, some 0, some 0, some 0, some 0, some 0, some 0, some 0, some 7, some 8, some 7, some 8,
      some 0, some 0, some 7, some 8, some 7, some 8] := by decide

/-! ### Copying -/

/-- Copying between trays: when the pixels of the origin have values, those of the destination are distinct, and the two have no
cells in common, then the destination receives the pixels of the origin, and all other memory, in particular the origin, is
unchanged. Strides are arbitrary and independent of each other. -/
theorem C91_copy (src dst : Iter) (n : Nat) (w h : Int) (f : Int → Int → Nat → α) (m : Mem α) (hg : Grid dst n ⟨0, 0, w, h⟩ m)
    (hs : Holds src n ⟨0, 0, w, h⟩ f m)
    (hd : ∀ (x y : Int) (c : Nat) (x' y' : Int) (c' : Nat), Pixel ⟨0, 0, w, h⟩ x y → c < n → Pixel ⟨0, 0, w, h⟩ x' y' → c' < n →
      addr src x y c ≠ addr dst x' y' c') :
    ∃ m', (⟨src, w, h⟩ : Tray).copyTo dst n m = some m' ∧ (⟨dst, w, h⟩ : Tray).copyFrom src n m = some m' ∧
      Holds dst n ⟨0, 0, w, h⟩ f m' ∧ SameElsewhere dst n ⟨0, 0, w, h⟩ m m' ∧ Holds src n ⟨0, 0, w, h⟩ f m' := by
  have px : ∀ x y : Int, 0 ≤ x → x < 0 + w → 0 ≤ y → y < 0 + h → Pixel ⟨0, 0, w, h⟩ x y := fun x y h1 h2 h3 h4 => ⟨⟨h1, h2⟩, h3, h4⟩
  obtain ⟨m', e, -, u⟩ := copyTo_gen (src := src) hg.inj (n := n) (sx := 0) (sy := 0) (dx := 0) (dy := 0) (w := w) (h := h) (m := m)
    (fun x y c h1 h2 h3 h4 hc => ⟨_, hs x y c (px x y h1 h2 h3 h4) hc⟩)
    (fun x y c h1 h2 h3 h4 hc => ⟨⟨px x y h1 h2 h3 h4, hc⟩, hg.cell x y c (px x y h1 h2 h3 h4) hc⟩)
    (fun x y c x' y' c' h1 h2 h3 h4 hc k1 k2 k3 k4 kc => hd x y c x' y' c' (px x y h1 h2 h3 h4) hc (px x' y' k1 k2 k3 k4) kc)
  rw [plus_zero, plus_zero] at e
  obtain ⟨a1, a2⟩ := updHolds (b := ⟨0, 0, w, h⟩) (n := n) (f := f) u (fun x y c => by simp only [InBox, Pixel]; tauto) (fun x y c hp hc => by
    rw [← hs x y c hp hc]; congr 2 <;> omega)
  refine ⟨m', e, e, a1, a2, fun x y c hp hc => ?_⟩
  rw [a2 _ fun x' y' c' hp' hc' => hd x y c x' y' c' hp hc hp' hc', hs x y c hp hc]

/-- Two pixels are copied from a row to a column. -/
example : dump ((⟨⟨0, 1, 2⟩, 2, 1⟩ : Tray).copyTo ⟨2, 2, 1⟩ 1 (cells [some 5, some 6, none, none, none])) 5 =
    some [some 5, some 6, some 5, none, some 6] := by decide

/-! ### Repetition -/

/-- Repetition of a pattern over an area: each pixel of the area becomes the pixel of the pattern whose position differs from it by
a multiple of the size of the pattern in each direction. The pattern is unchanged, and so is all memory outside the area. There is
no overflow, and only existing cells are accessed. -/
theorem C91_repeat (I : Nat) (it : Iter) (n : Nat) (pattern area : Box) (f : Int → Int → Nat → α) (m : Mem α)
    (hI : PixelBox.Spec.Exists I area) (hv : Valid I area) (hw : 0 < pattern.w) (hh : 0 < pattern.h)
    (hs : ∀ x y : Int, Pixel pattern x y → Pixel area x y) (hg : Grid it n area m) (hp : Holds it n pattern f m) :
    ∃ m', it.repeat I pattern area n m = some m' ∧
      Holds it n area (fun x y c => f (fold pattern.x pattern.w x) (fold pattern.y pattern.h y) c) m' ∧ Holds it n pattern f m' ∧
      SameElsewhere it n area m m' := by
  have c1 := hs pattern.x pattern.y ⟨⟨by omega, by omega⟩, by omega, by omega⟩
  have c2 := hs (pattern.x + pattern.w - 1) (pattern.y + pattern.h - 1) ⟨⟨by omega, by omega⟩, by omega, by omega⟩
  simp only [Pixel] at c1 c2
  obtain ⟨m', e, -, u⟩ := repeat_upd (I := I) (it := it) (n := n) (m := m) hI hv hw hh (by omega) (by omega) (by omega) (by omega) hg
    (fun x y c h hc => ⟨_, hp x y c h hc⟩)
  obtain ⟨a1, a2⟩ := updHolds (b := area) (n := n) (f := fun x y c => f (fold pattern.x pattern.w x) (fold pattern.y pattern.h y) c) u
    (fun _ _ _ => Iff.rfl) (fun x y c _ hc => hp _ _ c ⟨fold_range hw, fold_range hh⟩ hc)
  refine ⟨m', e, a1, ?_, a2⟩
  intro x y c h hc
  rw [a1 x y c (hs x y h) hc]
  beta_reduce
  rw [fold_self h.1.1 h.1.2, fold_self h.2.1 h.2.2]

/-- The position in the pattern is the one that is meant. -/
theorem C91_fold (start len v : Int) (h : 0 < len) :
    start ≤ fold start len v ∧ fold start len v < start + len ∧ len ∣ fold start len v - v ∧
      ∀ u : Int, start ≤ u → u < start + len → len ∣ u - v → u = fold start len v :=
  ⟨(fold_range h).1, (fold_range h).2, ⟨-((v - start) / len), by
    have := Int.mul_ediv_add_emod (v - start) len
    unfold fold; linarith⟩, fun _ h1 h2 h3 => (fold_eq h1 h2 h3).symm⟩

example : fold 3 4 (-2) = 6 := by decide

/-- A tray is filled by repetition of a part of it. -/
theorem C91_tray_repeat (I : Nat) (t : Tray) (n : Nat) (pattern : Box) (f : Int → Int → Nat → α) (m : Mem α)
    (hw0 : 0 ≤ t.w) (hh0 : 0 ≤ t.h) (hw1 : t.w ≤ 2 ^ I - 1) (hh1 : t.h ≤ 2 ^ I - 1) (hw : 0 < pattern.w) (hh : 0 < pattern.h)
    (hs : ∀ x y : Int, Pixel pattern x y → Pixel ⟨0, 0, t.w, t.h⟩ x y) (hg : Grid t.iter n ⟨0, 0, t.w, t.h⟩ m) (hp : Holds t.iter n pattern f m) :
    ∃ m', t.repeat I pattern n m = some m' ∧
      Holds t.iter n ⟨0, 0, t.w, t.h⟩ (fun x y c => f (fold pattern.x pattern.w x) (fold pattern.y pattern.h y) c) m' ∧
      SameElsewhere t.iter n ⟨0, 0, t.w, t.h⟩ m m' := by
  have h2 : (0 : Int) < 2 ^ I := by positivity
  obtain ⟨m', e, h1, -, h3⟩ := C91_repeat I t.iter n pattern ⟨0, 0, t.w, t.h⟩ f m
    (by simp only [PixelBox.Spec.Exists, Rep]; omega) (by simp only [Valid, Rep]; omega) hw hh hs hg hp
  exact ⟨m', e, h1, h3⟩

/-- A pattern of 2 by 1 pixels in a tray of 5 by 3 pixels. -/
example : dump ((⟨⟨0, 1, 5⟩, 5, 3⟩ : Tray).repeat 15 ⟨2, 1, 2, 1⟩ 1 (cells ([none, none, none, none, none, none, none, some 8, some 9, none,
    none, none, none, none, none, some 1]))) 16 =
    some [some 8, some 9, some 8, some 9, some 8, some 8, some 9, some 8, some 9, some 8, some 8, some 9, some 8, some 9, some 8, some 1] := by
  decide

/-- Repetition of a pattern to the left, to the right, upwards, and downwards. In each case, the pixels that receive copies are those of a
box of the specified size next to the pattern. -/
theorem C91_repeat_left (I : Nat) (it : Iter) (n : Nat) (b : Box) (size : Int) (f : Int → Int → Nat → α) (m : Mem α)
    (hI : PixelBox.Spec.Exists I b) (hw : 0 < b.w) (hs0 : 0 ≤ size) (hs : size + b.w ≤ 2 ^ I - 1)
    (hg : Grid it n ⟨b.x - size, b.y, size + b.w, b.h⟩ m) (hp : Holds it n b f m) :
    ∃ m', it.repeatLeft I b size n m = some m' ∧ Holds it n ⟨b.x - size, b.y, size, b.h⟩ (fun x y c => f (fold b.x b.w x) y c) m' ∧
      SameElsewhere it n ⟨b.x - size, b.y, size, b.h⟩ m m' := by
  obtain ⟨bx, byy, bw, bh⟩ := b
  simp only [PixelBox.Spec.Exists, Rep, Holds, Pixel] at *
  have hcell := hg.cell
  simp only [Pixel] at hcell
  obtain ⟨m', e, -, u⟩ := repeatLeft_upd (I := I) hg.inj (px := bx) (py := byy) (pw := bw) (ph := bh) (size := size) (n := n) (m := m) hw hs0 (by omega)
    (by omega) (by omega) (by omega) (by omega)
    (fun x y c h1 h2 h3 h4 hc => ⟨⟨⟨⟨by simp only; omega, by simp only; omega⟩, h3, h4⟩, hc⟩, _, hp x y c ⟨⟨h1, h2⟩, h3, h4⟩ hc⟩)
    (fun x y c h1 h2 h3 h4 hc => ⟨⟨⟨⟨by simp only; omega, by simp only; omega⟩, h3, h4⟩, hc⟩, hcell x y c ⟨⟨by omega, by omega⟩, h3, h4⟩ hc⟩)
  obtain ⟨a1, a2⟩ := updHolds (b := ⟨bx - size, byy, size, bh⟩) (n := n) (f := fun x y c => f (fold bx bw x) y c) u
    (fun x y c => by simp only [InBox, Pixel]; omega)
    (fun x y c h hc => hp _ y c ⟨fold_range hw, h.2⟩ hc)
  exact ⟨m', e, a1, a2⟩

example : dump (Iter.repeatLeft 15 ⟨0, 1, 6⟩ ⟨3, 0, 2, 1⟩ 3 1 (cells [none, none, none, some 8, some 9, some 1])) 6 =
    some [some 9, some 8, some 9, some 8, some 9, some 1] := by decide

theorem C91_repeat_right (I : Nat) (it : Iter) (n : Nat) (b : Box) (size : Int) (f : Int → Int → Nat → α) (m : Mem α)
    (hI : PixelBox.Spec.Exists I b) (hw : 0 < b.w) (hs0 : 0 ≤ size) (hs : size + b.w ≤ 2 ^ I - 1)
    (hg : Grid it n ⟨b.x, b.y, b.w + size, b.h⟩ m) (hp : Holds it n b f m) :
    ∃ m', it.repeatRight I b size n m = some m' ∧ Holds it n ⟨b.x + b.w, b.y, size, b.h⟩ (fun x y c => f (fold b.x b.w x) y c) m' ∧
      SameElsewhere it n ⟨b.x + b.w, b.y, size, b.h⟩ m m' := by
  obtain ⟨bx, byy, bw, bh⟩ := b
  simp only [PixelBox.Spec.Exists, Rep, Holds, Pixel] at *
  have hcell := hg.cell
  simp only [Pixel] at hcell
  obtain ⟨m', e, -, u⟩ := repeatRight_upd (I := I) hg.inj (px := bx) (py := byy) (pw := bw) (ph := bh) (size := size) (n := n) (m := m) hw hs0 (by omega)
    (by omega) (by omega) (by omega) (by omega)
    (fun x y c h1 h2 h3 h4 hc => ⟨⟨⟨⟨by simp only; omega, by simp only; omega⟩, h3, h4⟩, hc⟩, _, hp x y c ⟨⟨h1, h2⟩, h3, h4⟩ hc⟩)
    (fun x y c h1 h2 h3 h4 hc => ⟨⟨⟨⟨by simp only; omega, by simp only; omega⟩, h3, h4⟩, hc⟩, hcell x y c ⟨⟨by omega, by omega⟩, h3, h4⟩ hc⟩)
  obtain ⟨a1, a2⟩ := updHolds (b := ⟨bx + bw, byy, size, bh⟩) (n := n) (f := fun x y c => f (fold bx bw x) y c) u
    (fun x y c => by simp only [InBox, Pixel]; omega)
    (fun x y c h hc => hp _ y c ⟨fold_range hw, h.2⟩ hc)
  exact ⟨m', e, a1, a2⟩

example : dump (Iter.repeatRight 15 ⟨0, 1, 6⟩ ⟨0, 0, 2, 1⟩ 3 1 (cells [some 8, some 9, none, none, none, some 1])) 6 =
    some [some 8, some 9, some 8, some 9, some 8, some 1] := by decide

theorem C91_repeat_up (I : Nat) (it : Iter) (n : Nat) (b : Box) (size : Int) (f : Int → Int → Nat → α) (m : Mem α)
    (hI : PixelBox.Spec.Exists I b) (hh : 0 < b.h) (hs0 : 0 ≤ size) (hs : size + b.h ≤ 2 ^ I - 1)
    (hg : Grid it n ⟨b.x, b.y - size, b.w, size + b.h⟩ m) (hp : Holds it n b f m) :
    ∃ m', it.repeatUp I b size n m = some m' ∧ Holds it n ⟨b.x, b.y - size, b.w, size⟩ (fun x y c => f x (fold b.y b.h y) c) m' ∧
      SameElsewhere it n ⟨b.x, b.y - size, b.w, size⟩ m m' := by
  obtain ⟨bx, byy, bw, bh⟩ := b
  simp only [PixelBox.Spec.Exists, Rep, Holds, Pixel] at *
  have hcell := hg.cell
  simp only [Pixel] at hcell
  obtain ⟨m', e, -, u⟩ := repeatUp_upd (I := I) hg.inj (px := bx) (py := byy) (pw := bw) (ph := bh) (size := size) (n := n) (m := m) hh hs0 (by omega)
    (by omega) (by omega) (by omega) (by omega)
    (fun x y c h1 h2 h3 h4 hc => ⟨⟨⟨⟨h1, h2⟩, by simp only; omega, by simp only; omega⟩, hc⟩, _, hp x y c ⟨⟨h1, h2⟩, h3, h4⟩ hc⟩)
    (fun x y c h1 h2 h3 h4 hc => ⟨⟨⟨⟨h1, h2⟩, by simp only; omega, by simp only; omega⟩, hc⟩, hcell x y c ⟨⟨h1, h2⟩, by omega, by omega⟩ hc⟩)
  obtain ⟨a1, a2⟩ := updHolds (b := ⟨bx, byy - size, bw, size⟩) (n := n) (f := fun x y c => f x (fold byy bh y) c) u
    (fun x y c => by simp only [InBox, Pixel]; omega)
    (fun x y c h hc => hp x _ c ⟨h.1, fold_range hh⟩ hc)
  exact ⟨m', e, a1, a2⟩

example : dump (Iter.repeatUp 15 ⟨0, 1, 1⟩ ⟨0, 3, 1, 2⟩ 3 1 (cells [none, none, none, some 8, some 9, some 1])) 6 =
    some [some 9, some 8, some 9, some 8, some 9, some 1] := by decide

theorem C91_repeat_down (I : Nat) (it : Iter) (n : Nat) (b : Box) (size : Int) (f : Int → Int → Nat → α) (m : Mem α)
    (hI : PixelBox.Spec.Exists I b) (hh : 0 < b.h) (hs0 : 0 ≤ size) (hs : size + b.h ≤ 2 ^ I - 1)
    (hg : Grid it n ⟨b.x, b.y, b.w, b.h + size⟩ m) (hp : Holds it n b f m) :
    ∃ m', it.repeatDown I b size n m = some m' ∧ Holds it n ⟨b.x, b.y + b.h, b.w, size⟩ (fun x y c => f x (fold b.y b.h y) c) m' ∧
      SameElsewhere it n ⟨b.x, b.y + b.h, b.w, size⟩ m m' := by
  obtain ⟨bx, byy, bw, bh⟩ := b
  simp only [PixelBox.Spec.Exists, Rep, Holds, Pixel] at *
  have hcell := hg.cell
  simp only [Pixel] at hcell
  obtain ⟨m', e, -, u⟩ := repeatDown_upd (I := I) hg.inj (px := bx) (py := byy) (pw := bw) (ph := bh) (size := size) (n := n) (m := m) hh hs0 (by omega)
    (by omega) (by omega) (by omega) (by omega)
    (fun x y c h1 h2 h3 h4 hc => ⟨⟨⟨⟨h1, h2⟩, by simp only; omega, by simp only; omega⟩, hc⟩, _, hp x y c ⟨⟨h1, h2⟩, h3, h4⟩ hc⟩)
    (fun x y c h1 h2 h3 h4 hc => ⟨⟨⟨⟨h1, h2⟩, by simp only; omega, by simp only; omega⟩, hc⟩, hcell x y c ⟨⟨h1, h2⟩, by omega, by omega⟩ hc⟩)
  obtain ⟨a1, a2⟩ := updHolds (b := ⟨bx, byy + bh, bw, size⟩) (n := n) (f := fun x y c => f x (fold byy bh y) c) u
    (fun x y c => by simp only [InBox, Pixel]; omega)
    (fun x y c h hc => hp x _ c ⟨h.1, fold_range hh⟩ hc)
  exact ⟨m', e, a1, a2⟩

example : dump (Iter.repeatDown 15 ⟨0, 1, 1⟩ ⟨0, 0, 1, 2⟩ 3 1 (cells [some 8, some 9, none, none, none, some 1])) 6 =
    some [some 8, some 9, some 8, some 9, some 8, some 1] := by decide

/-! ### Parts of trays, and layouts -/

/-- The pixels of a part of a tray are the pixels of the tray at the corresponding positions. -/
theorem C91_subtray (I : Nat) (t : Tray) (box : Box) (ox oy : Int) (hx : Rep I (box.x - ox)) (hy : Rep I (box.y - oy)) :
    ∃ s, t.subtray I box ox oy = some s ∧ s.w = box.w ∧ s.h = box.h ∧
      ∀ (x y : Int) (c : Nat), addr s.iter x y c = addr t.iter (box.x - ox + x) (box.y - oy + y) c := by
  simp only [Rep] at hx hy
  refine ⟨_, by
    unfold Tray.subtray
    rw [sub_ok hx.1 (by omega), sub_ok hy.1 (by omega)]
    rfl, rfl, rfl, ?_⟩
  intro x y c
  simp only [addr, Iter.plus]; ring

example : (⟨⟨100, 3, 30⟩, 10, 10⟩ : Tray).subtray 15 ⟨5, 6, 2, 2⟩ 4 4 = some ⟨⟨163, 3, 30⟩, 2, 2⟩ := by decide

/-- The usual layout: when the components of a pixel, the pixels of a row, and the rows follow each other in an array, then the pixels of the
tray are distinct. Rows may be followed by unused cells, and there may be unused cells after each pixel. -/
theorem C91_layout (base hs vs w h : Int) (n : Nat) (m : Mem α) (hn : (n : Int) ≤ hs) (hw : w * hs ≤ vs)
    (hm : ∀ a : Int, base ≤ a → a < base + h * vs → m a ≠ none) : Grid ⟨base, hs, vs⟩ n ⟨0, 0, w, h⟩ m := by
  have lo : ∀ (x y : Int) (c : Nat), Pixel ⟨0, 0, w, h⟩ x y → c < n → 0 ≤ x * hs + c ∧ x * hs + c < vs := by
    rintro x y c ⟨⟨h1, h2⟩, h3, h4⟩ hc
    simp only at h1 h2
    constructor
    · have := mul_nonneg h1 (by omega : (0 : Int) ≤ hs); omega
    · have := mul_le_mul_of_nonneg_right (by omega : x + 1 ≤ w) (by omega : (0 : Int) ≤ hs)
      have e : (x + 1) * hs = x * hs + hs := by ring
      omega
  constructor
  · intro x y c hp hc
    have l := lo x y c hp hc
    obtain ⟨⟨h1, h2⟩, h3, h4⟩ := hp
    simp only at h3 h4
    apply hm
    · simp only [addr]
      have := mul_nonneg h3 (by omega : (0 : Int) ≤ vs); omega
    · simp only [addr]
      have := mul_le_mul_of_nonneg_right (by omega : y + 1 ≤ h) (by omega : (0 : Int) ≤ vs)
      have e : (y + 1) * vs = y * vs + vs := by ring
      omega
  · intro x y c x' y' c' hp hc hp' hc' e
    simp only [addr] at e
    have l := lo x y c hp hc
    have l' := lo x' y' c' hp' hc'
    have ey : y = y' := by
      have e1 : (x * hs + c + y * vs) / vs = y := by
        rw [Int.add_mul_ediv_right _ _ (by omega), Int.ediv_eq_zero_of_lt l.1 l.2]; omega
      have e2 : (x' * hs + c' + y' * vs) / vs = y' := by
        rw [Int.add_mul_ediv_right _ _ (by omega), Int.ediv_eq_zero_of_lt l'.1 l'.2]; omega
      rw [← e1, ← e2]; congr 1; omega
    subst ey
    have ex : x = x' := by
      have e1 : ((c : Int) + x * hs) / hs = x := by
        rw [Int.add_mul_ediv_right _ _ (by omega), Int.ediv_eq_zero_of_lt (by omega) (by omega)]; omega
      have e2 : ((c' : Int) + x' * hs) / hs = x' := by
        rw [Int.add_mul_ediv_right _ _ (by omega), Int.ediv_eq_zero_of_lt (by omega) (by omega)]; omega
      rw [← e1, ← e2]; congr 1; omega
    subst ex
    exact ⟨rfl, rfl, by omega⟩

example : Grid ⟨0, 2, 6⟩ 2 ⟨0, 0, 3, 3⟩ (cells (List.replicate 18 none)) :=
  C91_layout 0 2 6 3 3 2 _ (by decide) (by decide) (fun a h1 h2 => by
    simp only [cells, if_pos h1]
    rw [List.getElem?_eq_getElem (by simp only [List.length_replicate]; omega)]
    simp)

end Verif.ImageIter
