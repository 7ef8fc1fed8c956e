import Verif.ImageReader.Adjust
/-!
Filling and copying of parts of a tray.
-/
namespace Verif.ImageReader
open Verif.Integer Verif.PixelBox Verif.PixelBox.Spec Verif.ImageIter Verif.ImageIter.Spec Spec

variable {α : Type}

/-- A box of components. -/
abbrev Part (x0 y0 w h : Int) (n : Nat) (x y : Int) (c : Nat) : Prop := x0 ≤ x ∧ x < x0 + w ∧ y0 ≤ y ∧ y < y0 + h ∧ c < n

/-- The specified values as contents of memory. -/
abbrev val (V : Int → Int → List α) (x y : Int) (c : Nat) : Option (Option α) := some (V x y)[c]?

/-- A tray, and the values that are to be stored in it. -/
structure Ctx (I : Nat) (it : Iter) (tw th : Int) (n : Nat) (V : Int → Int → List α) : Prop where
  inj : Inj it (Part 0 0 tw th n)
  w0 : 0 ≤ tw
  w1 : tw < 2 ^ I
  h0 : 0 ≤ th
  h1 : th < 2 ^ I
  len : ∀ x y : Int, n ≤ (V x y).length

/-- All cells of the tray exist. -/
def Cells (it : Iter) (tw th : Int) (n : Nat) (m : Mem α) : Prop := ∀ (x y : Int) (c : Nat), Part 0 0 tw th n x y c → m (addr it x y c) ≠ none

/-- A part of the tray has the specified values. -/
def Has (it : Iter) (n : Nat) (V : Int → Int → List α) (x0 y0 w h : Int) (m : Mem α) : Prop :=
  ∀ (x y : Int) (c : Nat), Part x0 y0 w h n x y c → m (addr it x y c) = val V x y c

theorem Cells.same {it : Iter} {tw th : Int} {n : Nat} {m m' : Mem α} (h : Cells it tw th n m) (hc : SameCells m m') : Cells it tw th n m' :=
  fun x y c hp => by rw [Ne, hc]; exact h x y c hp

/-- What is stored is kept when another part is changed. -/
theorem Has.keep {I : Nat} {it : Iter} {tw th : Int} {n : Nat} {V : Int → Int → List α} (hx : Ctx I it tw th n V) {m m' : Mem α}
    {x0 y0 w h : Int} (hh : Has it n V x0 y0 w h m) (h1 : 0 ≤ x0) (h2 : x0 + w ≤ tw) (h3 : 0 ≤ y0) (h4 : y0 + h ≤ th)
    {D : Int → Int → Nat → Prop} {v : Int → Int → Nat → Option (Option α)} (u : Upd it D v m m')
    (hD : ∀ (x y : Int) (c : Nat), D x y c → Part 0 0 tw th n x y c) (hd : ∀ (x y : Int) (c : Nat), D x y c → ¬Part x0 y0 w h n x y c) :
    Has it n V x0 y0 w h m' := by
  intro x y c hp
  rw [u.other hx.inj hD (by omega) (fun h => hd x y c h hp)]
  exact hh x y c hp

/-- What is stored is what was there before or what was stored. -/
theorem Has.glue {it : Iter} {n : Nat} {V : Int → Int → List α} {m : Mem α} {x0 y0 w h : Int}
    (hh : ∀ (x y : Int) (c : Nat), Part x0 y0 w h n x y c → ∃ x1 y1 w1 h1 : Int, Part x1 y1 w1 h1 n x y c ∧ Has it n V x1 y1 w1 h1 m) :
    Has it n V x0 y0 w h m := by
  intro x y c hp
  obtain ⟨x1, y1, w1, h1, k1, k2⟩ := hh x y c hp
  exact k2 x y c k1

theorem subtray_zero {I : Nat} {t : Tray} {x y w h : Int} (hx : -2 ^ I ≤ x ∧ x < 2 ^ I) (hy : -2 ^ I ≤ y ∧ y < 2 ^ I) :
    t.subtray I ⟨x, y, w, h⟩ 0 0 = some ⟨t.iter.plus x y, w, h⟩ := by
  unfold Tray.subtray
  rw [sub_ok (by show _ ≤ x - 0; omega) (by show x - 0 < _; omega), sub_ok (by show _ ≤ y - 0; omega) (by show y - 0 < _; omega)]
  simp only [Option.bind_eq_bind, Option.bind_some, sub_zero]

theorem val_ne {V : Int → Int → List α} {x y : Int} {c : Nat} : val V x y c ≠ none := by simp [val]

/-- Filling of a part. -/
theorem bgFill_upd {I : Nat} {t : Tray} {n : Nat} {V : Int → Int → List α} (hx : Ctx I t.iter t.w t.h n V) {bg : List α}
    {x0 y0 w h : Int} {m : Mem α} (hm : Cells t.iter t.w t.h n m) (hb : n ≤ bg.length) (h1 : 0 ≤ x0) (hw : 0 ≤ w) (h2 : x0 + w ≤ t.w) (h3 : 0 ≤ y0)
    (hh : 0 ≤ h) (h4 : y0 + h ≤ t.h) (hV : ∀ x y : Int, x0 ≤ x → x < x0 + w → y0 ≤ y → y < y0 + h → V x y = bg) :
    ∃ m', bgFill I t bg n x0 y0 w h m = some m' ∧ SameCells m m' ∧ Upd t.iter (Part x0 y0 w h n) (val V) m m' := by
  have i2 : (0 : Int) < 2 ^ I := by positivity
  have := hx.w1; have := hx.h1
  have sh : ∀ (x y : Int) (c : Nat), addr (t.iter.plus x0 y0) x y c = addr t.iter (x + x0) (y + y0) c := by
    intro x y c; rw [addr_eq, ptr_plus, addr_eq]
  obtain ⟨m', e, hc, u⟩ := fill_upd (I := I) (it := t.iter.plus x0 y0) (E := Part 0 0 w h n) (n := n) (area := ⟨0, 0, w, h⟩) (pixel := bg) (m := m)
    (fun x y c x' y' c' k k' e => by
      rw [sh, sh] at e
      have := hx.inj _ _ _ _ _ _ (by omega) (by omega) e
      omega)
    hb (by show _ ≤ (0 : Int); omega) (by show (0 : Int) + w ≤ _; omega) (by show _ ≤ (0 : Int); omega) (by show (0 : Int) + h ≤ _; omega)
    (fun x y c k1 k2 k3 k4 hc => by
      simp only at k1 k2 k3 k4
      refine ⟨⟨k1, k2, k3, k4, hc⟩, ?_⟩
      rw [sh]; exact hm _ _ _ (by omega))
  refine ⟨m', ?_, hc, ?_, ?_⟩
  · unfold bgFill
    rw [subtray_zero (by omega) (by omega)]
    exact e
  · rintro x y c ⟨k1, k2, k3, k4, hc⟩
    have := u.hit (x - x0) (y - y0) c ⟨by simp only; omega, by simp only; omega, by simp only; omega, by simp only; omega, hc⟩
    rw [sh, sub_add_cancel, sub_add_cancel] at this
    rw [this, val, hV x y k1 k2 k3 k4]
  · intro a ha
    apply u.miss
    rintro x y c ⟨k1, k2, k3, k4, hc⟩
    simp only at k1 k2 k3 k4
    rw [sh]
    exact ha _ _ _ ⟨by omega, by omega, by omega, by omega, hc⟩

/-- Copying of a part. -/
theorem copyPart_upd {I : Nat} {t : Tray} {n : Nat} {V : Int → Int → List α} (hx : Ctx I t.iter t.w t.h n V)
    {sx sy x0 y0 w h : Int} {m : Mem α} (hm : Cells t.iter t.w t.h n m) (hs : Has t.iter n V sx sy w h m)
    (h1 : 0 ≤ x0) (h2 : x0 + w ≤ t.w) (h3 : 0 ≤ y0) (h4 : y0 + h ≤ t.h) (hw : 0 ≤ w) (hh : 0 ≤ h)
    (k1 : 0 ≤ sx) (k2 : sx + w ≤ t.w) (k3 : 0 ≤ sy) (k4 : sy + h ≤ t.h)
    (hd : x0 + w ≤ sx ∨ sx + w ≤ x0 ∨ y0 + h ≤ sy ∨ sy + h ≤ y0)
    (hV : ∀ x y : Int, x0 ≤ x → x < x0 + w → y0 ≤ y → y < y0 + h → V (x - x0 + sx) (y - y0 + sy) = V x y) :
    ∃ m', copyPart I t (t.iter.plus sx sy) n x0 y0 w h m = some m' ∧ SameCells m m' ∧ Upd t.iter (Part x0 y0 w h n) (val V) m m' := by
  have := hx.w1; have := hx.h1
  obtain ⟨m', e, hc, u⟩ := copyTo_upd hx.inj (n := n) (sx := sx) (sy := sy) (dx := x0) (dy := y0) (w := w) (h := h) (m := m)
    (fun x y c l1 l2 l3 l4 hc => ⟨by omega, by
      rw [hs x y c ⟨l1, l2, l3, l4, hc⟩]
      have := hx.len x y
      exact ⟨_, by rw [val, List.getElem?_eq_getElem (by omega)]⟩⟩)
    (fun x y c l1 l2 l3 l4 hc => ⟨by omega, hm x y c (by omega)⟩)
    (by intro x y; omega)
  refine ⟨m', ?_, hc, u.congr (fun _ _ _ => Iff.rfl) ?_⟩
  · unfold copyPart
    rw [subtray_zero (by omega) (by omega)]
    exact e
  · rintro x y c ⟨l1, l2, l3, l4, hc⟩
    rw [hs _ _ _ ⟨by omega, by omega, by omega, by omega, hc⟩]
    simp only [val]
    rw [hV x y l1 l2 l3 l4]

end Verif.ImageReader
