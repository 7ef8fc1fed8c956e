import Verif.ImageReader.Expand
/-!
Reading inside and outside the boundary of an image.
-/
namespace Verif.ImageReader
open Verif.Integer Verif.PixelBox Verif.PixelBox.Spec Verif.ImageIter Verif.ImageIter.Spec Spec

variable {α : Type}

/-- A function that reads from boxes inside an image. -/
def ReadOk (read : Int → Int → Tray → Mem α → Option (Mem α)) (n : Nat) (W H : Int) (img : Int → Int → List α) : Prop :=
  ∀ (it : Iter) (w h x y : Int) (m : Mem α), 0 ≤ w → 0 ≤ h → 0 ≤ x → x + w ≤ W → 0 ≤ y → y + h ≤ H →
    Inj it (Part 0 0 w h n) → Cells it w h n m →
    ∃ m', read x y ⟨it, w, h⟩ m = some m' ∧ SameCells m m' ∧ Upd it (Part 0 0 w h n) (fun i j c => val img (x + i) (y + j) c) m m'

theorem addr_plus (it : Iter) (a b x y : Int) (c : Nat) : addr (it.plus a b) x y c = addr it (x + a) (y + b) c := by
  rw [addr_eq, ptr_plus, addr_eq]

theorem Upd.shift {it : Iter} {a b w h : Int} {n : Nat} {v : Int → Int → Nat → Option (Option α)} {m m' : Mem α}
    (u : Upd (it.plus a b) (Part 0 0 w h n) v m m') : Upd it (Part a b w h n) (fun x y c => v (x - a) (y - b) c) m m' := by
  constructor
  · intro x y c hp
    have := u.hit (x - a) (y - b) c (by omega)
    rw [addr_plus, sub_add_cancel, sub_add_cancel] at this
    exact this
  · intro e he
    apply u.miss
    intro x y c hp
    rw [addr_plus]
    exact he _ _ _ (by omega)

theorem inj_shift {it : Iter} {a b w h tw th : Int} {n : Nat} (hi : Inj it (Part 0 0 tw th n)) (h1 : 0 ≤ a) (h2 : a + w ≤ tw) (h3 : 0 ≤ b)
    (h4 : b + h ≤ th) : Inj (it.plus a b) (Part 0 0 w h n) := by
  intro x y c x' y' c' k k' e
  rw [addr_plus, addr_plus] at e
  have := hi _ _ _ _ _ _ (by omega) (by omega) e
  omega

theorem cells_shift {it : Iter} {a b w h tw th : Int} {n : Nat} {m : Mem α} (hm : Cells it tw th n m) (h1 : 0 ≤ a) (h2 : a + w ≤ tw)
    (h3 : 0 ≤ b) (h4 : b + h ≤ th) : Cells (it.plus a b) w h n m := by
  intro x y c k
  rw [addr_plus]
  exact hm _ _ _ (by omega)

/-- Reading into a part of a tray. -/
theorem readPart {read : Int → Int → Tray → Mem α → Option (Mem α)} {n : Nat} {W H : Int} {img : Int → Int → List α}
    (hr : ReadOk read n W H img) {I : Nat} {it : Iter} {tw th : Int} {V : Int → Int → List α} (hx : Ctx I it tw th n V) {m : Mem α}
    (hm : Cells it tw th n m) {a b w h x y : Int} (hw : 0 ≤ w) (hh : 0 ≤ h) (h1 : 0 ≤ a) (h2 : a + w ≤ tw) (h3 : 0 ≤ b) (h4 : b + h ≤ th)
    (k1 : 0 ≤ x) (k2 : x + w ≤ W) (k3 : 0 ≤ y) (k4 : y + h ≤ H)
    (hV : ∀ i j : Int, a ≤ i → i < a + w → b ≤ j → j < b + h → V i j = img (x + (i - a)) (y + (j - b))) :
    ∃ m', read x y ⟨it.plus a b, w, h⟩ m = some m' ∧ SameCells m m' ∧ Upd it (Part a b w h n) (val V) m m' := by
  obtain ⟨m', e, hc, u⟩ := hr (it.plus a b) w h x y m hw hh k1 k2 k3 k4 (inj_shift hx.inj h1 h2 h3 h4) (cells_shift hm h1 h2 h3 h4)
  refine ⟨m', e, hc, (Upd.shift u).congr (fun _ _ _ => Iff.rfl) ?_⟩
  rintro i j c ⟨l1, l2, l3, l4, l5⟩
  simp only [val, hV i j l1 l2 l3 l4]

theorem subtray_at {I : Nat} {t : Tray} {x y w h ox oy : Int} (hx : -2 ^ I ≤ x - ox ∧ x - ox < 2 ^ I) (hy : -2 ^ I ≤ y - oy ∧ y - oy < 2 ^ I) :
    t.subtray I ⟨x, y, w, h⟩ ox oy = some ⟨t.iter.plus (x - ox) (y - oy), w, h⟩ := by
  unfold Tray.subtray
  rw [sub_ok (by show _ ≤ x - ox; omega) (by show x - ox < _; omega), sub_ok (by show _ ≤ y - oy; omega) (by show y - oy < _; omega)]
  simp only [Option.bind_eq_bind, Option.bind_some]

/-- Reading of the progenitor sub-box. -/
theorem readQuads_upd {read : Int → Int → Tray → Mem α → Option (Mem α)} {n : Nat} {W H : Int} {img : Int → Int → List α}
    (hr : ReadOk read n W H img) {I : Nat} {t : Tray} {V : Int → Int → List α} (hx : Ctx I t.iter t.w t.h n V) {m : Mem α}
    (hm : Cells t.iter t.w t.h n m) (hW : W < 2 ^ I) (hH : H < 2 ^ I) {horz vert : Mode} {px py rx qx qw ry qy qh : Int}
    (ax : Adjusted I horz W px t.w rx qx qw) (ay : Adjusted I vert H py t.h ry qy qh)
    (hV : ∀ i j : Int, qx - rx ≤ i → i < qx - rx + qw → qy - ry ≤ j → j < qy - ry + qh →
      V i j = img (if rx + i < W then rx + i else rx + i - W) (if ry + j < H then ry + j else ry + j - H)) :
    ∃ m', readQuads I read t W H rx ry ⟨qx, qy, qw, qh⟩ m = some m' ∧ SameCells m m' ∧
      Upd t.iter (Part (qx - rx) (qy - ry) qw qh n) (val V) m m' := by
  have i2 : (0 : Int) < 2 ^ I := by positivity
  have := hx.w1; have := hx.h1
  obtain ⟨x0, x1, xs0, xs1, xd0, xd1, xpr, -, -, -, -, -, -, xsp⟩ := ax
  obtain ⟨y0, y1, ys0, ys1, yd0, yd1, ypr, -, -, -, -, -, -, ysp⟩ := ay
  obtain ⟨mw, hmw⟩ : ∃ mw, mw = min (W - qx) qw := ⟨_, rfl⟩
  obtain ⟨mh, hmh⟩ : ∃ mh, mh = min (H - qy) qh := ⟨_, rfl⟩
  unfold readQuads
  simp only [Option.bind_eq_bind]
  rw [sub_ok (a := W) (b := qx) (by omega) (by omega), sub_ok (a := H) (b := qy) (by omega) (by omega)]
  simp only [Option.bind_some]
  rw [← hmw, ← hmh, subtray_at (by omega) (by omega)]
  simp only [Option.bind_some]
  -- First quadrant
  obtain ⟨m1, e1, c1, u1⟩ := readPart hr hx hm (a := qx - rx) (b := qy - ry) (w := mw) (h := mh) (x := qx) (y := qy) (by omega) (by omega) (by omega) (by omega) (by omega) (by omega)
    (by omega) (by omega) (by omega) (by omega) (by
      intro i j k1 k2 k3 k4
      rw [hV i j (by omega) (by omega) (by omega) (by omega), if_pos (by omega), if_pos (by omega)]
      congr 1 <;> omega)
  rw [e1]
  simp only [Option.bind_some]
  have hm1 := hm.same c1
  -- Second quadrant
  have s2 : ∃ m2, (if mw < qw then (sub I qw mw).bind fun w => (add I 0 W).bind fun x => (add I qy 0).bind fun y =>
      (t.subtray I ⟨x, y, w, mh⟩ rx ry).bind fun t => read 0 qy t m1 else some m1) = some m2 ∧ SameCells m1 m2 ∧
      Upd t.iter (Part (qx - rx + mw) (qy - ry) (qw - mw) mh n) (val V) m1 m2 := by
    by_cases k : mw < qw
    · rw [if_pos k, sub_ok (by omega) (by omega)]
      simp only [Option.bind_some]
      rw [add_ok (by omega) (by omega)]
      simp only [Option.bind_some]
      rw [add_ok (by omega) (by omega)]
      simp only [Option.bind_some]
      rw [subtray_at (by omega) (by omega)]
      simp only [Option.bind_some]
      have e : (0 + W - rx : Int) = qx - rx + mw := by omega
      rw [e, add_zero]
      refine readPart hr hx hm1 (by omega) (by omega) (by omega) (by omega) (by omega) (by omega) (by omega) (by omega) (by omega) (by omega) ?_
      intro i j k1 k2 k3 k4
      rw [hV i j (by omega) (by omega) (by omega) (by omega), if_neg (by omega), if_pos (by omega)]
      congr 1 <;> omega
    · rw [if_neg k]
      exact ⟨m1, rfl, fun _ => Iff.rfl, Upd.refl _ _ _ (by intro x y c; omega)⟩
  obtain ⟨m2, e2, c2, u2⟩ := s2
  rw [e2]
  simp only [Option.bind_some]
  have hm2 := hm1.same c2
  -- Third quadrant
  have s3 : ∃ m3, (if mh < qh then (sub I qh mh).bind fun h => (add I qx 0).bind fun x => (add I 0 H).bind fun y =>
      (t.subtray I ⟨x, y, mw, h⟩ rx ry).bind fun t => read qx 0 t m2 else some m2) = some m3 ∧ SameCells m2 m3 ∧
      Upd t.iter (Part (qx - rx) (qy - ry + mh) mw (qh - mh) n) (val V) m2 m3 := by
    by_cases k : mh < qh
    · rw [if_pos k, sub_ok (by omega) (by omega)]
      simp only [Option.bind_some]
      rw [add_ok (by omega) (by omega)]
      simp only [Option.bind_some]
      rw [add_ok (by omega) (by omega)]
      simp only [Option.bind_some]
      rw [subtray_at (by omega) (by omega)]
      simp only [Option.bind_some]
      have e : (0 + H - ry : Int) = qy - ry + mh := by omega
      rw [e, add_zero]
      refine readPart hr hx hm2 (by omega) (by omega) (by omega) (by omega) (by omega) (by omega) (by omega) (by omega) (by omega) (by omega) ?_
      intro i j k1 k2 k3 k4
      rw [hV i j (by omega) (by omega) (by omega) (by omega), if_pos (by omega), if_neg (by omega)]
      congr 1 <;> omega
    · rw [if_neg k]
      exact ⟨m2, rfl, fun _ => Iff.rfl, Upd.refl _ _ _ (by intro x y c; omega)⟩
  obtain ⟨m3, e3, c3, u3⟩ := s3
  rw [e3]
  simp only [Option.bind_some]
  have hm3 := hm2.same c3
  -- Fourth quadrant
  have s4 : ∃ m4, (if mw < qw ∧ mh < qh then (sub I qw mw).bind fun w => (sub I qh mh).bind fun h => (add I 0 W).bind fun x => (add I 0 H).bind fun y =>
      (t.subtray I ⟨x, y, w, h⟩ rx ry).bind fun t => read 0 0 t m3 else some m3) = some m4 ∧ SameCells m3 m4 ∧
      Upd t.iter (Part (qx - rx + mw) (qy - ry + mh) (qw - mw) (qh - mh) n) (val V) m3 m4 := by
    by_cases k : mw < qw ∧ mh < qh
    · rw [if_pos k, sub_ok (by omega) (by omega)]
      simp only [Option.bind_some]
      rw [sub_ok (by omega) (by omega)]
      simp only [Option.bind_some]
      rw [add_ok (by omega) (by omega)]
      simp only [Option.bind_some]
      rw [add_ok (by omega) (by omega)]
      simp only [Option.bind_some]
      rw [subtray_at (by omega) (by omega)]
      simp only [Option.bind_some]
      have e : (0 + W - rx : Int) = qx - rx + mw := by omega
      have e' : (0 + H - ry : Int) = qy - ry + mh := by omega
      rw [e, e']
      refine readPart hr hx hm3 (by omega) (by omega) (by omega) (by omega) (by omega) (by omega) (by omega) (by omega) (by omega) (by omega) ?_
      intro i j k1 k2 k3 k4
      rw [hV i j (by omega) (by omega) (by omega) (by omega), if_neg (by omega), if_neg (by omega)]
      congr 1 <;> omega
    · rw [if_neg k]
      exact ⟨m3, rfl, fun _ => Iff.rfl, Upd.refl _ _ _ (by intro x y c; omega)⟩
  obtain ⟨m4, e4, c4, u4⟩ := s4
  refine ⟨m4, e4, fun a => (c4 a).trans ((c3 a).trans ((c2 a).trans (c1 a))), ?_⟩
  have hinj : ∀ D : Int → Int → Nat → Prop, (∀ (x y : Int) (c : Nat), D x y c → Part 0 0 t.w t.h n x y c) → Inj t.iter D := fun D h => hx.inj.mono h
  have v2 := u1.trans u2 (D := fun x y c => Part (qx - rx) (qy - ry) mw mh n x y c ∨ Part (qx - rx + mw) (qy - ry) (qw - mw) mh n x y c)
    (fun _ _ _ => Iff.rfl) (hinj _ (by intro x y c; omega))
  have v3 := v2.trans u3 (D := fun x y c => (Part (qx - rx) (qy - ry) mw mh n x y c ∨ Part (qx - rx + mw) (qy - ry) (qw - mw) mh n x y c) ∨
    Part (qx - rx) (qy - ry + mh) mw (qh - mh) n x y c) (fun _ _ _ => Iff.rfl) (hinj _ (by intro x y c; omega))
  exact v3.trans u4 (by intro x y c; omega) (hinj _ (by intro x y c; omega))

theorem progenOk_spec {I : Nat} {W H : Int} {t : Tray} (hW : W < 2 ^ I) (hH : H < 2 ^ I) (hw : t.w < 2 ^ I) (hh : t.h < 2 ^ I) {horz vert : Mode} {px py rx qx qw ry qy qh : Int}
    (ax : Adjusted I horz W px t.w rx qx qw) (ay : Adjusted I vert H py t.h ry qy qh) :
    progenOk I W H ⟨rx, ry, t.w, t.h⟩ ⟨qx, qy, qw, qh⟩ = some true := by
  have i2 : (0 : Int) < 2 ^ I := by positivity
  obtain ⟨x0, x1, xs0, xs1, xd0, xd1, xpr, -⟩ := ax
  obtain ⟨y0, y1, ys0, ys1, yd0, yd1, ypr, -⟩ := ay
  have c1 : (⟨qx, qy, 0, 0⟩ : Box).containedIn I ⟨0, 0, W, H⟩ = some true := by
    obtain ⟨r, e, hr⟩ := contains_eq (I := I) (a := ⟨0, 0, W, H⟩) (b := ⟨qx, qy, 0, 0⟩) ⟨le_refl _, le_refl _⟩
      ⟨by simp only [Rep]; omega, by simp only [Rep]; omega, by simp only [Rep]; omega, by simp only [Rep]; omega⟩
      ⟨by show |0 - qx| ≤ _; rw [abs_le]; omega, by show |0 - qy| ≤ _; rw [abs_le]; omega⟩
    show Box.contains I ⟨0, 0, W, H⟩ ⟨qx, qy, 0, 0⟩ = some true
    rw [e, hr.mpr ⟨⟨x0, by simp only; omega⟩, y0, by simp only; omega⟩]
  have c2 : (⟨rx, ry, t.w, t.h⟩ : Box).contains I ⟨qx, qy, qw, qh⟩ = some true := by
    obtain ⟨r, e, hr⟩ := contains_eq (I := I) (a := ⟨rx, ry, t.w, t.h⟩) (b := ⟨qx, qy, qw, qh⟩) ⟨by simp only; omega, by simp only; omega⟩
      ⟨by simp only [Rep]; omega, by simp only [Rep]; omega, by simp only [Rep]; omega, by simp only [Rep]; omega⟩
      ⟨by show |rx - qx| ≤ _; rw [abs_le]; omega, by show |ry - qy| ≤ _; rw [abs_le]; omega⟩
    rw [e, hr.mpr ⟨⟨xd0, by simp only; omega⟩, yd0, by simp only; omega⟩]
  unfold progenOk
  rw [c1, c2]
  have k1 : ¬(qw = 0 ∨ qh = 0) := by omega
  have k2 : qw ≤ W ∧ qh ≤ H := ⟨xs1, ys1⟩
  simp [k1, k2.1, k2.2]

/-- What is stored in the tray. -/
def shown (horz vert : Mode) (W H : Int) (img : Int → Int → List α) (bg : List α) (px py x y : Int) : List α :=
  extended horz vert W H img bg (px + x) (py + y)

/-- Reading of a block of pixels. -/
theorem readE_upd {read : Int → Int → Tray → Mem α → Option (Mem α)} {n : Nat} {W H : Int} {img : Int → Int → List α}
    (hr : ReadOk read n W H img) {I : Nat} {t : Tray} {bg : List α} (hb : n ≤ bg.length)
    (hl : ∀ x y : Int, 0 ≤ x → x < W → 0 ≤ y → y < H → n ≤ (img x y).length)
    (hi : Inj t.iter (Part 0 0 t.w t.h n)) (hw0 : 0 ≤ t.w) (hw1 : t.w < 2 ^ I) (hh0 : 0 ≤ t.h) (hh1 : t.h < 2 ^ I) {m : Mem α}
    (hm : Cells t.iter t.w t.h n m) (hW0 : 0 ≤ W) (hW : W < 2 ^ I) (hH0 : 0 ≤ H) (hH : H < 2 ^ I) {horz vert : Mode} {px py : Int}
    (hpx : -2 ^ I ≤ px) (hpx1 : px + t.w < 2 ^ I) (hpy : -2 ^ I ≤ py) (hpy1 : py + t.h < 2 ^ I) :
    ∃ m', readE I read bg n W H horz vert px py t m = some m' ∧ SameCells m m' ∧
      Upd t.iter (Part 0 0 t.w t.h n) (val (shown horz vert W H img bg px py)) m m' := by
  have i2 : (0 : Int) < 2 ^ I := by positivity
  have hxl : ∀ x y : Int, n ≤ (shown horz vert W H img bg px py x y).length := by
    intro x y
    unfold shown extended
    split
    · rename_i hWH
      split
      · rename_i a b ha hb'
        have ra : ∀ (mode : Mode) (S v a : Int), 0 < S → seen mode S v = some a → 0 ≤ a ∧ a < S := by
          intro mode S v a hS h
          cases mode with
          | background =>
            simp only [seen] at h
            split at h
            · cases h; assumption
            · cases h
          | edge => simp only [seen, Option.some.injEq] at h; omega
          | «repeat» =>
            simp only [seen, Option.some.injEq] at h
            have := Int.emod_nonneg v (by omega : S ≠ 0)
            have := Int.emod_lt_of_pos v hS
            omega
        have h1 := ra _ _ _ _ hWH.1 ha
        have h2 := ra _ _ _ _ hWH.2 hb'
        exact hl a b h1.1 h1.2 h2.1 h2.2
      · exact hb
    · exact hb
  have hx : Ctx I t.iter t.w t.h n (shown horz vert W H img bg px py) := ⟨hi, hw0, hw1, hh0, hh1, hxl⟩
  -- All background
  have allbg : (∀ x y : Int, 0 ≤ x → x < t.w → 0 ≤ y → y < t.h → shown horz vert W H img bg px py x y = bg) →
      ∃ m', bgFill I t bg n 0 0 t.w t.h m = some m' ∧ SameCells m m' ∧
        Upd t.iter (Part 0 0 t.w t.h n) (val (shown horz vert W H img bg px py)) m m' := fun h =>
    bgFill_upd hx hm hb (le_refl _) hw0 (by omega) (le_refl _) hh0 (by omega) (fun x y k1 k2 k3 k4 => h x y k1 (by omega) k3 (by omega))
  have hcon : ∃ r, (⟨px, py, t.w, t.h⟩ : Box).containedIn I ⟨0, 0, W, H⟩ = some r ∧ (r = true → 0 ≤ px ∧ px + t.w ≤ W ∧ 0 ≤ py ∧ py + t.h ≤ H) := by
    have ax : ∀ S p s : Int, 0 ≤ S → S < 2 ^ I → 0 ≤ s → s < 2 ^ I → p < 2 ^ I → ∃ r, containsAxis I 0 S p s = some r ∧ (r = true → 0 ≤ p ∧ p + s ≤ S) := by
      intro S p s h1 h2 h3 h4 h5
      unfold containsAxis
      by_cases k : p ≥ 0 ∧ s ≤ S
      · rw [if_pos k, sub_ok (by omega) (by omega), sub_ok (by omega) (by omega)]
        exact ⟨_, rfl, by simp only [decide_eq_true_eq]; omega⟩
      · rw [if_neg k]
        exact ⟨_, rfl, by simp⟩
    obtain ⟨r1, e1, h1⟩ := ax W px t.w hW0 hW hw0 hw1 (by omega)
    obtain ⟨r2, e2, h2⟩ := ax H py t.h hH0 hH hh0 hh1 (by omega)
    refine ⟨r1 && r2, ?_, ?_⟩
    · simp only [Box.containedIn, Box.contains, e1, e2, Option.bind_eq_bind, Option.bind_some]
    · intro h
      rw [Bool.and_eq_true] at h
      exact ⟨(h1 h.1).1, (h1 h.1).2, (h2 h.2).1, (h2 h.2).2⟩
  obtain ⟨r, er, hr'⟩ := hcon
  unfold readE
  rw [er]
  simp only [Option.bind_eq_bind, Option.bind_some]
  cases r with
  | true =>
    obtain ⟨k1, k2, k3, k4⟩ := hr' rfl
    simp only [if_true]
    obtain ⟨m', e, hc, u⟩ := hr t.iter t.w t.h px py m hw0 hh0 k1 k2 k3 k4 hi hm
    refine ⟨m', e, hc, u.congr (fun _ _ _ => Iff.rfl) ?_⟩
    rintro x y c ⟨l1, l2, l3, l4, l5⟩
    have inn : ∀ (mode : Mode) (S v : Int), 0 ≤ v → v < S → seen mode S v = some v := by
      intro mode S v h1 h2
      cases mode with
      | background => simp only [seen]; rw [if_pos ⟨h1, h2⟩]
      | edge => simp only [seen, Option.some.injEq]; omega
      | «repeat» => simp only [seen, Option.some.injEq]; exact Int.emod_eq_of_lt h1 h2
    simp only [val, shown, extended]
    rw [if_pos (by omega), inn _ _ _ (by omega) (by omega), inn _ _ _ (by omega) (by omega)]
  | false =>
    simp only [Bool.false_eq_true, if_false]
    by_cases ke : t.w = 0 ∨ t.h = 0
    · have : t.isEmpty = true := by simp only [Tray.isEmpty, decide_eq_true_eq]; exact ke
      rw [if_pos this]
      exact ⟨m, rfl, fun _ => Iff.rfl, Upd.refl _ _ _ (by intro x y c; omega)⟩
    · have : t.isEmpty = false := by simp only [Tray.isEmpty, decide_eq_false_iff_not]; exact ke
      rw [this]
      simp only [Bool.false_eq_true, if_false]
      by_cases kz : W = 0 ∨ H = 0
      · rw [if_pos kz]
        apply allbg
        intro x y _ _ _ _
        unfold shown extended
        rw [if_neg (by omega)]
      · rw [if_neg kz]
        rcases adjust_spec (I := I) (mode := horz) (size := W) (pos := px) (len := t.w) (by omega) hW (by omega) hw1 hpx hpx1 with ⟨ex, sx⟩ | ⟨rx, qx, qw, ex, ax⟩
        · rw [ex]
          simp only [Option.bind_some]
          apply allbg
          intro x y h1 h2 _ _
          unfold shown extended
          rw [if_pos (by omega), sx x h1 h2]
        · rw [ex]
          simp only [Option.bind_some]
          rcases adjust_spec (I := I) (mode := vert) (size := H) (pos := py) (len := t.h) (by omega) hH (by omega) hh1 hpy hpy1 with ⟨ey, sy⟩ | ⟨ry, qy, qh, ey, ay⟩
          · rw [ey]
            simp only [Option.bind_some]
            apply allbg
            intro x y _ _ h1 h2
            unfold shown extended
            rw [if_pos (by omega), sy y h1 h2]
            cases seen horz W (px + x) <;> rfl
          · rw [ey]
            simp only [Option.bind_some]
            rw [progenOk_spec hW hH hw1 hh1 ax ay]
            simp only [Option.bind_some, if_true]
            have hWH : 0 < W ∧ 0 < H := by omega
            obtain ⟨m1, e1, c1, u1⟩ := readQuads_upd hr hx hm hW hH ax ay (by
              intro i j k1 k2 k3 k4
              unfold shown extended
              rw [if_pos hWH, ax.inside i k1 k2, ay.inside j k3 k4])
            have x0 := ax.q0; have x1 := ax.q1; have xs0 := ax.s0; have xs1 := ax.s1; have xd0 := ax.d0; have xd1 := ax.d1; have xpr := ax.pr
            have y0 := ay.q0; have y1 := ay.q1; have ys0 := ay.s0; have ys1 := ay.s1; have yd0 := ay.d0; have yd1 := ay.d1; have ypr := ay.pr
            rw [e1]
            simp only [Option.bind_some]
            rw [sub_ok (a := qx) (b := rx) (by omega) (by omega), sub_ok (a := qy) (b := ry) (by omega) (by omega)]
            simp only [Option.bind_some]
            rw [add_ok (a := qx - rx) (b := qw) (by omega) (by omega), add_ok (a := qy - ry) (b := qh) (by omega) (by omega)]
            simp only [Option.bind_some]
            have perx : ∀ i j : Int, ∀ k : Int, horz = .repeat → shown horz vert W H img bg px py (i + W * k) j = shown horz vert W H img bg px py i j := by
              intro i j k h
              subst h
              unfold shown extended
              rw [← add_assoc, seen_repeat]
            have pery : ∀ i j : Int, ∀ k : Int, vert = .repeat → shown horz vert W H img bg px py i (j + H * k) = shown horz vert W H img bg px py i j := by
              intro i j k h
              subst h
              unfold shown extended
              rw [← add_assoc, seen_repeat]
            obtain ⟨m2, e2, c2, h2, o2⟩ := expandHorz_upd (mode := horz) hx hb (SZ := W) (dx := qx - rx) (dy := qy - ry) (pw := qw) (ph := qh) (m := m1)
              (by omega) xs0 xd1 (by omega) ys0 yd1 (hm.same c1) (fun x y c hp => u1.hit x y c hp)
              (by
                intro hmode x y k1 k2 k3
                unfold shown extended
                rw [if_pos hWH, ax.bg hmode x k1 k2 (by omega)])
              (by
                intro hmode x y k1 k2
                unfold shown extended
                rw [if_pos hWH, if_pos hWH, ax.edge1 hmode x k1 k2])
              (by
                intro hmode x y k1 k2
                unfold shown extended
                rw [if_pos hWH, if_pos hWH, ax.edge2 hmode x k1 k2])
              (fun h k => ax.rep1 h k) (fun h k => ax.rep2 h k) (fun h x y k => perx x y k h)
            rw [e2]
            simp only [Option.bind_some]
            obtain ⟨m3, e3, c3, h3, o3⟩ := expandVert_upd (mode := vert) hx hb (SZ := H) (dx := qx - rx) (dy := qy - ry) (pw := qw) (ph := qh) (m := m2)
              (by omega) xs0 xd1 (by omega) ys0 yd1 ((hm.same c1).same c2) h2
              (by
                intro hmode x y k1 k2 k3
                unfold shown extended
                rw [if_pos hWH, ay.bg hmode y k1 k2 (by omega)]
                cases seen horz W (px + x) <;> rfl)
              (by
                intro hmode x y k1 k2
                unfold shown extended
                rw [if_pos hWH, if_pos hWH, ay.edge1 hmode y k1 k2])
              (by
                intro hmode x y k1 k2
                unfold shown extended
                rw [if_pos hWH, if_pos hWH, ay.edge2 hmode y k1 k2])
              (fun h k => ay.rep1 h k) (fun h k => ay.rep2 h k) (fun h x y k => pery x y k h)
            refine ⟨m3, e3, fun a => (c3 a).trans ((c2 a).trans (c1 a)), h3, ?_⟩
            intro a ha
            rw [o3 a ha, o2 a (fun x y c hp => ha x y c (by omega)), u1.miss a (fun x y c hp => ha x y c (by omega))]

end Verif.ImageReader
