import Verif.ImageReader.Parts
/-!
Expansion from the progenitor sub-box.
-/
namespace Verif.ImageReader
open Verif.Integer Verif.PixelBox Verif.PixelBox.Spec Verif.ImageIter Verif.ImageIter.Spec Spec

variable {α : Type}

/-- The loop of the horizontal expansion for falloff mode `edge`. -/
theorem edgeLoopX_upd {I : Nat} {t : Tray} {n : Nat} {V : Int → Int → List α} (hx : Ctx I t.iter t.w t.h n V)
    {sx x0 y0 len : Int} {K : Nat} (h1 : 0 ≤ x0) (h2 : x0 + K ≤ t.w) (h3 : 0 ≤ y0) (hl : 0 ≤ len) (h4 : y0 + len ≤ t.h)
    (s1 : 0 ≤ sx) (s2 : sx < t.w) (hd : sx < x0 ∨ x0 + K ≤ sx)
    (hV : ∀ x y : Int, x0 ≤ x → x < x0 + K → y0 ≤ y → y < y0 + len → V sx y = V x y) :
    ∀ (k i : Nat) (m : Mem α), i + k = K → Cells t.iter t.w t.h n m → Has t.iter n V sx y0 1 len m →
      ∃ m', edgeLoopX I t (t.iter.plus sx y0) n x0 y0 len k i m = some m' ∧ SameCells m m' ∧
        Upd t.iter (Part (x0 + i) y0 k len n) (val V) m m' := by
  intro k
  induction k with
  | zero =>
    intro i m hk hm hs
    refine ⟨m, rfl, fun _ => Iff.rfl, Upd.refl _ _ _ ?_⟩
    intro x y c; omega
  | succ k ih =>
    intro i m hk hm hs
    have i2 : (0 : Int) < 2 ^ I := by positivity
    have := hx.w1; have := hx.h1
    rw [edgeLoopX]
    rw [add_ok (a := x0) (by omega) (by omega), add_ok (a := y0) (by omega) (by omega)]
    simp only [Option.bind_eq_bind, Option.bind_some, add_zero]
    obtain ⟨m1, e1, c1, u1⟩ := copyPart_upd hx (sx := sx) (sy := y0) (x0 := x0 + i) (y0 := y0) (w := 1) (h := len) hm hs
      (by omega) (by omega) (by omega) (by omega) (by omega) (by omega) (by omega) (by omega) (by omega) (by omega) (by omega) (by
        intro x y l1 l2 l3 l4
        rw [← hV x y (by omega) (by omega) (by omega) (by omega)]
        congr 1 <;> omega)
    rw [e1]
    simp only [Option.bind_some]
    obtain ⟨m2, e2, c2, u2⟩ := ih (i + 1) m1 (by omega) (hm.same c1)
      (hs.keep hx (by omega) (by omega) (by omega) (by omega) u1 (by intro x y c; omega) (by intro x y c; omega))
    refine ⟨m2, e2, fun a => (c2 a).trans (c1 a), u1.trans u2 ?_ ?_⟩
    · intro x y c; push_cast; omega
    · refine hx.inj.mono ?_
      intro x y c; push_cast; omega

/-- The loop of the horizontal expansion for falloff mode `repeat`. -/
theorem repeatLoopX_upd {I : Nat} {t : Tray} {n : Nat} {V : Int → Int → List α} (hx : Ctx I t.iter t.w t.h n V)
    {dx dy pw ph : Int} (hp : 0 < pw) (h1 : 0 ≤ dx) (h2 : dx + pw ≤ t.w) (h3 : 0 ≤ dy) (hl : 0 ≤ ph) (h4 : dy + ph ≤ t.h)
    (hV : ∀ x y k : Int, V (x + pw * k) y = V x y) :
    ∀ (fuel : Nat) (x : Int) (m : Mem α), dx + pw ≤ x → x ≤ t.w → t.w - x < fuel → pw ∣ x - dx →
      Cells t.iter t.w t.h n m → Has t.iter n V dx dy pw ph m →
      ∃ (x' : Int) (m' : Mem α), repeatLoopX I t (t.iter.plus dx dy) n t.w pw ph dy fuel x m = some (x', m') ∧ SameCells m m' ∧
        x ≤ x' ∧ x' ≤ t.w ∧ t.w - x' < pw ∧ pw ∣ x' - dx ∧
        Upd t.iter (Part x dy (x' - x) ph n) (val V) m m' := by
  intro fuel
  induction fuel with
  | zero => intro x m k1 k2 k3; omega
  | succ fuel ih =>
    intro x m k1 k2 k3 k4 hm hs
    have i2 : (0 : Int) < 2 ^ I := by positivity
    have := hx.w1; have := hx.h1
    rw [repeatLoopX, sub_ok (by omega) (by omega)]
    simp only [Option.bind_eq_bind, Option.bind_some]
    by_cases c : t.w - x ≥ pw
    · rw [if_pos c]
      obtain ⟨m1, e1, c1, u1⟩ := copyPart_upd hx (sx := dx) (sy := dy) (x0 := x) (y0 := dy) (w := pw) (h := ph) hm hs
        (by omega) (by omega) (by omega) (by omega) (by omega) (by omega) (by omega) (by omega) (by omega) (by omega) (by omega) (by
          intro x' y' l1 l2 l3 l4
          obtain ⟨k, hk⟩ := k4
          rw [← hV _ _ k]
          congr 1 <;> (try rw [← hk]) <;> ring)
      rw [e1]
      simp only [Option.bind_some]
      rw [add_ok (by omega) (by omega)]
      simp only [Option.bind_some]
      obtain ⟨x', m2, e2, c2, l1, l2, l3, l4, u2⟩ := ih (x + pw) m1 (by omega) (by omega) (by omega) (by
        obtain ⟨k, hk⟩ := k4
        exact ⟨k + 1, by rw [mul_add, ← hk]; ring⟩) (hm.same c1)
        (hs.keep hx (by omega) (by omega) (by omega) (by omega) u1 (by intro x' y' c; omega) (by intro x' y' c; omega))
      refine ⟨x', m2, e2, fun a => (c2 a).trans (c1 a), by omega, l2, l3, l4, u1.trans u2 ?_ ?_⟩
      · intro x' y' c; omega
      · refine hx.inj.mono ?_
        intro x' y' c; omega
    · rw [if_neg c]
      refine ⟨x, m, rfl, fun _ => Iff.rfl, le_refl _, k2, by omega, k4, Upd.refl _ _ _ ?_⟩
      intro x' y' c; omega

/-- The loop of the vertical expansion for falloff mode `edge`. -/
theorem edgeLoopY_upd {I : Nat} {t : Tray} {n : Nat} {V : Int → Int → List α} (hx : Ctx I t.iter t.w t.h n V)
    {sy y0 x0 len : Int} {K : Nat} (h1 : 0 ≤ y0) (h2 : y0 + K ≤ t.h) (h3 : 0 ≤ x0) (hl : 0 ≤ len) (h4 : x0 + len ≤ t.w)
    (s1 : 0 ≤ sy) (s2 : sy < t.h) (hd : sy < y0 ∨ y0 + K ≤ sy)
    (hV : ∀ x y : Int, y0 ≤ y → y < y0 + K → x0 ≤ x → x < x0 + len → V x sy = V x y) :
    ∀ (k i : Nat) (m : Mem α), i + k = K → Cells t.iter t.w t.h n m → Has t.iter n V x0 sy len 1 m →
      ∃ m', edgeLoopY I t (t.iter.plus x0 sy) n x0 y0 len k i m = some m' ∧ SameCells m m' ∧
        Upd t.iter (Part x0 (y0 + i) len k n) (val V) m m' := by
  intro k
  induction k with
  | zero =>
    intro i m hk hm hs
    refine ⟨m, rfl, fun _ => Iff.rfl, Upd.refl _ _ _ ?_⟩
    intro x y c; omega
  | succ k ih =>
    intro i m hk hm hs
    have i2 : (0 : Int) < 2 ^ I := by positivity
    have := hx.w1; have := hx.h1
    rw [edgeLoopY]
    rw [add_ok (a := x0) (by omega) (by omega), add_ok (a := y0) (by omega) (by omega)]
    simp only [Option.bind_eq_bind, Option.bind_some, add_zero]
    obtain ⟨m1, e1, c1, u1⟩ := copyPart_upd hx (sx := x0) (sy := sy) (x0 := x0) (y0 := y0 + i) (w := len) (h := 1) hm hs
      (by omega) (by omega) (by omega) (by omega) (by omega) (by omega) (by omega) (by omega) (by omega) (by omega) (by omega) (by
        intro x y l1 l2 l3 l4
        rw [← hV x y (by omega) (by omega) (by omega) (by omega)]
        congr 1 <;> omega)
    rw [e1]
    simp only [Option.bind_some]
    obtain ⟨m2, e2, c2, u2⟩ := ih (i + 1) m1 (by omega) (hm.same c1)
      (hs.keep hx (by omega) (by omega) (by omega) (by omega) u1 (by intro x y c; omega) (by intro x y c; omega))
    refine ⟨m2, e2, fun a => (c2 a).trans (c1 a), u1.trans u2 ?_ ?_⟩
    · intro x y c; push_cast; omega
    · refine hx.inj.mono ?_
      intro x y c; push_cast; omega

/-- The loop of the vertical expansion for falloff mode `repeat`. -/
theorem repeatLoopY_upd {I : Nat} {t : Tray} {n : Nat} {V : Int → Int → List α} (hx : Ctx I t.iter t.w t.h n V)
    {dx dy pw ph : Int} (hp : 0 < ph) (h1 : 0 ≤ dx) (h2 : dx + pw ≤ t.w) (h3 : 0 ≤ dy) (hl : 0 ≤ pw) (h4 : dy + ph ≤ t.h)
    (hV : ∀ x y k : Int, V x (y + ph * k) = V x y) :
    ∀ (fuel : Nat) (y : Int) (m : Mem α), dy + ph ≤ y → y ≤ t.h → t.h - y < fuel → ph ∣ y - dy →
      Cells t.iter t.w t.h n m → Has t.iter n V dx dy pw ph m →
      ∃ (y' : Int) (m' : Mem α), repeatLoopY I t (t.iter.plus dx dy) n t.h pw ph dx fuel y m = some (y', m') ∧ SameCells m m' ∧
        y ≤ y' ∧ y' ≤ t.h ∧ t.h - y' < ph ∧ ph ∣ y' - dy ∧
        Upd t.iter (Part dx y pw (y' - y) n) (val V) m m' := by
  intro fuel
  induction fuel with
  | zero => intro y m k1 k2 k3; omega
  | succ fuel ih =>
    intro y m k1 k2 k3 k4 hm hs
    have i2 : (0 : Int) < 2 ^ I := by positivity
    have := hx.w1; have := hx.h1
    rw [repeatLoopY, sub_ok (by omega) (by omega)]
    simp only [Option.bind_eq_bind, Option.bind_some]
    by_cases c : t.h - y ≥ ph
    · rw [if_pos c]
      obtain ⟨m1, e1, c1, u1⟩ := copyPart_upd hx (sx := dx) (sy := dy) (x0 := dx) (y0 := y) (w := pw) (h := ph) hm hs
        (by omega) (by omega) (by omega) (by omega) (by omega) (by omega) (by omega) (by omega) (by omega) (by omega) (by omega) (by
          intro x' y' l1 l2 l3 l4
          obtain ⟨k, hk⟩ := k4
          rw [← hV _ _ k]
          congr 1 <;> (try rw [← hk]) <;> ring)
      rw [e1]
      simp only [Option.bind_some]
      rw [add_ok (by omega) (by omega)]
      simp only [Option.bind_some]
      obtain ⟨y', m2, e2, c2, l1, l2, l3, l4, u2⟩ := ih (y + ph) m1 (by omega) (by omega) (by omega) (by
        obtain ⟨k, hk⟩ := k4
        exact ⟨k + 1, by rw [mul_add, ← hk]; ring⟩) (hm.same c1)
        (hs.keep hx (by omega) (by omega) (by omega) (by omega) u1 (by intro x' y' c; omega) (by intro x' y' c; omega))
      refine ⟨y', m2, e2, fun a => (c2 a).trans (c1 a), by omega, l2, l3, l4, u1.trans u2 ?_ ?_⟩
      · intro x' y' c; omega
      · refine hx.inj.mono ?_
        intro x' y' c; omega
    · rw [if_neg c]
      refine ⟨y, m, rfl, fun _ => Iff.rfl, le_refl _, k2, by omega, k4, Upd.refl _ _ _ ?_⟩
      intro x' y' c; omega

/-- The horizontal expansion. -/
theorem expandHorz_upd {I : Nat} {mode : Mode} {t : Tray} {n : Nat} {V : Int → Int → List α} (hx : Ctx I t.iter t.w t.h n V) {bg : List α}
    (hb : n ≤ bg.length) {SZ dx dy pw ph : Int} (hdx : 0 ≤ dx) (hpw : 0 < pw) (hxw : dx + pw ≤ t.w) (hdy : 0 ≤ dy) (hph : 0 < ph) (hyh : dy + ph ≤ t.h)
    {m : Mem α} (hm : Cells t.iter t.w t.h n m) (hs : Has t.iter n V dx dy pw ph m)
    (vbg : mode = .background → ∀ x y : Int, 0 ≤ x → x < t.w → (x < dx ∨ dx + pw ≤ x) → V x y = bg)
    (ve1 : mode = .edge → ∀ x y : Int, 0 ≤ x → x < dx → V x y = V dx y)
    (ve2 : mode = .edge → ∀ x y : Int, dx + pw ≤ x → x < t.w → V x y = V (dx + pw - 1) y)
    (vr1 : mode = .repeat → 0 < dx → pw = SZ ∧ dx ≤ SZ) (vr2 : mode = .repeat → dx + pw < t.w → pw = SZ)
    (vr3 : mode = .repeat → ∀ x y k : Int, V (x + SZ * k) y = V x y) :
    ∃ m', expandHorz I mode t bg n SZ t.w dx dy pw ph (dx + pw) m = some m' ∧ SameCells m m' ∧ Has t.iter n V 0 dy t.w ph m' ∧
      ∀ a : Int, (∀ (x y : Int) (c : Nat), Part 0 dy t.w ph n x y c → a ≠ addr t.iter x y c) → m' a = m a := by
  have i2 : (0 : Int) < 2 ^ I := by positivity
  have := hx.w1; have := hx.h1
  -- It is enough to consider the two sides
  have fin : ∀ m1 m2 : Mem α, SameCells m m1 → Upd t.iter (Part 0 dy dx ph n) (val V) m m1 → SameCells m1 m2 →
      Upd t.iter (Part (dx + pw) dy (t.w - (dx + pw)) ph n) (val V) m1 m2 → SameCells m m2 ∧ Has t.iter n V 0 dy t.w ph m2 ∧
      ∀ a : Int, (∀ (x y : Int) (c : Nat), Part 0 dy t.w ph n x y c → a ≠ addr t.iter x y c) → m2 a = m a := by
    intro m1 m2 c1 u1 c2 u2
    refine ⟨fun a => (c2 a).trans (c1 a), ?_, ?_⟩
    · intro x y c hp
      by_cases k1 : x < dx
      · rw [u2.other hx.inj (by intro x' y' c'; omega) (by omega) (by omega)]
        exact u1.hit x y c (by omega)
      · by_cases k2 : x < dx + pw
        · rw [u2.other hx.inj (by intro x' y' c'; omega) (by omega) (by omega), u1.other hx.inj (by intro x' y' c'; omega) (by omega) (by omega)]
          exact hs x y c (by omega)
        · exact u2.hit x y c (by omega)
    · intro a ha
      rw [u2.miss a (fun x y c hp => ha x y c (by omega)), u1.miss a (fun x y c hp => ha x y c (by omega))]
  have keep : ∀ m1 : Mem α, Upd t.iter (Part 0 dy dx ph n) (val V) m m1 → Has t.iter n V dx dy pw ph m1 := fun m1 u1 =>
    hs.keep hx (by omega) (by omega) (by omega) (by omega) u1 (by intro x y c; omega) (by intro x y c; omega)
  have nil1 : ¬dx > 0 → ∀ m : Mem α, Upd t.iter (Part 0 dy dx ph n) (val V) m m := fun h m => Upd.refl _ _ _ (by intro x y c; omega)
  have nil2 : ¬t.w > dx + pw → ∀ m : Mem α, Upd t.iter (Part (dx + pw) dy (t.w - (dx + pw)) ph n) (val V) m m := fun h m => Upd.refl _ _ _ (by intro x y c; omega)
  -- Sides
  cases mode with
  | background =>
    have l : ∃ m1, (if dx > 0 then bgFill I t bg n 0 dy dx ph m else some m) = some m1 ∧ SameCells m m1 ∧ Upd t.iter (Part 0 dy dx ph n) (val V) m m1 := by
      by_cases k : dx > 0
      · rw [if_pos k]
        exact bgFill_upd hx hm hb (by omega) (by omega) (by omega) (by omega) (by omega) (by omega) (fun x y _ _ _ _ => vbg rfl x y (by omega) (by omega) (by omega))
      · rw [if_neg k]
        exact ⟨m, rfl, fun _ => Iff.rfl, nil1 k m⟩
    obtain ⟨m1, e1, c1, u1⟩ := l
    simp only [expandHorz, Option.bind_eq_bind]
    rw [e1]
    simp only [Option.bind_some]
    by_cases k : t.w > dx + pw
    · rw [if_pos k, sub_ok (by omega) (by omega)]
      simp only [Option.bind_some]
      obtain ⟨m2, e2, c2, u2⟩ := bgFill_upd hx (hm.same c1) hb (x0 := dx + pw) (y0 := dy) (w := t.w - (dx + pw)) (h := ph) (by omega) (by omega) (by omega) (by omega) (by omega) (by omega)
        (fun x y _ _ _ _ => vbg rfl x y (by omega) (by omega) (by omega))
      exact ⟨m2, e2, fin m1 m2 c1 u1 c2 u2⟩
    · rw [if_neg k]
      exact ⟨m1, rfl, fin m1 m1 c1 u1 (fun _ => Iff.rfl) (nil2 k m1)⟩
  | edge =>
    have l : ∃ m1, (if dx > 0 then if pw ≥ 1 then edgeLoopX I t (t.iter.plus dx dy) n 0 dy ph (dx).toNat 0 m else none else some m) = some m1 ∧
        SameCells m m1 ∧ Upd t.iter (Part 0 dy dx ph n) (val V) m m1 := by
      by_cases k : dx > 0
      · rw [if_pos k, if_pos (by omega)]
        obtain ⟨m1, e1, c1, u1⟩ := edgeLoopX_upd hx (sx := dx) (x0 := 0) (y0 := dy) (len := ph) (K := (dx).toNat) (le_refl _) (by omega) (by omega) (by omega) (by omega)
          (by omega) (by omega) (by omega) (fun x y _ _ _ _ => (ve1 rfl x y (by omega) (by omega)).symm) (dx).toNat 0 m (by omega) hm
          (fun x y c hp => hs x y c (by omega))
        refine ⟨m1, e1, c1, u1.congr ?_ (fun _ _ _ _ => rfl)⟩
        intro x y c; omega
      · rw [if_neg k]
        exact ⟨m, rfl, fun _ => Iff.rfl, nil1 k m⟩
    obtain ⟨m1, e1, c1, u1⟩ := l
    simp only [expandHorz, Option.bind_eq_bind]
    rw [e1]
    simp only [Option.bind_some]
    by_cases k : t.w > dx + pw
    · rw [if_pos k, if_pos (by omega)]
      rw [sub_ok (a := pw) (by omega) (by omega), sub_ok (a := ph) (by omega) (by omega)]
      simp only [Option.bind_some]
      rw [add_ok (a := dx) (by omega) (by omega), add_ok (a := dy) (by omega) (by omega)]
      simp only [Option.bind_some]
      rw [sub_ok (a := t.w) (by omega) (by omega)]
      simp only [Option.bind_some, add_zero]
      have hs1 := keep m1 u1
      obtain ⟨m2, e2, c2, u2⟩ := edgeLoopX_upd hx (sx := dx + pw - 1) (x0 := dx + pw) (y0 := dy) (len := ph) (K := (t.w - (dx + pw)).toNat) (by omega) (by omega) (by omega)
        (by omega) (by omega) (by omega) (by omega) (by omega) (fun x y _ _ _ _ => (ve2 rfl x y (by omega) (by omega)).symm) (t.w - (dx + pw)).toNat 0 m1 (by omega)
        (hm.same c1) (fun x y c hp => hs1 x y c (by omega))
      rw [show dx + pw - 1 = dx + (pw - 1) by omega] at e2
      refine ⟨m2, e2, fin m1 m2 c1 u1 c2 (u2.congr ?_ (fun _ _ _ _ => rfl))⟩
      intro x y c; omega
    · rw [if_neg k]
      exact ⟨m1, rfl, fin m1 m1 c1 u1 (fun _ => Iff.rfl) (nil2 k m1)⟩
  | «repeat» =>
    have l : ∃ m1, (if dx > 0 then if pw = SZ then copyPart I t (t.iter.plus pw dy) n 0 dy dx ph m else none else some m) = some m1 ∧
        SameCells m m1 ∧ Upd t.iter (Part 0 dy dx ph n) (val V) m m1 := by
      by_cases k : dx > 0
      · obtain ⟨k1, k2⟩ := vr1 rfl k
        rw [if_pos k, if_pos k1]
        refine copyPart_upd hx hm (fun x y c hp => hs x y c (by omega)) (by omega) (by omega) (by omega) (by omega) (by omega) (by omega)
          (by omega) (by omega) (by omega) (by omega) (by omega) ?_
        intro x y _ _ _ _
        rw [← vr3 rfl x y 1]
        congr 1 <;> omega
      · rw [if_neg k]
        exact ⟨m, rfl, fun _ => Iff.rfl, nil1 k m⟩
    obtain ⟨m1, e1, c1, u1⟩ := l
    simp only [expandHorz, Option.bind_eq_bind]
    rw [e1]
    simp only [Option.bind_some]
    by_cases k : t.w > dx + pw
    · have k1 := vr2 rfl k
      rw [if_pos k, if_pos k1]
      have hs1 := keep m1 u1
      obtain ⟨z, m2, e2, c2, l1, l2, l3, l4, u2⟩ := repeatLoopX_upd hx (dx := dx) (dy := dy) (pw := pw) (ph := ph) (by omega) (by omega) (by omega) (by omega) (by omega) (by omega)
        (fun x y k => by have := vr3 rfl x y k; rw [← k1] at this; exact this) ((t.w).toNat + 1) (dx + pw) m1 (le_refl _) (by omega) (by push_cast; omega) (by
          exact ⟨1, by ring⟩) (hm.same c1) hs1
      rw [e2]
      simp only [Option.bind_some]
      rw [sub_ok (by omega) (by omega)]
      simp only [Option.bind_some]
      have hs2 := hs1.keep hx (by omega) (by omega) (by omega) (by omega) u2 (by intro x y c; omega) (by intro x y c; omega)
      obtain ⟨m3, e3, c3, u3⟩ := copyPart_upd hx (sx := dx) (sy := dy) (x0 := z) (y0 := dy) (w := t.w - z) (h := ph) ((hm.same c1).same c2)
        (fun x y c hp => hs2 x y c (by omega)) (by omega) (by omega) (by omega) (by omega) (by omega) (by omega) (by omega) (by omega) (by omega) (by omega) (by omega) (by
          intro x y _ _ _ _
          obtain ⟨j, hj⟩ := l4
          rw [← vr3 rfl _ _ j, ← k1]
          congr 1 <;> (try rw [← hj]) <;> ring)
      refine ⟨m3, e3, fin m1 m3 c1 u1 (fun a => (c3 a).trans (c2 a)) (u2.trans u3 ?_ (hx.inj.mono ?_))⟩
      · intro x y c; omega
      · intro x y c; omega
    · rw [if_neg k]
      exact ⟨m1, rfl, fin m1 m1 c1 u1 (fun _ => Iff.rfl) (nil2 k m1)⟩

/-- The vertical expansion. -/
theorem expandVert_upd {I : Nat} {mode : Mode} {t : Tray} {n : Nat} {V : Int → Int → List α} (hx : Ctx I t.iter t.w t.h n V) {bg : List α}
    (hb : n ≤ bg.length) {SZ dx dy pw ph : Int} (hdx : 0 ≤ dx) (hpw : 0 < pw) (hxw : dx + pw ≤ t.w) (hdy : 0 ≤ dy) (hph : 0 < ph) (hyh : dy + ph ≤ t.h)
    {m : Mem α} (hm : Cells t.iter t.w t.h n m) (hs : Has t.iter n V 0 dy t.w ph m)
    (vbg : mode = .background → ∀ x y : Int, 0 ≤ y → y < t.h → (y < dy ∨ dy + ph ≤ y) → V x y = bg)
    (ve1 : mode = .edge → ∀ x y : Int, 0 ≤ y → y < dy → V x y = V x dy)
    (ve2 : mode = .edge → ∀ x y : Int, dy + ph ≤ y → y < t.h → V x y = V x (dy + ph - 1))
    (vr1 : mode = .repeat → 0 < dy → ph = SZ ∧ dy ≤ SZ) (vr2 : mode = .repeat → dy + ph < t.h → ph = SZ)
    (vr3 : mode = .repeat → ∀ x y k : Int, V x (y + SZ * k) = V x y) :
    ∃ m', expandVert I mode t bg n SZ t.w t.h dx dy pw ph (dy + ph) m = some m' ∧ SameCells m m' ∧ Has t.iter n V 0 0 t.w t.h m' ∧
      ∀ a : Int, (∀ (x y : Int) (c : Nat), Part 0 0 t.w t.h n x y c → a ≠ addr t.iter x y c) → m' a = m a := by
  have i2 : (0 : Int) < 2 ^ I := by positivity
  have := hx.w1; have := hx.h1
  -- It is enough to consider the two sides
  have fin : ∀ m1 m2 : Mem α, SameCells m m1 → Upd t.iter (Part 0 0 t.w dy n) (val V) m m1 → SameCells m1 m2 →
      Upd t.iter (Part 0 (dy + ph) t.w (t.h - (dy + ph)) n) (val V) m1 m2 → SameCells m m2 ∧ Has t.iter n V 0 0 t.w t.h m2 ∧
      ∀ a : Int, (∀ (x y : Int) (c : Nat), Part 0 0 t.w t.h n x y c → a ≠ addr t.iter x y c) → m2 a = m a := by
    intro m1 m2 c1 u1 c2 u2
    refine ⟨fun a => (c2 a).trans (c1 a), ?_, ?_⟩
    · intro x y c hp
      by_cases k1 : y < dy
      · rw [u2.other hx.inj (by intro x' y' c'; omega) (by omega) (by omega)]
        exact u1.hit x y c (by omega)
      · by_cases k2 : y < dy + ph
        · rw [u2.other hx.inj (by intro x' y' c'; omega) (by omega) (by omega), u1.other hx.inj (by intro x' y' c'; omega) (by omega) (by omega)]
          exact hs x y c (by omega)
        · exact u2.hit x y c (by omega)
    · intro a ha
      rw [u2.miss a (fun x y c hp => ha x y c (by omega)), u1.miss a (fun x y c hp => ha x y c (by omega))]
  have keep : ∀ m1 : Mem α, Upd t.iter (Part 0 0 t.w dy n) (val V) m m1 → Has t.iter n V 0 dy t.w ph m1 := fun m1 u1 =>
    hs.keep hx (by omega) (by omega) (by omega) (by omega) u1 (by intro x y c; omega) (by intro x y c; omega)
  have nil1 : ¬dy > 0 → ∀ m : Mem α, Upd t.iter (Part 0 0 t.w dy n) (val V) m m := fun h m => Upd.refl _ _ _ (by intro x y c; omega)
  have nil2 : ¬t.h > dy + ph → ∀ m : Mem α, Upd t.iter (Part 0 (dy + ph) t.w (t.h - (dy + ph)) n) (val V) m m := fun h m => Upd.refl _ _ _ (by intro x y c; omega)
  -- Sides
  cases mode with
  | background =>
    have l : ∃ m1, (if dy > 0 then bgFill I t bg n 0 0 t.w dy m else some m) = some m1 ∧ SameCells m m1 ∧ Upd t.iter (Part 0 0 t.w dy n) (val V) m m1 := by
      by_cases k : dy > 0
      · rw [if_pos k]
        exact bgFill_upd hx hm hb (by omega) (by omega) (by omega) (by omega) (by omega) (by omega) (fun x y _ _ _ _ => vbg rfl x y (by omega) (by omega) (by omega))
      · rw [if_neg k]
        exact ⟨m, rfl, fun _ => Iff.rfl, nil1 k m⟩
    obtain ⟨m1, e1, c1, u1⟩ := l
    simp only [expandVert, Option.bind_eq_bind]
    rw [e1]
    simp only [Option.bind_some]
    by_cases k : t.h > dy + ph
    · rw [if_pos k, sub_ok (by omega) (by omega)]
      simp only [Option.bind_some]
      obtain ⟨m2, e2, c2, u2⟩ := bgFill_upd hx (hm.same c1) hb (x0 := 0) (y0 := dy + ph) (w := t.w) (h := t.h - (dy + ph)) (by omega) (by omega) (by omega) (by omega) (by omega) (by omega)
        (fun x y _ _ _ _ => vbg rfl x y (by omega) (by omega) (by omega))
      exact ⟨m2, e2, fin m1 m2 c1 u1 c2 u2⟩
    · rw [if_neg k]
      exact ⟨m1, rfl, fin m1 m1 c1 u1 (fun _ => Iff.rfl) (nil2 k m1)⟩
  | edge =>
    have l : ∃ m1, (if dy > 0 then if ph ≥ 1 then edgeLoopY I t (t.iter.plus 0 dy) n 0 0 t.w (dy).toNat 0 m else none else some m) = some m1 ∧
        SameCells m m1 ∧ Upd t.iter (Part 0 0 t.w dy n) (val V) m m1 := by
      by_cases k : dy > 0
      · rw [if_pos k, if_pos (by omega)]
        obtain ⟨m1, e1, c1, u1⟩ := edgeLoopY_upd hx (sy := dy) (y0 := 0) (x0 := 0) (len := t.w) (K := (dy).toNat) (le_refl _) (by omega) (by omega) (by omega) (by omega)
          (by omega) (by omega) (by omega) (fun x y _ _ _ _ => (ve1 rfl x y (by omega) (by omega)).symm) (dy).toNat 0 m (by omega) hm
          (fun x y c hp => hs x y c (by omega))
        refine ⟨m1, e1, c1, u1.congr ?_ (fun _ _ _ _ => rfl)⟩
        intro x y c; omega
      · rw [if_neg k]
        exact ⟨m, rfl, fun _ => Iff.rfl, nil1 k m⟩
    obtain ⟨m1, e1, c1, u1⟩ := l
    simp only [expandVert, Option.bind_eq_bind]
    rw [e1]
    simp only [Option.bind_some]
    by_cases k : t.h > dy + ph
    · rw [if_pos k, if_pos (by omega)]
      rw [add_ok (a := dx) (by omega) (by omega), add_ok (a := dy) (by omega) (by omega)]
      simp only [Option.bind_some]
      rw [sub_ok (a := dx + pw) (by omega) (by omega), sub_ok (a := dy + ph) (by omega) (by omega)]
      simp only [Option.bind_some]
      rw [sub_ok (a := t.h) (by omega) (by omega)]
      simp only [Option.bind_some]
      have hs1 := keep m1 u1
      obtain ⟨m2, e2, c2, u2⟩ := edgeLoopY_upd hx (sy := dy + ph - 1) (y0 := dy + ph) (x0 := 0) (len := t.w) (K := (t.h - (dy + ph)).toNat) (by omega) (by omega) (by omega)
        (by omega) (by omega) (by omega) (by omega) (by omega) (fun x y _ _ _ _ => (ve2 rfl x y (by omega) (by omega)).symm) (t.h - (dy + ph)).toNat 0 m1 (by omega)
        (hm.same c1) (fun x y c hp => hs1 x y c (by omega))
      skip
      refine ⟨m2, e2, fin m1 m2 c1 u1 c2 (u2.congr ?_ (fun _ _ _ _ => rfl))⟩
      intro x y c; omega
    · rw [if_neg k]
      exact ⟨m1, rfl, fin m1 m1 c1 u1 (fun _ => Iff.rfl) (nil2 k m1)⟩
  | «repeat» =>
    have l : ∃ m1, (if dy > 0 then if ph = SZ then copyPart I t (t.iter.plus 0 ph) n 0 0 t.w dy m else none else some m) = some m1 ∧
        SameCells m m1 ∧ Upd t.iter (Part 0 0 t.w dy n) (val V) m m1 := by
      by_cases k : dy > 0
      · obtain ⟨k1, k2⟩ := vr1 rfl k
        rw [if_pos k, if_pos k1]
        refine copyPart_upd hx hm (fun x y c hp => hs x y c (by omega)) (by omega) (by omega) (by omega) (by omega) (by omega) (by omega)
          (by omega) (by omega) (by omega) (by omega) (by omega) ?_
        intro x y _ _ _ _
        rw [← vr3 rfl x y 1]
        congr 1 <;> omega
      · rw [if_neg k]
        exact ⟨m, rfl, fun _ => Iff.rfl, nil1 k m⟩
    obtain ⟨m1, e1, c1, u1⟩ := l
    simp only [expandVert, Option.bind_eq_bind]
    rw [e1]
    simp only [Option.bind_some]
    by_cases k : t.h > dy + ph
    · have k1 := vr2 rfl k
      rw [if_pos k, if_pos k1]
      have hs1 := keep m1 u1
      obtain ⟨z, m2, e2, c2, l1, l2, l3, l4, u2⟩ := repeatLoopY_upd hx (dx := 0) (dy := dy) (pw := t.w) (ph := ph) (by omega) (by omega) (by omega) (by omega) (by omega) (by omega)
        (fun x y k => by have := vr3 rfl x y k; rw [← k1] at this; exact this) ((t.h).toNat + 1) (dy + ph) m1 (le_refl _) (by omega) (by push_cast; omega) (by
          exact ⟨1, by ring⟩) (hm.same c1) hs1
      rw [e2]
      simp only [Option.bind_some]
      rw [sub_ok (by omega) (by omega)]
      simp only [Option.bind_some]
      have hs2 := hs1.keep hx (by omega) (by omega) (by omega) (by omega) u2 (by intro x y c; omega) (by intro x y c; omega)
      obtain ⟨m3, e3, c3, u3⟩ := copyPart_upd hx (sx := 0) (sy := dy) (x0 := 0) (y0 := z) (w := t.w) (h := t.h - z) ((hm.same c1).same c2)
        (fun x y c hp => hs2 x y c (by omega)) (by omega) (by omega) (by omega) (by omega) (by omega) (by omega) (by omega) (by omega) (by omega) (by omega) (by omega) (by
          intro x y _ _ _ _
          obtain ⟨j, hj⟩ := l4
          rw [← vr3 rfl _ _ j, ← k1]
          congr 1 <;> (try rw [← hj]) <;> ring)
      refine ⟨m3, e3, fin m1 m3 c1 u1 (fun a => (c3 a).trans (c2 a)) (u2.trans u3 ?_ (hx.inj.mono ?_))⟩
      · intro x y c; omega
      · intro x y c; omega
    · rw [if_neg k]
      exact ⟨m1, rfl, fin m1 m1 c1 u1 (fun _ => Iff.rfl) (nil2 k m1)⟩

end Verif.ImageReader
