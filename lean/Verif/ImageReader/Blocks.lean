import Verif.ImageReader.ReadE
/-!
Reading by way of subdivision of boxes.
-/
namespace Verif.ImageReader
open Verif.Integer Verif.PixelBox Verif.PixelBox.Spec Verif.ImageIter Verif.ImageIter.Spec Spec

variable {α φ γ : Type}

/-! ### Subdivision -/

/-- Two boxes have no pixel in common. -/
def Apart (a b : Box) : Prop := ∀ x y : Int, ¬(Pixel a x y ∧ Pixel b x y)

/-- The box is inside the other one, and is small. -/
structure Small (o b : Box) : Prop where
  w0 : 0 ≤ b.w
  h0 : 0 ≤ b.h
  x0 : o.x ≤ b.x
  x1 : b.x + b.w ≤ o.x + o.w
  y0 : o.y ≤ b.y
  y1 : b.y + b.h ≤ o.y + o.h
  w1 : b.w ≤ 4096
  area : b.w * b.h ≤ 4096

theorem subdivideRow_spec {I : Nat} {box : Box} (hx : -2 ^ I ≤ box.x) (hw1 : box.w < 2 ^ I) (hx1 : box.x + box.w < 2 ^ I)
    (hy : -2 ^ I ≤ box.y) {y h maxW : Int} (hy0 : 0 ≤ y) (hy1 : box.y + y < 2 ^ I) (hm : 0 < maxW) :
    ∀ (fuel : Nat) (x : Int), 0 ≤ x → x < box.w → box.w - x < fuel →
      ∃ l, subdivideRow I box y h maxW fuel x = some l ∧
        (∀ b ∈ l, b.y = box.y + y ∧ b.h = h ∧ box.x + x ≤ b.x ∧ b.x + b.w ≤ box.x + box.w ∧ 0 ≤ b.w ∧ b.w ≤ maxW) ∧
        (∀ X : Int, box.x + x ≤ X → X < box.x + box.w → ∃ b ∈ l, b.x ≤ X ∧ X < b.x + b.w) ∧ l.Pairwise Apart := by
  have i2 : (0 : Int) < 2 ^ I := by positivity
  intro fuel
  induction fuel with
  | zero => intro x h0 h1 h2; omega
  | succ fuel ih =>
    intro x h0 h1 h2
    unfold subdivideRow
    simp only [Option.bind_eq_bind]
    rw [sub_ok (by omega) (by omega)]
    simp only [Option.bind_some]
    obtain ⟨w, hw⟩ : ∃ w, w = min (box.w - x) maxW := ⟨_, rfl⟩
    rw [← hw, add_ok (by omega) (by omega), add_ok (by omega) (by omega), add_ok (by omega) (by omega)]
    simp only [Option.bind_some]
    by_cases k : x + w < box.w
    · obtain ⟨l, e, p1, p2, p3⟩ := ih (x + w) (by omega) k (by omega)
      rw [if_pos k, e]
      refine ⟨_, rfl, ?_, ?_, ?_⟩
      · intro b hb
        rcases List.mem_cons.mp hb with rfl | hb
        · exact ⟨rfl, rfl, le_refl _, by show box.x + x + w ≤ _; omega, by show 0 ≤ w; omega, by show w ≤ _; omega⟩
        · obtain ⟨a1, a2, a3, a4, a5, a6⟩ := p1 b hb
          exact ⟨a1, a2, by omega, a4, a5, a6⟩
      · intro X k1 k2
        by_cases kk : X < box.x + x + w
        · exact ⟨_, List.mem_cons_self, k1, kk⟩
        · obtain ⟨b, hb, hh⟩ := p2 X (by omega) k2
          exact ⟨b, List.mem_cons_of_mem _ hb, hh⟩
      · refine List.pairwise_cons.mpr ⟨?_, p3⟩
        rintro b hb X Y ⟨⟨⟨-, q1⟩, -⟩, ⟨q2, -⟩, -⟩
        have := (p1 b hb).2.2.1
        simp only at q1
        omega
    · rw [if_neg k]
      refine ⟨_, rfl, ?_, ?_, List.pairwise_singleton _ _⟩
      · intro b hb
        rw [List.mem_singleton] at hb
        subst hb
        exact ⟨rfl, rfl, le_refl _, by show box.x + x + w ≤ _; omega, by show 0 ≤ w; omega, by show w ≤ _; omega⟩
      · intro X k1 k2
        exact ⟨_, List.mem_singleton.mpr rfl, k1, by show X < box.x + x + w; omega⟩

theorem subdivideRows_spec {I : Nat} {box : Box} (hx : -2 ^ I ≤ box.x) (hw0 : 64 ≤ box.w) (hw1 : box.w < 2 ^ I) (hx1 : box.x + box.w < 2 ^ I)
    (hy : -2 ^ I ≤ box.y) (hh1 : box.h < 2 ^ I) (hy1 : box.y + box.h < 2 ^ I) :
    ∀ (fuel : Nat) (y : Int), 0 ≤ y → y ≤ box.h → box.h - y < fuel →
      ∃ l, subdivideRows I box fuel y = some l ∧ (∀ b ∈ l, Small box b ∧ box.y + y ≤ b.y) ∧
        (∀ X Y : Int, box.x ≤ X → X < box.x + box.w → box.y + y ≤ Y → Y < box.y + box.h → ∃ b ∈ l, Pixel b X Y) ∧ l.Pairwise Apart := by
  have i2 : (0 : Int) < 2 ^ I := by positivity
  intro fuel
  induction fuel with
  | zero => intro y h0 h1 h2; omega
  | succ fuel ih =>
    intro y h0 h1 h2
    -- One row of boxes, and the remaining ones
    have step : ∀ h maxW : Int, 0 < h → y + h ≤ box.h → 0 < maxW → maxW ≤ 4096 → maxW * h ≤ 4096 →
        ∃ l, (subdivideRow I box y h maxW (box.w.toNat + 1) 0).bind (fun row => (add I y h).bind fun y =>
          (subdivideRows I box fuel y).bind fun rest => some (row ++ rest)) = some l ∧ (∀ b ∈ l, Small box b ∧ box.y + y ≤ b.y) ∧
        (∀ X Y : Int, box.x ≤ X → X < box.x + box.w → box.y + y ≤ Y → Y < box.y + box.h → ∃ b ∈ l, Pixel b X Y) ∧ l.Pairwise Apart := by
      intro h maxW k1 k2 k3 k4 k5
      obtain ⟨row, e, p1, p2, p3⟩ := subdivideRow_spec hx hw1 hx1 hy (h := h) h0 (by omega) k3 (box.w.toNat + 1) 0 (le_refl _) (by omega) (by omega)
      obtain ⟨rest, e', q1, q2, q3⟩ := ih (y + h) (by omega) k2 (by omega)
      rw [e, Option.bind_some, add_ok (by omega) (by omega), Option.bind_some, e']
      refine ⟨_, rfl, ?_, ?_, ?_⟩
      · intro b hb
        rcases List.mem_append.mp hb with hb | hb
        · obtain ⟨a1, a2, a3, a4, a5, a6⟩ := p1 b hb
          refine ⟨⟨a5, by omega, by omega, a4, by omega, by omega, by omega, ?_⟩, by omega⟩
          rw [a2]
          exact le_trans (mul_le_mul_of_nonneg_right a6 (by omega)) k5
        · exact ⟨(q1 b hb).1, by have := (q1 b hb).2; omega⟩
      · intro X Y l1 l2 l3 l4
        by_cases kk : Y < box.y + y + h
        · obtain ⟨b, hb, g1, g2⟩ := p2 X (by omega) l2
          obtain ⟨a1, a2, -⟩ := p1 b hb
          exact ⟨b, List.mem_append_left _ hb, ⟨g1, g2⟩, by omega, by omega⟩
        · obtain ⟨b, hb, hh⟩ := q2 X Y l1 l2 (by omega) l4
          exact ⟨b, List.mem_append_right _ hb, hh⟩
      · refine List.pairwise_append.mpr ⟨p3, q3, ?_⟩
        rintro a ha b hb X Y ⟨⟨-, -, g1⟩, -, g2, -⟩
        obtain ⟨a1, a2, -⟩ := p1 a ha
        have := (q1 b hb).2
        omega
    unfold subdivideRows
    simp only [Option.bind_eq_bind]
    rw [sub_ok (by omega) (by omega)]
    simp only [Option.bind_some]
    by_cases k : box.h - y ≥ 64
    · rw [if_pos k]
      exact step 64 64 (by omega) (by omega) (by omega) (by omega) (by omega)
    · rw [if_neg k]
      by_cases kz : box.h - y = 0
      · rw [if_pos kz]
        exact ⟨[], rfl, by simp, by intro X Y _ _ _ _; omega, List.Pairwise.nil⟩
      · rw [if_neg kz]
        have d1 : Int.tdiv 4096 (box.h - y) = 4096 / (box.h - y) := Int.tdiv_eq_ediv_of_nonneg (by omega)
        have d2 := Int.mul_ediv_add_emod 4096 (box.h - y)
        have d3 := Int.emod_nonneg 4096 (by omega : box.h - y ≠ 0)
        have d4 : 64 ≤ 4096 / (box.h - y) := by
          rw [Int.le_ediv_iff_mul_le (by omega)]; omega
        rw [d1]
        refine step _ _ (by omega) (by omega) (by omega) ?_ ?_
        · exact Int.ediv_le_self _ (by omega)
        · rw [mul_comm]; omega

theorem subdivideColumn_spec {I : Nat} {box : Box} (hx : -2 ^ I ≤ box.x) (hx1 : box.x + box.w < 2 ^ I) (hw : 0 < box.w) (hw4 : box.w ≤ 4096)
    (hy : -2 ^ I ≤ box.y) (hh1 : box.h < 2 ^ I) (hy1 : box.y + box.h < 2 ^ I) {maxH : Int} (hm : 0 < maxH) (ha : box.w * maxH ≤ 4096) :
    ∀ (fuel : Nat) (y : Int), 0 ≤ y → y ≤ box.h → box.h - y < fuel →
      ∃ l, subdivideColumn I box maxH fuel y = some l ∧ (∀ b ∈ l, Small box b ∧ box.y + y ≤ b.y) ∧
        (∀ X Y : Int, box.x ≤ X → X < box.x + box.w → box.y + y ≤ Y → Y < box.y + box.h → ∃ b ∈ l, Pixel b X Y) ∧ l.Pairwise Apart := by
  have i2 : (0 : Int) < 2 ^ I := by positivity
  intro fuel
  induction fuel with
  | zero => intro x h0 h1 h2; omega
  | succ fuel ih =>
    intro y h0 h1 h2
    unfold subdivideColumn
    simp only [Option.bind_eq_bind]
    rw [sub_ok (by omega) (by omega)]
    simp only [Option.bind_some]
    obtain ⟨h, hh⟩ : ∃ h, h = min (box.h - y) maxH := ⟨_, rfl⟩
    rw [← hh, add_ok (by omega) (by omega), add_ok (by omega) (by omega), add_ok (by omega) (by omega)]
    simp only [Option.bind_some, add_zero]
    have sm : Small box ⟨box.x, box.y + y, box.w, h⟩ :=
      ⟨by show 0 ≤ box.w; omega, by show 0 ≤ h; omega, le_refl _, le_refl _, by show _ ≤ box.y + y; omega, by show box.y + y + h ≤ _; omega, hw4,
        le_trans (mul_le_mul_of_nonneg_left (by show h ≤ maxH; omega) hw.le) ha⟩
    by_cases k : y + h < box.h
    · obtain ⟨l, e, p1, p2, p3⟩ := ih (y + h) (by omega) (by omega) (by omega)
      rw [if_pos k, e]
      refine ⟨_, rfl, ?_, ?_, ?_⟩
      · intro b hb
        rcases List.mem_cons.mp hb with rfl | hb
        · exact ⟨sm, le_refl _⟩
        · exact ⟨(p1 b hb).1, by have := (p1 b hb).2; omega⟩
      · intro X Y k1 k2 k3 k4
        by_cases kk : Y < box.y + y + h
        · exact ⟨_, List.mem_cons_self, ⟨k1, k2⟩, k3, kk⟩
        · obtain ⟨b, hb, hh⟩ := p2 X Y k1 k2 (by omega) k4
          exact ⟨b, List.mem_cons_of_mem _ hb, hh⟩
      · refine List.pairwise_cons.mpr ⟨?_, p3⟩
        rintro b hb X Y ⟨⟨-, -, q1⟩, -, q2, -⟩
        have := (p1 b hb).2
        simp only at q1
        omega
    · rw [if_neg k]
      refine ⟨_, rfl, ?_, ?_, List.pairwise_singleton _ _⟩
      · intro b hb
        rw [List.mem_singleton] at hb
        subst hb
        exact ⟨sm, le_refl _⟩
      · intro X Y k1 k2 k3 k4
        exact ⟨_, List.mem_singleton.mpr rfl, ⟨k1, k2⟩, k3, by show Y < box.y + y + h; omega⟩

theorem isValid_spec {I : Nat} {b : Box} (hw0 : 0 ≤ b.w) (hh0 : 0 ≤ b.h) (hx : -2 ^ I ≤ b.x) (hw1 : b.w < 2 ^ I) (hx1 : b.x + b.w < 2 ^ I)
    (hy : -2 ^ I ≤ b.y) (hh1 : b.h < 2 ^ I) (hy1 : b.y + b.h < 2 ^ I) : b.isValid I = some true := by
  obtain ⟨⟨r, e, h⟩, -⟩ := PixelBox.C48_valid I b (by simp only [PixelBox.Spec.Exists, Rep]; omega)
  rw [e, h.mpr (by simp only [Valid, Rep]; omega)]

theorem subdivide_spec {I : Nat} {box : Box} (hw0 : 0 ≤ box.w) (hh0 : 0 ≤ box.h) (hx : -2 ^ I ≤ box.x) (hw1 : box.w < 2 ^ I) (hx1 : box.x + box.w < 2 ^ I)
    (hy : -2 ^ I ≤ box.y) (hh1 : box.h < 2 ^ I) (hy1 : box.y + box.h < 2 ^ I) :
    ∃ l, subdivide I box = some l ∧ (∀ b ∈ l, Small box b) ∧ (∀ X Y : Int, Pixel box X Y → ∃ b ∈ l, Pixel b X Y) ∧ l.Pairwise Apart := by
  unfold subdivide
  rw [isValid_spec hw0 hh0 hx hw1 hx1 hy hh1 hy1]
  simp only [Option.bind_eq_bind, Option.bind_some, if_true]
  have fin : ∀ o : Option (List Box), (∃ l, o = some l ∧ (∀ b ∈ l, Small box b ∧ box.y + 0 ≤ b.y) ∧
      (∀ X Y : Int, box.x ≤ X → X < box.x + box.w → box.y + 0 ≤ Y → Y < box.y + box.h → ∃ b ∈ l, Pixel b X Y) ∧ l.Pairwise Apart) →
      ∃ l, o = some l ∧ (∀ b ∈ l, Small box b) ∧ (∀ X Y : Int, Pixel box X Y → ∃ b ∈ l, Pixel b X Y) ∧ l.Pairwise Apart := by
    rintro o ⟨l, e, p1, p2, p3⟩
    exact ⟨l, e, fun b hb => (p1 b hb).1, fun X Y ⟨⟨k1, k2⟩, k3, k4⟩ => p2 X Y k1 k2 (by omega) k4, p3⟩
  by_cases k : box.w ≥ 64
  · rw [if_pos k]
    exact fin _ (subdivideRows_spec hx k hw1 hx1 hy hh1 hy1 _ 0 (le_refl _) hh0 (by omega))
  · rw [if_neg k]
    by_cases kz : box.w > 0
    · rw [if_pos kz]
      have d1 : Int.tdiv 4096 box.w = 4096 / box.w := Int.tdiv_eq_ediv_of_nonneg (by omega)
      have d2 := Int.mul_ediv_add_emod 4096 box.w
      have d3 := Int.emod_nonneg 4096 (by omega : box.w ≠ 0)
      have d4 : 64 ≤ 4096 / box.w := by
        rw [Int.le_ediv_iff_mul_le (by omega)]; omega
      rw [d1]
      exact fin _ (subdivideColumn_spec hx hx1 kz (by omega) hy hh1 hy1 (by omega) (by omega) _ 0 (le_refl _) hh0 (by omega))
    · rw [if_neg kz]
      exact ⟨[], rfl, by simp, by rintro X Y ⟨⟨_, _⟩, _⟩; omega, List.Pairwise.nil⟩

/-! ### Blocks -/

/-- A function that reads from boxes at any position. `P` is what is required of sizes of boxes. -/
def ReadAll (I : Nat) (P : Int → Int → Prop) (read : Int → Int → Tray → Mem α → Option (Mem α)) (n : Nat) (img : Int → Int → List α) : Prop :=
  ∀ (it : Iter) (w h x y : Int) (m : Mem α), 0 ≤ w → w < 2 ^ I → 0 ≤ h → h < 2 ^ I → -2 ^ I ≤ x → x + w < 2 ^ I → -2 ^ I ≤ y → y + h < 2 ^ I → P w h →
    Inj it (Part 0 0 w h n) → Cells it w h n m →
    ∃ m', read x y ⟨it, w, h⟩ m = some m' ∧ SameCells m m' ∧ Upd it (Part 0 0 w h n) (fun i j c => val img (x + i) (y + j) c) m m'

theorem readE_all {read : Int → Int → Tray → Mem α → Option (Mem α)} {n : Nat} {W H : Int} {img : Int → Int → List α}
    (hr : ReadOk read n W H img) {I : Nat} {bg : List α} (hb : n ≤ bg.length)
    (hl : ∀ x y : Int, 0 ≤ x → x < W → 0 ≤ y → y < H → n ≤ (img x y).length)
    (hW0 : 0 ≤ W) (hW : W < 2 ^ I) (hH0 : 0 ≤ H) (hH : H < 2 ^ I) {horz vert : Mode} :
    ReadAll I (fun _ _ => True) (readE I read bg n W H horz vert) n (extended horz vert W H img bg) := by
  intro it w h x y m hw0 hw1 hh0 hh1 hx hx1 hy hy1 _ hi hm
  exact readE_upd (t := ⟨it, w, h⟩) hr hb hl hi hw0 hw1 hh0 hh1 hm hW0 hW hH0 hH hx hx1 hy hy1

theorem forBoxes_upd {I : Nat} {read : Int → Int → Tray → Mem α → Option (Mem α)} {n : Nat} {img : Int → Int → List α}
    (hr : ReadAll I (fun w h => w ≤ 4096 ∧ w * h ≤ 4096) read n img) {it : Iter} {w h x y : Int} (hw1 : w < 2 ^ I) (hh1 : h < 2 ^ I)
    (hx : -2 ^ I ≤ x) (hx1 : x + w < 2 ^ I) (hy : -2 ^ I ≤ y) (hy1 : y + h < 2 ^ I) (hi : Inj it (Part 0 0 w h n)) :
    ∀ (l : List Box) (m : Mem α), (∀ b ∈ l, Small ⟨x, y, w, h⟩ b) → Cells it w h n m →
      ∃ m', forBoxes I read x y ⟨it, w, h⟩ l m = some m' ∧ SameCells m m' ∧
        Upd it (fun i j c => ∃ b ∈ l, Part (b.x - x) (b.y - y) b.w b.h n i j c) (fun i j c => val img (x + i) (y + j) c) m m' := by
  intro l
  induction l with
  | nil => intro m _ _; exact ⟨m, rfl, fun _ => Iff.rfl, Upd.refl _ _ _ (by simp)⟩
  | cons b l ih =>
    intro m hs hm
    obtain ⟨w0, h0, x0, x1, y0, y1, w4, a4⟩ := hs b List.mem_cons_self
    simp only at x0 x1 y0 y1
    obtain ⟨m1, e1, c1, u1⟩ := hr (it.plus (b.x - x) (b.y - y)) b.w b.h b.x b.y m w0 (by omega) h0 (by omega) (by omega) (by omega) (by omega) (by omega)
      ⟨w4, a4⟩ (inj_shift hi (by omega) (by omega) (by omega) (by omega)) (cells_shift hm (by omega) (by omega) (by omega) (by omega))
    obtain ⟨m2, e2, c2, u2⟩ := ih m1 (fun b hb => hs b (List.mem_cons_of_mem _ hb)) (hm.same c1)
    refine ⟨m2, ?_, fun a => (c2 a).trans (c1 a), ?_⟩
    · unfold forBoxes
      rw [show (⟨it, w, h⟩ : Tray).subtray I b x y = some ⟨it.plus (b.x - x) (b.y - y), b.w, b.h⟩ from
        subtray_at (t := ⟨it, w, h⟩) (x := b.x) (y := b.y) (w := b.w) (h := b.h) (by omega) (by omega)]
      simp only [Option.bind_eq_bind, Option.bind_some]
      rw [e1]
      exact e2
    · have u1' : Upd it (Part (b.x - x) (b.y - y) b.w b.h n) (fun i j c => val img (x + i) (y + j) c) m m1 := by
        refine (Upd.shift u1).congr (fun _ _ _ => Iff.rfl) ?_
        intro i j c _
        have h1 : b.x + (i - (b.x - x)) = x + i := by omega
        have h2 : b.y + (j - (b.y - y)) = y + j := by omega
        simp only [h1, h2]
      refine u1'.trans u2 ?_ (hi.mono ?_)
      · intro i j c
        simp only [List.mem_cons, exists_eq_or_imp]
      · rintro i j c ⟨b', hb', hp⟩
        obtain ⟨w0', h0', x0', x1', y0', y1', -, -⟩ := hs b' hb'
        simp only at x0' x1' y0' y1'
        omega

theorem getBlock_all {I : Nat} {read : Int → Int → Tray → Mem α → Option (Mem α)} {n : Nat} {img : Int → Int → List α}
    (hr : ReadAll I (fun w h => w ≤ 4096 ∧ w * h ≤ 4096) read n img) : ReadAll I (fun _ _ => True) (getBlock I read) n img := by
  intro it w h x y m hw0 hw1 hh0 hh1 hx hx1 hy hy1 _ hi hm
  obtain ⟨l, e, p1, p2, -⟩ := subdivide_spec (I := I) (box := ⟨x, y, w, h⟩) hw0 hh0 hx hw1 hx1 hy hh1 hy1
  obtain ⟨m', e', hc, u⟩ := forBoxes_upd hr hw1 hh1 hx hx1 hy hy1 hi l m p1 hm
  refine ⟨m', ?_, hc, u.congr ?_ (fun _ _ _ _ => rfl)⟩
  · unfold getBlock
    simp only [Option.bind_eq_bind]
    rw [e]
    exact e'
  · intro i j c
    constructor
    · intro hp
      obtain ⟨b, hb, ⟨q1, q2⟩, q3, q4⟩ := p2 (x + i) (y + j) ⟨⟨by show x ≤ x + i; omega, by show x + i < x + w; omega⟩, by show y ≤ y + j; omega, by show y + j < y + h; omega⟩
      exact ⟨b, hb, by omega⟩
    · rintro ⟨b, hb, hp⟩
      obtain ⟨w0, h0, x0, x1, y0, y1, -, -⟩ := p1 b hb
      simp only at x0 x1 y0 y1
      omega

end Verif.ImageReader
