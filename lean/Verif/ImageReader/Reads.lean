import Verif.ImageReader.Blocks
import Verif.ImageIter.Props
/-!
Reading from the image, and conversion.
-/
namespace Verif.ImageReader
open Verif.Integer Verif.PixelBox Verif.PixelBox.Spec Verif.ImageIter Verif.ImageIter.Spec Spec

variable {α φ γ : Type}

/-- One pixel is stored by a step of a loop that may depend on memory that is not changed. -/
theorem putLoop_upd {it : Iter} {w h : Int} {n : Nat} (hi : Inj it (Part 0 0 w h n)) {pixel : Nat → Nat → List α}
    (hl : ∀ x y : Nat, (x : Int) < w → (y : Int) < h → n ≤ (pixel x y).length) {step : Nat → Nat → Mem α → Option (Mem α)}
    (hs : ∀ (x y : Nat) (m : Mem α), (x : Int) < w → (y : Int) < h → step x y m = put (pixel x y) (it.ptr x y) n 0 m)
    {m : Mem α} (hm : Cells it w h n m) :
    ∃ m', loopY step w.toNat h.toNat 0 m = some m' ∧ SameCells m m' ∧
      Upd it (Part 0 0 w h n) (fun i j c => some (pixel i.toNat j.toNat)[c]?) m m' := by
  obtain ⟨m', e, hc, u⟩ := loopY_upd (it := it) (step := step) hi
    (v := fun i j c => some (pixel i.toNat j.toNat)[c]?) (dx := 0) (dy := 0) (C := fun c => c < n)
    (w := w.toNat) (h := h.toNat) (fun x y c h1 h2 h3 h4 hc => ⟨h1, by omega, h3, by omega, hc⟩) (m0 := m)
    (by
      intro x y m1 hx hy hsc hm1
      rw [hs x y m1 (by omega) (by omega)]
      obtain ⟨m2, e2, a2, b2⟩ := put_spec (pixel := pixel x y) (destin := it.ptr x y) n 0 m1
        (by have := hl x y (by omega) (by omega); omega)
        (by
          intro j _ hj
          rw [← addr_eq, Ne, hsc]
          exact hm _ _ j (by omega))
      have hu : Upd it (fun x' y' c => x' = 0 + x ∧ y' = 0 + y ∧ c < n) (fun i j c => some (pixel i.toNat j.toNat)[c]?) m1 m2 := by
        constructor
        · rintro x' y' c ⟨rfl, rfl, hc⟩
          rw [zero_add, zero_add, addr_eq, a2 c (by omega) (by omega)]
          rfl
        · intro a ha
          apply b2
          intro j _ hj
          exact ha _ _ j ⟨(zero_add _).symm, (zero_add _).symm, by omega⟩
      refine ⟨m2, e2, hu.sameCells ?_ ?_, hu⟩
      · rintro x' y' c ⟨rfl, rfl, hc⟩
        rw [Ne, hsc]
        exact hm _ _ c (by omega)
      · intro _ _ _ _; simp)
    h.toNat 0 m (by omega) (fun _ => Iff.rfl) (fun _ _ => rfl)
  refine ⟨m', e, hc, u.congr ?_ (fun _ _ _ _ => rfl)⟩
  intro x y c
  constructor
  · rintro ⟨h1, h2, h3, h4, h5⟩; exact ⟨h1, by omega, by push_cast; omega, by omega, h5⟩
  · rintro ⟨h1, h2, h3, h4, h5⟩; push_cast at h3; exact ⟨h1, by omega, by omega, by omega, h5⟩

theorem imageRead_ok {W H : Int} {color : Int → Int → List α} {n : Nat}
    (hl : ∀ x y : Int, 0 ≤ x → x < W → 0 ≤ y → y < H → n ≤ (color x y).length) : ReadOk (imageRead W H color n) n W H color := by
  intro it w h x y m hw hh hx hx1 hy hy1 hi hm
  unfold imageRead writePixels
  rw [if_pos ⟨hx, hx1, hy, hy1⟩]
  obtain ⟨m', e, hc, u⟩ := putLoop_upd hi (pixel := fun i j => color (x + i) (y + j))
    (fun i j k1 k2 => hl _ _ (by omega) (by omega) (by omega) (by omega)) (step := fun i j => put (color (x + i) (y + j)) (it.ptr i j) n 0)
    (fun _ _ _ _ _ => rfl) hm
  refine ⟨m', e, hc, u.congr (fun _ _ _ => Iff.rfl) ?_⟩
  rintro i j c ⟨k1, k2, k3, k4, k5⟩
  simp only [Int.toNat_of_nonneg k1, Int.toNat_of_nonneg k3]

/-- Only the first components matter. -/
theorem ReadOk.congr {read : Int → Int → Tray → Mem α → Option (Mem α)} {n : Nat} {W H : Int} {img img' : Int → Int → List α}
    (h : ReadOk read n W H img) (he : ∀ x y : Int, 0 ≤ x → x < W → 0 ≤ y → y < H → ∀ c : Nat, c < n → (img x y)[c]? = (img' x y)[c]?) :
    ReadOk read n W H img' := by
  intro it w h' x y m hw hh hx hx1 hy hy1 hi hm
  obtain ⟨m', e, hc, u⟩ := h it w h' x y m hw hh hx hx1 hy hy1 hi hm
  refine ⟨m', e, hc, u.congr (fun _ _ _ => Iff.rfl) ?_⟩
  rintro i j c ⟨k1, k2, k3, k4, k5⟩
  simp only [val]
  rw [he _ _ (by omega) (by omega) (by omega) (by omega) c k5]

/-- Introduction of alpha components. -/
theorem addAlpha_ok {W H : Int} {color : Int → Int → List α} {k : Nat} {max : α}
    (hl : ∀ x y : Int, 0 ≤ x → x < W → 0 ≤ y → y < H → (color x y).length = k) :
    ReadOk (fun x y tray m => (imageRead W H color k x y tray m).bind fun m => addAlpha max k tray m) (k + 1) W H (fun x y => color x y ++ [max]) := by
  intro it w h x y m hw hh hx hx1 hy hy1 hi hm
  obtain ⟨m1, e1, c1, u1⟩ := imageRead_ok (fun x y h1 h2 h3 h4 => (hl x y h1 h2 h3 h4).ge) it w h x y m hw hh hx hx1 hy hy1
    (hi.mono (by intro x y c; omega)) (fun i j c hp => hm i j c (by omega))
  have hm1 := hm.same c1
  obtain ⟨m2, e2, c2, u2⟩ := loopY_upd (it := it) (step := fun x y m => store m (it.ptr x y + k) max) hi
    (v := fun _ _ _ => some (some max)) (dx := 0) (dy := 0) (C := fun c => c = k)
    (w := w.toNat) (h := h.toNat) (fun x y c h1 h2 h3 h4 hc => ⟨h1, by omega, h3, by omega, by omega⟩) (m0 := m1)
    (by
      intro i j m' hi' hj' hsc _
      have hne : m' (it.ptr i j + k) ≠ none := by
        rw [← addr_eq, Ne, hsc]
        exact hm1 _ _ _ (by omega)
      have hu : Upd it (fun x' y' c => x' = 0 + i ∧ y' = 0 + j ∧ c = k) (fun _ _ _ => some (some max)) m'
          (fun b => if b = it.ptr i j + k then some (some max) else m' b) := by
        constructor
        · rintro x' y' c ⟨rfl, rfl, rfl⟩
          rw [zero_add, zero_add, addr_eq, if_pos rfl]
        · intro a ha
          rw [if_neg]
          intro e
          exact ha i j k ⟨(zero_add _).symm, (zero_add _).symm, rfl⟩ e
      refine ⟨_, store_eq max hne, hu.sameCells ?_ (by intro _ _ _ _; simp), hu⟩
      rintro x' y' c ⟨rfl, rfl, rfl⟩
      rw [zero_add, zero_add, addr_eq]
      exact hne)
    h.toNat 0 m1 (by omega) (fun _ => Iff.rfl) (fun _ _ => rfl)
  refine ⟨m2, ?_, fun a => (c2 a).trans (c1 a), ?_⟩
  · show ((imageRead W H color k x y ⟨it, w, h⟩ m).bind fun m => addAlpha max k ⟨it, w, h⟩ m) = _
    rw [e1]
    exact e2
  · have u1' : Upd it (Part 0 0 w h k) (fun i j c => val (fun x y => color x y ++ [max]) (x + i) (y + j) c) m m1 := by
      refine u1.congr (fun _ _ _ => Iff.rfl) ?_
      rintro i j c ⟨k1, k2, k3, k4, k5⟩
      simp only [val]
      rw [List.getElem?_append_left (by rw [hl _ _ (by omega) (by omega) (by omega) (by omega)]; exact k5)]
    have u2' : Upd it (fun i j c => Part 0 0 w h (k + 1) i j c ∧ c = k) (fun i j c => val (fun x y => color x y ++ [max]) (x + i) (y + j) c) m1 m2 := by
      refine u2.congr ?_ ?_
      · intro i j c
        push_cast
        omega
      · rintro i j c ⟨k1, rfl⟩
        simp only [val]
        have := hl (x + i) (y + j) (by omega) (by omega) (by omega) (by omega)
        rw [List.getElem?_append_right (by omega), this]
        simp
    exact u1'.trans u2' (by intro i j c; omega) hi

/-- The workspace. -/
theorem workspace_cells {k : Nat} {w h : Int} (hw : 0 ≤ w) :
    Cells ⟨0, k, k * w⟩ w h k (workspace (φ := φ) (k * w * h)) ∧ Inj ⟨0, k, k * w⟩ (Part 0 0 w h k) := by
  have g : Grid ⟨0, k, k * w⟩ k ⟨0, 0, w, h⟩ (workspace (φ := φ) (k * w * h)) := by
    apply C91_layout _ _ _ _ _ _ _ (le_refl _) (by rw [mul_comm])
    intro a h1 h2
    unfold workspace
    rw [if_pos ⟨h1, by rw [zero_add, mul_comm] at h2; exact h2⟩]
    simp
  constructor
  · intro x y c hp
    exact g.cell x y c ⟨⟨hp.1, hp.2.1⟩, hp.2.2.1, hp.2.2.2.1⟩ hp.2.2.2.2
  · exact g.inj.mono fun x y c hp => ⟨⟨⟨hp.1, hp.2.1⟩, hp.2.2.1, hp.2.2.2.1⟩, hp.2.2.2.2⟩

theorem mapM_some_range {β : Type} (f : Nat → Option β) : ∀ l : List β, (∀ c : Nat, c < l.length → f c = l[c]?) → (List.range l.length).mapM f = some l := by
  intro l
  induction l using List.reverseRecOn with
  | nil => intro _; rfl
  | append_singleton l a ih =>
    intro h
    rw [List.length_append, List.length_singleton, List.range_succ, List.mapM_append, ih (by
      intro c hc
      rw [h c (by simp; omega), List.getElem?_append_left hc])]
    have := h l.length (by simp)
    simp at this
    simp [this]

/-- Conversion of what was read into a workspace. -/
theorem convert_all {I : Nat} {P : Int → Int → Prop} {readEx : Int → Int → Tray → Mem φ → Option (Mem φ)} {k : Nat} {img : Int → Int → List φ}
    (hr : ReadAll I P readEx k img) (hl : ∀ x y : Int, (img x y).length = k) {conv : List φ → List γ} {n : Nat} (hc : ∀ p, p.length = k → n ≤ (conv p).length)
    (hk : (k : Int) * 4096 < 2 ^ I) :
    ReadAll I (fun w h => P w h ∧ w ≤ 4096) (fun x y tray m => (arith I (intTy I) (k * tray.w)).bind fun stride =>
      (readEx x y ⟨⟨0, k, stride⟩, tray.w, tray.h⟩ (workspace (k * tray.w * tray.h))).bind fun ws =>
      convert2 conv ws ⟨⟨0, k, stride⟩, tray.w, tray.h⟩ k tray.iter n m) n (fun x y => conv (img x y)) := by
  have i2 : (0 : Int) < 2 ^ I := by positivity
  intro it w h x y m hw0 hw1 hh0 hh1 hx hx1 hy hy1 hP hi hm
  have b1 : (0 : Int) ≤ k * w := mul_nonneg (by omega) hw0
  have b2 : (k : Int) * w ≤ k * 4096 := mul_le_mul_of_nonneg_left hP.2 (by omega)
  obtain ⟨g1, g2⟩ := workspace_cells (φ := φ) (k := k) (w := w) (h := h) hw0
  obtain ⟨ws, e, -, u⟩ := hr _ w h x y _ hw0 hw1 hh0 hh1 hx hx1 hy hy1 hP.1 g2 g1
  simp only
  rw [arith_int (by omega) (by omega)]
  simp only [Option.bind_some]
  rw [e]
  simp only [Option.bind_some]
  unfold convert2
  have hp : ∀ i j : Nat, (i : Int) < w → (j : Int) < h → pixelsOf ws ⟨0, k, k * w⟩ k i j = some (img (x + i) (y + j)) := by
    intro i j k1 k2
    unfold pixelsOf
    have := mapM_some_range (fun c : Nat => load ws ((⟨0, k, k * w⟩ : Iter).ptr i j + c)) (img (x + i) (y + j)) (by
      intro c hc
      rw [hl] at hc
      have := u.hit i j c (by omega)
      simp only [load]
      rw [← addr_eq, this]
      rfl)
    rw [hl] at this
    exact this
  obtain ⟨m', e', hc', u'⟩ := putLoop_upd hi (pixel := fun i j => conv (img (x + i) (y + j))) (fun i j _ _ => hc _ (hl _ _))
    (step := fun x y m => (pixelsOf ws ⟨0, k, k * w⟩ k x y).bind fun pixel => put (conv pixel) (it.ptr x y) n 0 m)
    (by
      intro i j m' k1 k2
      rw [hp i j k1 k2]
      rfl) hm
  refine ⟨m', e', hc', u'.congr (fun _ _ _ => Iff.rfl) ?_⟩
  rintro i j c ⟨k1, k2, k3, k4, k5⟩
  simp only [Int.toNat_of_nonneg k1, Int.toNat_of_nonneg k3]

end Verif.ImageReader
