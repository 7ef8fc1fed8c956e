import Verif.ImageIter.Spec
import Verif.Integer.Div
import Mathlib.Tactic.Linarith
import Mathlib.Tactic.Ring
/-!
Lemmas about pixel iterators.
-/
namespace Verif.ImageIter
open Verif.Integer Verif.PixelBox Verif.PixelBox.Spec Spec

variable {α : Type}

/-- The cells in `D` are assigned the contents `v`, and nothing else is modified. -/
structure Upd (it : Iter) (D : Int → Int → Nat → Prop) (v : Int → Int → Nat → Option (Option α)) (m m' : Mem α) : Prop where
  hit : ∀ (x y : Int) (c : Nat), D x y c → m' (addr it x y c) = v x y c
  miss : ∀ a : Int, (∀ (x y : Int) (c : Nat), D x y c → a ≠ addr it x y c) → m' a = m a

/-- Cells of `D` are distinct. -/
def Inj (it : Iter) (D : Int → Int → Nat → Prop) : Prop :=
  ∀ (x y : Int) (c : Nat) (x' y' : Int) (c' : Nat), D x y c → D x' y' c' → addr it x y c = addr it x' y' c' → x = x' ∧ y = y' ∧ c = c'

theorem Upd.refl (it : Iter) (v : Int → Int → Nat → Option (Option α)) (m : Mem α) {D : Int → Int → Nat → Prop}
    (hD : ∀ (x y : Int) (c : Nat), ¬D x y c) : Upd it D v m m :=
  ⟨fun x y c h => absurd h (hD x y c), fun _ _ => rfl⟩

theorem Upd.trans {it : Iter} {D1 D2 D : Int → Int → Nat → Prop} {v : Int → Int → Nat → Option (Option α)} {m m1 m2 : Mem α}
    (h1 : Upd it D1 v m m1) (h2 : Upd it D2 v m1 m2) (hD : ∀ (x y : Int) (c : Nat), D x y c ↔ D1 x y c ∨ D2 x y c) (hi : Inj it D) :
    Upd it D v m m2 := by
  constructor
  · intro x y c h
    by_cases h2D : D2 x y c
    · exact h2.hit x y c h2D
    · have h1D : D1 x y c := ((hD x y c).mp h).resolve_right h2D
      rw [h2.miss, h1.hit x y c h1D]
      intro x' y' c' hd e
      obtain ⟨rfl, rfl, rfl⟩ := hi _ _ _ _ _ _ h ((hD x' y' c').mpr (Or.inr hd)) e
      exact h2D hd
  · intro a ha
    rw [h2.miss a fun x y c h => ha x y c ((hD x y c).mpr (Or.inr h)), h1.miss a fun x y c h => ha x y c ((hD x y c).mpr (Or.inl h))]

theorem Upd.congr {it : Iter} {D D' : Int → Int → Nat → Prop} {v v' : Int → Int → Nat → Option (Option α)} {m m' : Mem α}
    (h : Upd it D v m m') (hD : ∀ (x y : Int) (c : Nat), D' x y c ↔ D x y c)
    (hv : ∀ (x y : Int) (c : Nat), D' x y c → v' x y c = v x y c) : Upd it D' v' m m' :=
  ⟨fun x y c hd => by rw [hv x y c hd]; exact h.hit x y c ((hD x y c).mp hd),
   fun a ha => h.miss a fun x y c hd => ha x y c ((hD x y c).mpr hd)⟩

/-- A later update of other cells. -/
theorem Upd.comp {it : Iter} {D1 D2 D : Int → Int → Nat → Prop} {v1 v2 v : Int → Int → Nat → Option (Option α)} {m m1 m2 : Mem α}
    (h1 : Upd it D1 v1 m m1) (h2 : Upd it D2 v2 m1 m2) (hD : ∀ (x y : Int) (c : Nat), D x y c ↔ D1 x y c ∨ D2 x y c) (hi : Inj it D)
    (hv2 : ∀ (x y : Int) (c : Nat), D2 x y c → v x y c = v2 x y c)
    (hv1 : ∀ (x y : Int) (c : Nat), D1 x y c → ¬D2 x y c → v x y c = v1 x y c) : Upd it D v m m2 := by
  constructor
  · intro x y c h
    by_cases h2D : D2 x y c
    · rw [hv2 x y c h2D]; exact h2.hit x y c h2D
    · have h1D : D1 x y c := ((hD x y c).mp h).resolve_right h2D
      rw [h2.miss, h1.hit x y c h1D, hv1 x y c h1D h2D]
      intro x' y' c' hd e
      obtain ⟨rfl, rfl, rfl⟩ := hi _ _ _ _ _ _ h ((hD x' y' c').mpr (Or.inr hd)) e
      exact h2D hd
  · intro a ha
    rw [h2.miss a fun x y c h => ha x y c ((hD x y c).mpr (Or.inr h)), h1.miss a fun x y c h => ha x y c ((hD x y c).mpr (Or.inl h))]

theorem Inj.mono {it : Iter} {D D' : Int → Int → Nat → Prop} (h : Inj it D) (hs : ∀ (x y : Int) (c : Nat), D' x y c → D x y c) :
    Inj it D' := fun x y c x' y' c' h1 h2 => h x y c x' y' c' (hs _ _ _ h1) (hs _ _ _ h2)

/-- Other cells keep their contents. -/
theorem Upd.other {it : Iter} {D E : Int → Int → Nat → Prop} {v : Int → Int → Nat → Option (Option α)} {m m' : Mem α}
    (h : Upd it D v m m') (hi : Inj it E) (hs : ∀ (x y : Int) (c : Nat), D x y c → E x y c) {x y : Int} {c : Nat} (he : E x y c)
    (hn : ¬D x y c) : m' (addr it x y c) = m (addr it x y c) := by
  apply h.miss
  intro x' y' c' hd e
  obtain ⟨rfl, rfl, rfl⟩ := hi _ _ _ _ _ _ he (hs _ _ _ hd) e
  exact hn hd

/-- The same cells exist. -/
def SameCells (m m' : Mem α) : Prop := ∀ a : Int, m' a = none ↔ m a = none

theorem Upd.sameCells {it : Iter} {D : Int → Int → Nat → Prop} {v : Int → Int → Nat → Option (Option α)} {m m' : Mem α}
    (h : Upd it D v m m') (hm : ∀ (x y : Int) (c : Nat), D x y c → m (addr it x y c) ≠ none)
    (hv : ∀ (x y : Int) (c : Nat), D x y c → v x y c ≠ none) : SameCells m m' := by
  intro a
  by_cases ha : ∃ (x y : Int) (c : Nat), D x y c ∧ a = addr it x y c
  · obtain ⟨x, y, c, hd, rfl⟩ := ha
    rw [h.hit x y c hd]
    exact ⟨fun e => absurd e (hv x y c hd), fun e => absurd e (hm x y c hd)⟩
  · rw [h.miss a fun x y c hd e => ha ⟨x, y, c, hd, e⟩]

/-! ### Loops -/

theorem loopX_upd {it : Iter} {step : Nat → Mem α → Option (Mem α)} {E : Int → Int → Nat → Prop} (hi : Inj it E)
    {v : Int → Int → Nat → Option (Option α)} {dx Y : Int} {C : Nat → Prop} {w : Nat}
    (hE : ∀ (x : Int) (c : Nat), dx ≤ x → x < dx + w → C c → E x Y c) {m0 : Mem α}
    (hs : ∀ (x : Nat) (m : Mem α), x < w → SameCells m0 m →
      (∀ a : Int, (∀ (x' : Int) (c : Nat), dx ≤ x' → x' < dx + w → C c → a ≠ addr it x' Y c) → m a = m0 a) →
      ∃ m1, step x m = some m1 ∧ SameCells m m1 ∧ Upd it (fun x' y' c => x' = dx + x ∧ y' = Y ∧ C c) v m m1) :
    ∀ (k x : Nat) (m : Mem α), x + k = w → SameCells m0 m →
      (∀ a : Int, (∀ (x' : Int) (c : Nat), dx ≤ x' → x' < dx + w → C c → a ≠ addr it x' Y c) → m a = m0 a) →
      ∃ m1, loopX step k x m = some m1 ∧ SameCells m m1 ∧
        Upd it (fun x' y' c => dx + x ≤ x' ∧ x' < dx + w ∧ y' = Y ∧ C c) v m m1 := by
  intro k
  induction k with
  | zero =>
    intro x m hx _ _
    refine ⟨m, rfl, fun _ => Iff.rfl, Upd.refl it v m ?_⟩
    rintro x' y' c ⟨h1, h2, -, -⟩
    omega
  | succ k ih =>
    intro x m hx hsc hm
    obtain ⟨m1, e1, hc1, u1⟩ := hs x m (by omega) hsc hm
    have hm1 : ∀ a : Int, (∀ (x' : Int) (c : Nat), dx ≤ x' → x' < dx + w → C c → a ≠ addr it x' Y c) → m1 a = m0 a := by
      intro a ha
      rw [u1.miss a, hm a ha]
      rintro x' y' c ⟨rfl, rfl, hc⟩
      exact ha _ _ (by omega) (by omega) hc
    obtain ⟨m2, e2, hc2, u2⟩ := ih (x + 1) m1 (by omega) (fun a => (hc1 a).trans (hsc a)) hm1
    refine ⟨m2, by rw [loopX, e1]; exact e2, fun a => (hc2 a).trans (hc1 a), u1.trans u2 ?_ ?_⟩
    · intro x' y' c
      constructor
      · rintro ⟨h1, h2, rfl, hc⟩
        by_cases h : x' = dx + x
        · exact Or.inl ⟨h, rfl, hc⟩
        · exact Or.inr ⟨by push_cast; omega, h2, rfl, hc⟩
      · rintro (⟨rfl, rfl, hc⟩ | ⟨h1, h2, rfl, hc⟩)
        · exact ⟨le_refl _, by omega, rfl, hc⟩
        · exact ⟨by push_cast at h1; omega, h2, rfl, hc⟩
    · apply hi.mono
      rintro x' y' c ⟨h1, h2, rfl, hc⟩
      exact hE x' c (by omega) h2 hc

/-- If each round assigns the specified components of one pixel, then the loops assign those of all the pixels. -/
theorem loopY_upd {it : Iter} {step : Nat → Nat → Mem α → Option (Mem α)} {E : Int → Int → Nat → Prop} (hi : Inj it E)
    {v : Int → Int → Nat → Option (Option α)} {dx dy : Int} {C : Nat → Prop} {w h : Nat}
    (hE : ∀ (x y : Int) (c : Nat), dx ≤ x → x < dx + w → dy ≤ y → y < dy + h → C c → E x y c) {m0 : Mem α}
    (hs : ∀ (x y : Nat) (m : Mem α), x < w → y < h → SameCells m0 m →
      (∀ a : Int, (∀ (x' y' : Int) (c : Nat), dx ≤ x' → x' < dx + w → dy ≤ y' → y' < dy + h → C c → a ≠ addr it x' y' c) → m a = m0 a) →
      ∃ m1, step x y m = some m1 ∧ SameCells m m1 ∧ Upd it (fun x' y' c => x' = dx + x ∧ y' = dy + y ∧ C c) v m m1) :
    ∀ (k y : Nat) (m : Mem α), y + k = h → SameCells m0 m →
      (∀ a : Int, (∀ (x' y' : Int) (c : Nat), dx ≤ x' → x' < dx + w → dy ≤ y' → y' < dy + h → C c → a ≠ addr it x' y' c) → m a = m0 a) →
      ∃ m1, loopY step w k y m = some m1 ∧ SameCells m m1 ∧
        Upd it (fun x' y' c => dx ≤ x' ∧ x' < dx + w ∧ dy + y ≤ y' ∧ y' < dy + h ∧ C c) v m m1 := by
  intro k
  induction k with
  | zero =>
    intro y m hy _ _
    refine ⟨m, rfl, fun _ => Iff.rfl, Upd.refl it v m ?_⟩
    rintro x' y' c ⟨-, -, h1, h2, -⟩
    omega
  | succ k ih =>
    intro y m hy hsc hm
    obtain ⟨m1, e1, hc1, u1⟩ := loopX_upd (it := it) (step := fun x => step x y) (E := E) hi (v := v) (dx := dx) (Y := dy + y) (C := C)
      (w := w) (fun x c h1 h2 hc => hE x _ c h1 h2 (by omega) (by omega) hc) (m0 := m)
      (by
        intro x m' hx hsc' hm'
        refine hs x y m' hx (by omega) (fun a => (hsc' a).trans (hsc a)) ?_
        intro a ha
        rw [hm' a fun x' c h1 h2 hc => ha x' _ c h1 h2 (by omega) (by omega) hc, hm a ha])
      w 0 m (by omega) (fun _ => Iff.rfl) (fun _ _ => rfl)
    have hm1 : ∀ a : Int, (∀ (x' y' : Int) (c : Nat), dx ≤ x' → x' < dx + w → dy ≤ y' → y' < dy + h → C c → a ≠ addr it x' y' c) →
        m1 a = m0 a := by
      intro a ha
      rw [u1.miss a, hm a ha]
      rintro x' y' c ⟨h1, h2, rfl, hc⟩
      exact ha _ _ _ (by push_cast at h1; omega) (by omega) (by omega) (by omega) hc
    obtain ⟨m2, e2, hc2, u2⟩ := ih (y + 1) m1 (by omega) (fun a => (hc1 a).trans (hsc a)) hm1
    refine ⟨m2, by rw [loopY, e1]; exact e2, fun a => (hc2 a).trans (hc1 a), u1.trans u2 ?_ ?_⟩
    · intro x' y' c
      constructor
      · rintro ⟨h1, h2, h3, h4, hc⟩
        by_cases h : y' = dy + y
        · exact Or.inl ⟨by push_cast; omega, h2, h, hc⟩
        · exact Or.inr ⟨h1, h2, by push_cast; omega, h4, hc⟩
      · rintro (⟨h1, h2, rfl, hc⟩ | ⟨h1, h2, h3, h4, hc⟩)
        · exact ⟨by push_cast at h1; omega, h2, le_refl _, by omega, hc⟩
        · exact ⟨h1, h2, by push_cast at h3; omega, h4, hc⟩
    · apply hi.mono
      rintro x' y' c ⟨h1, h2, h3, h4, hc⟩
      exact hE x' y' c h1 h2 (by omega) h4 hc


/-! ### Copying of pixels -/

theorem addr_eq (it : Iter) (x y : Int) (c : Nat) : addr it x y c = it.ptr x y + c := rfl

theorem ptr_plus (it : Iter) (a b x y : Int) : (it.plus a b).ptr x y = it.ptr (x + a) (y + b) := by
  simp only [Iter.plus, Iter.ptr]; ring

theorem ptr_minus (it : Iter) (a b x y : Int) : (it.minus a b).ptr x y = it.ptr (x - a) (y - b) := by
  simp only [Iter.minus, Iter.ptr]; ring

theorem plus_plus (it : Iter) (a b c d : Int) : (it.plus a b).plus c d = it.plus (a + c) (b + d) := by
  simp only [Iter.plus, Iter.mk.injEq, and_self, and_true]; ring

theorem plus_minus (it : Iter) (a b c d : Int) : (it.plus a b).minus c d = it.plus (a - c) (b - d) := by
  simp only [Iter.plus, Iter.minus, Iter.mk.injEq, and_self, and_true]; ring

theorem plus_zero (it : Iter) : it.plus 0 0 = it := by
  simp [Iter.plus]

theorem store_eq {m : Mem α} {a : Int} (v : α) (h : m a ≠ none) :
    store m a v = some (fun b => if b = a then some (some v) else m b) := by
  unfold store
  rw [if_pos (Option.isSome_iff_ne_none.mpr h)]

theorem copyLoop_spec {origin destin : Int} : ∀ (k i : Nat) (m : Mem α),
    (∀ j j' : Nat, j < i + k → j' < i + k → origin + j ≠ destin + j') →
    (∀ j : Nat, i ≤ j → j < i + k → ∃ u, m (origin + j) = some (some u)) →
    (∀ j : Nat, i ≤ j → j < i + k → m (destin + j) ≠ none) →
    ∃ m', copyLoop origin destin k i m = some m' ∧ (∀ j : Nat, i ≤ j → j < i + k → m' (destin + j) = m (origin + j)) ∧
      ∀ a : Int, (∀ j : Nat, i ≤ j → j < i + k → a ≠ destin + j) → m' a = m a := by
  intro k
  induction k with
  | zero => intro i m _ _ _; exact ⟨m, rfl, fun j h1 h2 => by omega, fun _ _ => rfl⟩
  | succ k ih =>
    intro i m hd hv hc
    obtain ⟨u, hu⟩ := hv i (le_refl _) (by omega)
    have hci := hc i (le_refl _) (by omega)
    obtain ⟨m', e, h1, h2⟩ := ih (i + 1) (fun b => if b = destin + i then some (some u) else m b)
      (fun j j' hj hj' => hd j j' (by omega) (by omega))
      (by
        intro j hj1 hj2
        rw [if_neg (hd j i (by omega) (by omega))]
        exact hv j (by omega) (by omega))
      (by
        intro j hj1 hj2
        rw [if_neg (by omega)]
        exact hc j (by omega) (by omega))
    refine ⟨m', ?_, ?_, ?_⟩
    · rw [copyLoop]
      simp only [load, hu, Option.join_some, Option.bind_eq_bind, Option.bind_some, store_eq u hci]
      exact e
    · intro j hj1 hj2
      by_cases h : j = i
      · subst h
        rw [h2 _ (by intro j' _ _; omega), if_pos rfl, hu]
      · rw [h1 j (by omega) (by omega), if_neg (hd j i (by omega) (by omega))]
    · intro a ha
      rw [h2 a fun j hj1 hj2 => ha j (by omega) (by omega), if_neg (ha i (le_refl _) (by omega))]

theorem copy_spec {origin destin : Int} {n : Nat} {m : Mem α}
    (hd : ∀ j j' : Nat, j < n → j' < n → origin + j ≠ destin + j') (hv : ∀ j : Nat, j < n → ∃ u, m (origin + j) = some (some u))
    (hc : ∀ j : Nat, j < n → m (destin + j) ≠ none) :
    ∃ m', copy origin destin n m = some m' ∧ (∀ j : Nat, j < n → m' (destin + j) = m (origin + j)) ∧
      ∀ a : Int, (∀ j : Nat, j < n → a ≠ destin + j) → m' a = m a := by
  obtain ⟨m', e, h1, h2⟩ := copyLoop_spec (origin := origin) (destin := destin) n 0 m (by simpa using hd)
    (fun j _ hj => hv j (by omega)) (fun j _ hj => hc j (by omega))
  refine ⟨m', ?_, fun j hj => h1 j (by omega) (by omega), fun a ha => h2 a fun j _ hj => ha j (by omega)⟩
  unfold copy
  rw [if_neg, e]
  rintro ⟨a, b⟩
  have h := hd (destin - origin).toNat 0 (by omega) (by omega)
  omega

theorem put_spec {pixel : List α} {destin : Int} : ∀ (k i : Nat) (m : Mem α), i + k ≤ pixel.length →
    (∀ j : Nat, i ≤ j → j < i + k → m (destin + j) ≠ none) →
    ∃ m', put pixel destin k i m = some m' ∧ (∀ j : Nat, i ≤ j → j < i + k → m' (destin + j) = some pixel[j]?) ∧
      ∀ a : Int, (∀ j : Nat, i ≤ j → j < i + k → a ≠ destin + j) → m' a = m a := by
  intro k
  induction k with
  | zero => intro i m _ _; exact ⟨m, rfl, fun j h1 h2 => by omega, fun _ _ => rfl⟩
  | succ k ih =>
    intro i m hl hc
    have hci := hc i (le_refl _) (by omega)
    have hil : i < pixel.length := by omega
    obtain ⟨m', e, h1, h2⟩ := ih (i + 1) (fun b => if b = destin + i then some (some pixel[i]) else m b) (by omega)
      (by
        intro j hj1 hj2
        rw [if_neg (by omega)]
        exact hc j (by omega) (by omega))
    refine ⟨m', ?_, ?_, ?_⟩
    · rw [put]
      simp only [List.getElem?_eq_getElem hil, Option.bind_eq_bind, Option.bind_some, store_eq pixel[i] hci]
      exact e
    · intro j hj1 hj2
      by_cases h : j = i
      · subst h
        rw [h2 _ (by intro j' _ _; omega), if_pos rfl, List.getElem?_eq_getElem hil]
      · rw [h1 j (by omega) (by omega)]
    · intro a ha
      rw [h2 a fun j hj1 hj2 => ha j (by omega) (by omega), if_neg (ha i (le_refl _) (by omega))]

/-- Copying of a box of pixels. -/
theorem copyTo_gen {src it : Iter} {E : Int → Int → Nat → Prop} (hi : Inj it E) {n : Nat} {sx sy dx dy w h : Int} {m : Mem α}
    (hS : ∀ (x y : Int) (c : Nat), sx ≤ x → x < sx + w → sy ≤ y → y < sy + h → c < n → ∃ u, m (addr src x y c) = some (some u))
    (hT : ∀ (x y : Int) (c : Nat), dx ≤ x → x < dx + w → dy ≤ y → y < dy + h → c < n → E x y c ∧ m (addr it x y c) ≠ none)
    (hd : ∀ (x y : Int) (c : Nat) (x' y' : Int) (c' : Nat), sx ≤ x → x < sx + w → sy ≤ y → y < sy + h → c < n →
      dx ≤ x' → x' < dx + w → dy ≤ y' → y' < dy + h → c' < n → addr src x y c ≠ addr it x' y' c') :
    ∃ m', (src.plus sx sy).copyTo (it.plus dx dy) w h n m = some m' ∧ SameCells m m' ∧
      Upd it (fun x y c => dx ≤ x ∧ x < dx + w ∧ dy ≤ y ∧ y < dy + h ∧ c < n) (fun x y c => m (addr src (x - dx + sx) (y - dy + sy) c)) m m' := by
  obtain ⟨m', e, hc, u⟩ := loopY_upd (it := it)
    (step := fun x y => copy ((src.plus sx sy).ptr x y) ((it.plus dx dy).ptr x y) n) hi
    (v := fun x y c => m (addr src (x - dx + sx) (y - dy + sy) c)) (dx := dx) (dy := dy) (C := fun c => c < n)
    (w := w.toNat) (h := h.toNat) (fun x y c h1 h2 h3 h4 hc => (hT x y c h1 (by omega) h3 (by omega) hc).1) (m0 := m)
    (by
      intro x y m1 hx hy hsc hm
      have hne : ∀ (x' y' : Int) (c : Nat), sx ≤ x' → x' < sx + w → sy ≤ y' → y' < sy + h → c < n →
          m1 (addr src x' y' c) = m (addr src x' y' c) := by
        intro x' y' c h1 h2 h3 h4 hc
        apply hm
        intro x2 y2 c2 k1 k2 k3 k4 kc e
        exact hd x' y' c x2 y2 c2 h1 h2 h3 h4 hc k1 (by omega) k3 (by omega) kc e
      obtain ⟨m2, e2, a2, b2⟩ := copy_spec (origin := src.ptr (x + sx) (y + sy)) (destin := it.ptr (x + dx) (y + dy)) (n := n) (m := m1)
        (by
          intro j j' hj hj' e
          rw [← addr_eq, ← addr_eq] at e
          exact hd (x + sx) (y + sy) j (x + dx) (y + dy) j' (by omega) (by omega) (by omega) (by omega) hj (by omega) (by omega) (by omega) (by omega) hj' e)
        (by
          intro j hj
          rw [← addr_eq, hne _ _ _ (by omega) (by omega) (by omega) (by omega) hj]
          exact hS _ _ j (by omega) (by omega) (by omega) (by omega) hj)
        (by
          intro j hj
          rw [← addr_eq, Ne, hsc]
          exact (hT _ _ j (by omega) (by omega) (by omega) (by omega) hj).2)
      have hu : Upd it (fun x' y' c => x' = dx + x ∧ y' = dy + y ∧ c < n) (fun x y c => m (addr src (x - dx + sx) (y - dy + sy) c)) m1 m2 := by
        constructor
        · rintro x' y' c ⟨rfl, rfl, hc⟩
          rw [addr_eq, add_comm dx, add_comm dy, a2 c hc, ← addr_eq, hne _ _ _ (by omega) (by omega) (by omega) (by omega) hc]
          congr 2 <;> omega
        · intro a ha
          apply b2
          intro j hj
          rw [add_comm (x : Int) dx, add_comm (y : Int) dy]
          exact ha _ _ j ⟨rfl, rfl, hj⟩
      refine ⟨m2, ?_, hu.sameCells ?_ ?_, hu⟩
      · show copy _ _ _ _ = _
        rw [ptr_plus, ptr_plus]; exact e2
      · rintro x' y' c ⟨rfl, rfl, hc⟩
        rw [Ne, hsc]
        exact (hT _ _ c (by omega) (by omega) (by omega) (by omega) hc).2
      · rintro x' y' c ⟨rfl, rfl, hc⟩
        obtain ⟨u, hu⟩ := hS (x + sx) (y + sy) c (by omega) (by omega) (by omega) (by omega) hc
        intro e
        have : (dx + x - dx + sx : Int) = x + sx := by omega
        have h' : (dy + y - dy + sy : Int) = y + sy := by omega
        rw [this, h', hu] at e
        exact absurd e (by simp))
    h.toNat 0 m (by omega) (fun _ => Iff.rfl) (fun _ _ => rfl)
  refine ⟨m', e, hc, u.congr ?_ (fun _ _ _ _ => rfl)⟩
  intro x y c
  constructor
  · rintro ⟨h1, h2, h3, h4, h5⟩; exact ⟨h1, by omega, by push_cast; omega, by omega, h5⟩
  · rintro ⟨h1, h2, h3, h4, h5⟩; push_cast at h3; exact ⟨h1, by omega, by omega, by omega, h5⟩

/-- Copying of a box of pixels to another box of the same grid. -/
theorem copyTo_upd {it : Iter} {E : Int → Int → Nat → Prop} (hi : Inj it E) {n : Nat} {sx sy dx dy w h : Int} {m : Mem α}
    (hS : ∀ (x y : Int) (c : Nat), sx ≤ x → x < sx + w → sy ≤ y → y < sy + h → c < n → E x y c ∧ ∃ u, m (addr it x y c) = some (some u))
    (hT : ∀ (x y : Int) (c : Nat), dx ≤ x → x < dx + w → dy ≤ y → y < dy + h → c < n → E x y c ∧ m (addr it x y c) ≠ none)
    (hd : ∀ x y : Int, sx ≤ x → x < sx + w → sy ≤ y → y < sy + h → dx ≤ x → x < dx + w → dy ≤ y → y < dy + h → False) :
    ∃ m', (it.plus sx sy).copyTo (it.plus dx dy) w h n m = some m' ∧ SameCells m m' ∧
      Upd it (fun x y c => dx ≤ x ∧ x < dx + w ∧ dy ≤ y ∧ y < dy + h ∧ c < n) (fun x y c => m (addr it (x - dx + sx) (y - dy + sy) c)) m m' := by
  refine copyTo_gen hi (fun x y c h1 h2 h3 h4 hc => (hS x y c h1 h2 h3 h4 hc).2) hT ?_
  intro x y c x' y' c' h1 h2 h3 h4 hc k1 k2 k3 k4 kc e
  obtain ⟨rfl, rfl, rfl⟩ := hi _ _ _ _ _ _ (hS x y c h1 h2 h3 h4 hc).1 (hT x' y' c' k1 k2 k3 k4 kc).1 e
  exact hd x y h1 h2 h3 h4 k1 k2 k3 k4

/-! ### Integer arithmetic -/

theorem arith_int {I : Nat} {v : Int} (h1 : -2 ^ I ≤ v) (h2 : v < 2 ^ I) : arith I (intTy I) v = some v := by
  have hp : promote I (intTy I) = intTy I := by simp [promote, intTy]
  apply arith_ok
  rw [hp]; unfold intTy; rw [In_s]; omega

theorem sub_ok {I : Nat} {a b : Int} (h1 : -2 ^ I ≤ a - b) (h2 : a - b < 2 ^ I) : sub I a b = some (a - b) := arith_int h1 h2

theorem add_ok {I : Nat} {a b : Int} (h1 : -2 ^ I ≤ a + b) (h2 : a + b < 2 ^ I) : add I a b = some (a + b) := arith_int h1 h2

/-- Filling of a box of pixels. -/
theorem fill_upd {I : Nat} {it : Iter} {E : Int → Int → Nat → Prop} (hi : Inj it E) {n : Nat} {area : Box} {pixel : List α} {m : Mem α}
    (hl : n ≤ pixel.length) (hx1 : -2 ^ I ≤ area.x) (hx2 : area.x + area.w ≤ 2 ^ I) (hy1 : -2 ^ I ≤ area.y) (hy2 : area.y + area.h ≤ 2 ^ I)
    (hT : ∀ (x y : Int) (c : Nat), area.x ≤ x → x < area.x + area.w → area.y ≤ y → y < area.y + area.h → c < n →
      E x y c ∧ m (addr it x y c) ≠ none) :
    ∃ m', it.fill I pixel area n m = some m' ∧ SameCells m m' ∧
      Upd it (fun x y c => area.x ≤ x ∧ x < area.x + area.w ∧ area.y ≤ y ∧ y < area.y + area.h ∧ c < n) (fun _ _ c => some pixel[c]?) m m' := by
  obtain ⟨m', e, hc, u⟩ := loopY_upd (it := it) (step := fun x y => fillStep I it pixel area.x area.y n x y) hi
    (v := fun _ _ c => some pixel[c]?) (dx := area.x) (dy := area.y) (C := fun c => c < n)
    (w := area.w.toNat) (h := area.h.toNat) (fun x y c h1 h2 h3 h4 hc => (hT x y c h1 (by omega) h3 (by omega) hc).1) (m0 := m)
    (by
      intro x y m1 hx hy hsc hm
      obtain ⟨m2, e2, a2, b2⟩ := put_spec (pixel := pixel) (destin := it.ptr (area.x + x) (area.y + y)) n 0 m1 (by omega)
        (by
          intro j _ hj
          rw [← addr_eq, Ne, hsc]
          exact (hT _ _ j (by omega) (by omega) (by omega) (by omega) (by omega)).2)
      have hu : Upd it (fun x' y' c => x' = area.x + x ∧ y' = area.y + y ∧ c < n) (fun _ _ c => some pixel[c]?) m1 m2 := by
        constructor
        · rintro x' y' c ⟨rfl, rfl, hc⟩
          rw [addr_eq, a2 c (by omega) (by omega)]
        · intro a ha
          apply b2
          intro j _ hj
          exact ha _ _ j ⟨rfl, rfl, by omega⟩
      refine ⟨m2, ?_, hu.sameCells ?_ ?_, hu⟩
      · show fillStep I it pixel area.x area.y n x y m1 = some m2
        unfold fillStep
        rw [add_ok (by omega) (by omega), add_ok (by omega) (by omega)]
        exact e2
      · rintro x' y' c ⟨rfl, rfl, hc⟩
        rw [Ne, hsc]
        exact (hT _ _ c (by omega) (by omega) (by omega) (by omega) hc).2
      · intro _ _ _ _; simp)
    area.h.toNat 0 m (by omega) (fun _ => Iff.rfl) (fun _ _ => rfl)
  refine ⟨m', e, hc, u.congr ?_ (fun _ _ _ _ => rfl)⟩
  intro x y c
  constructor
  · rintro ⟨h1, h2, h3, h4, h5⟩; exact ⟨h1, by omega, by push_cast; omega, by omega, h5⟩
  · rintro ⟨h1, h2, h3, h4, h5⟩; push_cast at h3; exact ⟨h1, by omega, by omega, by omega, h5⟩

end Verif.ImageIter
