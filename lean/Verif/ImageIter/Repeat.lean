import Verif.ImageIter.Lemmas
import Mathlib.Algebra.Order.Ring.Int
import Mathlib.Tactic.Positivity
/-!
The functions that repeat a pattern.
-/
namespace Verif.ImageIter
open Verif.Integer Verif.PixelBox Verif.PixelBox.Spec Spec

variable {α : Type}

theorem fold_eq {start len v v' : Int} (h1 : start ≤ v') (h2 : v' < start + len) (hd : len ∣ v' - v) : fold start len v = v' := by
  unfold fold
  obtain ⟨k, hk⟩ := hd
  have : v - start = (v' - start) + len * (-k) := by rw [mul_neg, ← hk]; ring
  rw [this, Int.add_mul_emod_self_left, Int.emod_eq_of_lt (by omega) (by omega)]
  ring

theorem repeatLeftLoop_upd {I : Nat} {it : Iter} {E : Int → Int → Nat → Prop} (hi : Inj it E) {n : Nat} {px py pw ph size : Int} (hp : 0 < pw)
    (hsz : size < 2 ^ I) {g : Int → Int → Nat → Option (Option α)}
    (hg : ∀ (x y : Int) (c : Nat), px ≤ x → x < px + pw → py ≤ y → y < py + ph → c < n → E x y c ∧ ∃ u, g x y c = some (some u)) :
    ∀ (fuel : Nat) (offset : Int) (m : Mem α), 0 ≤ offset → offset ≤ size → size - offset < fuel → pw ∣ offset →
      (∀ (x y : Int) (c : Nat), px ≤ x → x < px + pw → py ≤ y → y < py + ph → c < n → m (addr it x y c) = g x y c) →
      (∀ (x y : Int) (c : Nat), px - size ≤ x → x < px → py ≤ y → y < py + ph → c < n → E x y c ∧ m (addr it x y c) ≠ none) →
      ∃ (offset' : Int) (m' : Mem α), repeatLeftLoop I (it.plus px py) pw ph size n fuel offset m = some (offset', m') ∧ SameCells m m' ∧
        offset ≤ offset' ∧ offset' ≤ size ∧ size - offset' < pw ∧ pw ∣ offset' ∧
        Upd it (fun x y c => px - offset' ≤ x ∧ x < px - offset ∧ py ≤ y ∧ y < py + ph ∧ c < n) (fun x y c => g (fold px pw x) y c) m m' := by
  intro fuel
  induction fuel with
  | zero => intro offset m h0 hs hf; omega
  | succ fuel ih =>
    intro offset m h0 hs hf hdvd hP hT
    have h2 : (0 : Int) < 2 ^ I := by positivity
    rw [repeatLeftLoop, sub_ok (by omega) (by omega)]
    simp only [Option.bind_eq_bind, Option.bind_some]
    by_cases hc : size - offset ≥ pw
    · rw [if_pos hc, add_ok (by omega) (by omega)]
      simp only [Option.bind_some]
      obtain ⟨m1, e1, hc1, u1⟩ := copyTo_upd hi (n := n) (sx := px) (sy := py) (dx := px - (offset + pw)) (dy := py) (w := pw) (h := ph) (m := m)
        (fun x y c h1 h2 h3 h4 hc => ⟨(hg x y c h1 h2 h3 h4 hc).1, by rw [hP x y c h1 h2 h3 h4 hc]; exact (hg x y c h1 h2 h3 h4 hc).2⟩)
        (fun x y c h1 h2 h3 h4 hc => hT x y c (by omega) (by omega) (by omega) (by omega) hc)
        (by intro x y; omega)
      have ed : (it.plus px py).minus (offset + pw) 0 = it.plus (px - (offset + pw)) (py) := by
        rw [plus_minus]; congr 1 <;> omega
      rw [ed, e1]
      simp only [Option.bind_some]
      have hP1 : ∀ (x y : Int) (c : Nat), px ≤ x → x < px + pw → py ≤ y → y < py + ph → c < n → m1 (addr it x y c) = g x y c := by
        intro x y c h1 h2 h3 h4 hc
        rw [u1.other hi (fun x' y' c' h => (hT x' y' c' (by omega) (by omega) (by omega) (by omega) h.2.2.2.2).1) (hg x y c h1 h2 h3 h4 hc).1 (by omega),
          hP x y c h1 h2 h3 h4 hc]
      obtain ⟨offset', m', e, hcc, h1, h2, h3, h4, u⟩ := ih (offset + pw) m1 (by omega) (by omega) (by omega) (by
        obtain ⟨k, rfl⟩ := hdvd; exact ⟨k + 1, by ring⟩) hP1 (by
          intro x y c k1 k2 k3 k4 kc
          rw [Ne, hc1]
          exact hT x y c k1 k2 k3 k4 kc)
      refine ⟨offset', m', e, fun a => (hcc a).trans (hc1 a), by omega, h2, h3, h4, u1.comp u ?_ ?_ (fun _ _ _ _ => rfl) ?_⟩
      · intro x y c; omega
      · refine hi.mono ?_
        rintro x y c ⟨k1, k2, k3, k4, kc⟩
        exact (hT x y c (by omega) (by omega) (by omega) (by omega) kc).1
      · rintro x y c ⟨k1, k2, k3, k4, kc⟩ _
        rw [hP _ _ _ (by omega) (by omega) (by omega) (by omega) kc]
        rw [fold_eq (start := px) (len := pw) (v := x) (v' := x + (offset + pw)) (by omega) (by omega) (by
          obtain ⟨k, hk⟩ := hdvd
          exact ⟨k + 1, by rw [hk]; ring⟩)]
        congr 1 <;> omega
    · rw [if_neg hc]
      refine ⟨offset, m, rfl, fun _ => Iff.rfl, le_refl _, hs, by omega, hdvd, Upd.refl it _ m ?_⟩
      intro x y c; omega

theorem repeatLeft_upd {I : Nat} {it : Iter} {E : Int → Int → Nat → Prop} (hi : Inj it E) {n : Nat} {px py pw ph size : Int} (hp : 0 < pw)
    (hs0 : 0 ≤ size) (hsz : size + pw < 2 ^ I) (hx1 : -2 ^ I ≤ px) (hx2 : px < 2 ^ I) (hy1 : -2 ^ I ≤ py) (hy2 : py < 2 ^ I) {m : Mem α}
    (hP : ∀ (x y : Int) (c : Nat), px ≤ x → x < px + pw → py ≤ y → y < py + ph → c < n → E x y c ∧ ∃ u, m (addr it x y c) = some (some u))
    (hT : ∀ (x y : Int) (c : Nat), px - size ≤ x → x < px → py ≤ y → y < py + ph → c < n → E x y c ∧ m (addr it x y c) ≠ none) :
    ∃ m', it.repeatLeft I ⟨px, py, pw, ph⟩ size n m = some m' ∧ SameCells m m' ∧
      Upd it (fun x y c => px - size ≤ x ∧ x < px ∧ py ≤ y ∧ y < py + ph ∧ c < n) (fun x y c => m (addr it (fold px pw x) y c)) m m' := by
  have h2 : (0 : Int) < 2 ^ I := by positivity
  unfold Iter.repeatLeft
  rw [if_pos ⟨hp, hs0⟩, sub_ok (by show _ ≤ px - 0; omega) (by show px - 0 < _; omega), sub_ok (by show _ ≤ py - 0; omega) (by show py - 0 < _; omega)]
  simp only [Option.bind_eq_bind, Option.bind_some, sub_zero]
  obtain ⟨offset, m1, e1, hc1, k1, k2, k3, k4, u1⟩ := repeatLeftLoop_upd (I := I) hi (n := n) (px := px) (py := py) (pw := pw) (ph := ph) (size := size) hp (by omega)
    (g := fun x y c => m (addr it x y c)) hP (size.toNat + 1) 0 m (le_refl _) hs0 (by push_cast; omega) (dvd_zero _) (fun _ _ _ _ _ _ _ _ => rfl) hT
  rw [e1]
  simp only [Option.bind_some]
  rw [sub_ok (by omega) (by omega)]
  simp only [Option.bind_some]
  rw [sub_ok (by omega) (by omega)]
  simp only [Option.bind_some]
  have hP1 : ∀ (x y : Int) (c : Nat), px ≤ x → x < px + pw → py ≤ y → y < py + ph → c < n → m1 (addr it x y c) = m (addr it x y c) := by
    intro x y c h1 h2 h3 h4 hc
    exact u1.other hi (fun x' y' c' h => (hT x' y' c' (by omega) (by omega) (by omega) (by omega) h.2.2.2.2).1) (hP x y c h1 h2 h3 h4 hc).1 (by omega)
  obtain ⟨m2, e2, hc2, u2⟩ := copyTo_upd hi (n := n) (sx := px + (pw - (size - offset))) (sy := py) (dx := px - size) (dy := py) (w := size - offset) (h := ph) (m := m1)
    (fun x y c h1 h2 h3 h4 hc => by
      rw [hP1 x y c (by omega) (by omega) (by omega) (by omega) hc]
      exact hP x y c (by omega) (by omega) (by omega) (by omega) hc)
    (fun x y c h1 h2 h3 h4 hc => by
      rw [Ne, hc1]
      exact hT x y c (by omega) (by omega) (by omega) (by omega) hc)
    (by intro x y; omega)
  have es : ((it.plus px py).plus (pw - (size - offset)) 0) = it.plus (px + (pw - (size - offset))) (py) := by
    rw [plus_plus]; congr 1; omega
  have ed : (it.plus px py).minus size 0 = it.plus (px - size) (py) := by
    rw [plus_minus]; congr 1 <;> omega
  rw [es, ed, e2]
  refine ⟨m2, rfl, fun a => (hc2 a).trans (hc1 a), u1.comp u2 ?_ ?_ ?_ ?_⟩
  · intro x y c; omega
  · refine hi.mono ?_
    rintro x y c ⟨h1, h2, h3, h4, hc⟩
    exact (hT x y c (by omega) (by omega) (by omega) (by omega) hc).1
  · rintro x y c ⟨h1, h2, h3, h4, hc⟩
    rw [hP1 _ _ _ (by omega) (by omega) (by omega) (by omega) hc]
    rw [fold_eq (start := px) (len := pw) (v := x) (v' := x + (offset + pw)) (by omega) (by omega) (by
      obtain ⟨k, hk⟩ := k4
      exact ⟨k + 1, by rw [hk]; ring⟩)]
    congr 2 <;> omega
  · intro _ _ _ _ _; rfl

theorem repeatRightLoop_upd {I : Nat} {it : Iter} {E : Int → Int → Nat → Prop} (hi : Inj it E) {n : Nat} {px py pw ph size : Int} (hp : 0 < pw)
    (hsz : size < 2 ^ I) {g : Int → Int → Nat → Option (Option α)}
    (hg : ∀ (x y : Int) (c : Nat), px ≤ x → x < px + pw → py ≤ y → y < py + ph → c < n → E x y c ∧ ∃ u, g x y c = some (some u)) :
    ∀ (fuel : Nat) (offset : Int) (m : Mem α), 0 ≤ offset → offset ≤ size → size - offset < fuel → pw ∣ offset →
      (∀ (x y : Int) (c : Nat), px ≤ x → x < px + pw → py ≤ y → y < py + ph → c < n → m (addr it x y c) = g x y c) →
      (∀ (x y : Int) (c : Nat), px + pw ≤ x → x < px + pw + size → py ≤ y → y < py + ph → c < n → E x y c ∧ m (addr it x y c) ≠ none) →
      ∃ (offset' : Int) (m' : Mem α), repeatRightLoop I (it.plus px py) pw ph size n fuel offset m = some (offset', m') ∧ SameCells m m' ∧
        offset ≤ offset' ∧ offset' ≤ size ∧ size - offset' < pw ∧ pw ∣ offset' ∧
        Upd it (fun x y c => px + pw + offset ≤ x ∧ x < px + pw + offset' ∧ py ≤ y ∧ y < py + ph ∧ c < n) (fun x y c => g (fold px pw x) y c) m m' := by
  intro fuel
  induction fuel with
  | zero => intro offset m h0 hs hf; omega
  | succ fuel ih =>
    intro offset m h0 hs hf hdvd hP hT
    have h2 : (0 : Int) < 2 ^ I := by positivity
    rw [repeatRightLoop, sub_ok (by omega) (by omega)]
    simp only [Option.bind_eq_bind, Option.bind_some]
    by_cases hc : size - offset ≥ pw
    · rw [if_pos hc, add_ok (by omega) (by omega)]
      simp only [Option.bind_some]
      obtain ⟨m1, e1, hc1, u1⟩ := copyTo_upd hi (n := n) (sx := px) (sy := py) (dx := px + (offset + pw)) (dy := py) (w := pw) (h := ph) (m := m)
        (fun x y c h1 h2 h3 h4 hc => ⟨(hg x y c h1 h2 h3 h4 hc).1, by rw [hP x y c h1 h2 h3 h4 hc]; exact (hg x y c h1 h2 h3 h4 hc).2⟩)
        (fun x y c h1 h2 h3 h4 hc => hT x y c (by omega) (by omega) (by omega) (by omega) hc)
        (by intro x y; omega)
      have ed : (it.plus px py).plus (offset + pw) 0 = it.plus (px + (offset + pw)) (py) := by
        rw [plus_plus]; congr 1 <;> omega
      rw [ed, e1]
      simp only [Option.bind_some]
      have hP1 : ∀ (x y : Int) (c : Nat), px ≤ x → x < px + pw → py ≤ y → y < py + ph → c < n → m1 (addr it x y c) = g x y c := by
        intro x y c h1 h2 h3 h4 hc
        rw [u1.other hi (fun x' y' c' h => (hT x' y' c' (by omega) (by omega) (by omega) (by omega) h.2.2.2.2).1) (hg x y c h1 h2 h3 h4 hc).1 (by omega),
          hP x y c h1 h2 h3 h4 hc]
      obtain ⟨offset', m', e, hcc, h1, h2, h3, h4, u⟩ := ih (offset + pw) m1 (by omega) (by omega) (by omega) (by
        obtain ⟨k, rfl⟩ := hdvd; exact ⟨k + 1, by ring⟩) hP1 (by
          intro x y c k1 k2 k3 k4 kc
          rw [Ne, hc1]
          exact hT x y c k1 k2 k3 k4 kc)
      refine ⟨offset', m', e, fun a => (hcc a).trans (hc1 a), by omega, h2, h3, h4, u1.comp u ?_ ?_ (fun _ _ _ _ => rfl) ?_⟩
      · intro x y c; omega
      · refine hi.mono ?_
        rintro x y c ⟨k1, k2, k3, k4, kc⟩
        exact (hT x y c (by omega) (by omega) (by omega) (by omega) kc).1
      · rintro x y c ⟨k1, k2, k3, k4, kc⟩ _
        rw [hP _ _ _ (by omega) (by omega) (by omega) (by omega) kc]
        rw [fold_eq (start := px) (len := pw) (v := x) (v' := x - (offset + pw)) (by omega) (by omega) (by
          obtain ⟨k, hk⟩ := hdvd
          exact ⟨-(k + 1), by rw [hk]; ring⟩)]
        congr 1 <;> omega
    · rw [if_neg hc]
      refine ⟨offset, m, rfl, fun _ => Iff.rfl, le_refl _, hs, by omega, hdvd, Upd.refl it _ m ?_⟩
      intro x y c; omega

theorem repeatRight_upd {I : Nat} {it : Iter} {E : Int → Int → Nat → Prop} (hi : Inj it E) {n : Nat} {px py pw ph size : Int} (hp : 0 < pw)
    (hs0 : 0 ≤ size) (hsz : size + pw < 2 ^ I) (hx1 : -2 ^ I ≤ px) (hx2 : px < 2 ^ I) (hy1 : -2 ^ I ≤ py) (hy2 : py < 2 ^ I) {m : Mem α}
    (hP : ∀ (x y : Int) (c : Nat), px ≤ x → x < px + pw → py ≤ y → y < py + ph → c < n → E x y c ∧ ∃ u, m (addr it x y c) = some (some u))
    (hT : ∀ (x y : Int) (c : Nat), px + pw ≤ x → x < px + pw + size → py ≤ y → y < py + ph → c < n → E x y c ∧ m (addr it x y c) ≠ none) :
    ∃ m', it.repeatRight I ⟨px, py, pw, ph⟩ size n m = some m' ∧ SameCells m m' ∧
      Upd it (fun x y c => px + pw ≤ x ∧ x < px + pw + size ∧ py ≤ y ∧ y < py + ph ∧ c < n) (fun x y c => m (addr it (fold px pw x) y c)) m m' := by
  have h2 : (0 : Int) < 2 ^ I := by positivity
  unfold Iter.repeatRight
  rw [if_pos ⟨hp, hs0⟩, sub_ok (by show _ ≤ px - 0; omega) (by show px - 0 < _; omega), sub_ok (by show _ ≤ py - 0; omega) (by show py - 0 < _; omega)]
  simp only [Option.bind_eq_bind, Option.bind_some, sub_zero]
  obtain ⟨offset, m1, e1, hc1, k1, k2, k3, k4, u1⟩ := repeatRightLoop_upd (I := I) hi (n := n) (px := px) (py := py) (pw := pw) (ph := ph) (size := size) hp (by omega)
    (g := fun x y c => m (addr it x y c)) hP (size.toNat + 1) 0 m (le_refl _) hs0 (by push_cast; omega) (dvd_zero _) (fun _ _ _ _ _ _ _ _ => rfl) hT
  rw [e1]
  simp only [Option.bind_some]
  rw [sub_ok (by omega) (by omega)]
  simp only [Option.bind_some]
  rw [add_ok (by omega) (by omega)]
  simp only [Option.bind_some]
  have hP1 : ∀ (x y : Int) (c : Nat), px ≤ x → x < px + pw → py ≤ y → y < py + ph → c < n → m1 (addr it x y c) = m (addr it x y c) := by
    intro x y c h1 h2 h3 h4 hc
    exact u1.other hi (fun x' y' c' h => (hT x' y' c' (by omega) (by omega) (by omega) (by omega) h.2.2.2.2).1) (hP x y c h1 h2 h3 h4 hc).1 (by omega)
  obtain ⟨m2, e2, hc2, u2⟩ := copyTo_upd hi (n := n) (sx := px) (sy := py) (dx := px + (offset + pw)) (dy := py) (w := size - offset) (h := ph) (m := m1)
    (fun x y c h1 h2 h3 h4 hc => by
      rw [hP1 x y c (by omega) (by omega) (by omega) (by omega) hc]
      exact hP x y c (by omega) (by omega) (by omega) (by omega) hc)
    (fun x y c h1 h2 h3 h4 hc => by
      rw [Ne, hc1]
      exact hT x y c (by omega) (by omega) (by omega) (by omega) hc)
    (by intro x y; omega)
  have es : (it.plus px py) = it.plus (px) (py) := by
    rfl
  have ed : (it.plus px py).plus (offset + pw) 0 = it.plus (px + (offset + pw)) (py) := by
    rw [plus_plus]; congr 1 <;> omega
  rw [es, ed, e2]
  refine ⟨m2, rfl, fun a => (hc2 a).trans (hc1 a), u1.comp u2 ?_ ?_ ?_ ?_⟩
  · intro x y c; omega
  · refine hi.mono ?_
    rintro x y c ⟨h1, h2, h3, h4, hc⟩
    exact (hT x y c (by omega) (by omega) (by omega) (by omega) hc).1
  · rintro x y c ⟨h1, h2, h3, h4, hc⟩
    rw [hP1 _ _ _ (by omega) (by omega) (by omega) (by omega) hc]
    rw [fold_eq (start := px) (len := pw) (v := x) (v' := x - (offset + pw)) (by omega) (by omega) (by
      obtain ⟨k, hk⟩ := k4
      exact ⟨-(k + 1), by rw [hk]; ring⟩)]
    congr 2 <;> omega
  · intro _ _ _ _ _; rfl

theorem repeatUpLoop_upd {I : Nat} {it : Iter} {E : Int → Int → Nat → Prop} (hi : Inj it E) {n : Nat} {px py pw ph size : Int} (hp : 0 < ph)
    (hsz : size < 2 ^ I) {g : Int → Int → Nat → Option (Option α)}
    (hg : ∀ (x y : Int) (c : Nat), px ≤ x → x < px + pw → py ≤ y → y < py + ph → c < n → E x y c ∧ ∃ u, g x y c = some (some u)) :
    ∀ (fuel : Nat) (offset : Int) (m : Mem α), 0 ≤ offset → offset ≤ size → size - offset < fuel → ph ∣ offset →
      (∀ (x y : Int) (c : Nat), px ≤ x → x < px + pw → py ≤ y → y < py + ph → c < n → m (addr it x y c) = g x y c) →
      (∀ (x y : Int) (c : Nat), px ≤ x → x < px + pw → py - size ≤ y → y < py → c < n → E x y c ∧ m (addr it x y c) ≠ none) →
      ∃ (offset' : Int) (m' : Mem α), repeatUpLoop I (it.plus px py) pw ph size n fuel offset m = some (offset', m') ∧ SameCells m m' ∧
        offset ≤ offset' ∧ offset' ≤ size ∧ size - offset' < ph ∧ ph ∣ offset' ∧
        Upd it (fun x y c => px ≤ x ∧ x < px + pw ∧ py - offset' ≤ y ∧ y < py - offset ∧ c < n) (fun x y c => g x (fold py ph y) c) m m' := by
  intro fuel
  induction fuel with
  | zero => intro offset m h0 hs hf; omega
  | succ fuel ih =>
    intro offset m h0 hs hf hdvd hP hT
    have h2 : (0 : Int) < 2 ^ I := by positivity
    rw [repeatUpLoop, sub_ok (by omega) (by omega)]
    simp only [Option.bind_eq_bind, Option.bind_some]
    by_cases hc : size - offset ≥ ph
    · rw [if_pos hc, add_ok (by omega) (by omega)]
      simp only [Option.bind_some]
      obtain ⟨m1, e1, hc1, u1⟩ := copyTo_upd hi (n := n) (sx := px) (sy := py) (dx := px) (dy := py - (offset + ph)) (w := pw) (h := ph) (m := m)
        (fun x y c h1 h2 h3 h4 hc => ⟨(hg x y c h1 h2 h3 h4 hc).1, by rw [hP x y c h1 h2 h3 h4 hc]; exact (hg x y c h1 h2 h3 h4 hc).2⟩)
        (fun x y c h1 h2 h3 h4 hc => hT x y c (by omega) (by omega) (by omega) (by omega) hc)
        (by intro x y; omega)
      have ed : (it.plus px py).minus 0 (offset + ph) = it.plus (px) (py - (offset + ph)) := by
        rw [plus_minus]; congr 1 <;> omega
      rw [ed, e1]
      simp only [Option.bind_some]
      have hP1 : ∀ (x y : Int) (c : Nat), px ≤ x → x < px + pw → py ≤ y → y < py + ph → c < n → m1 (addr it x y c) = g x y c := by
        intro x y c h1 h2 h3 h4 hc
        rw [u1.other hi (fun x' y' c' h => (hT x' y' c' (by omega) (by omega) (by omega) (by omega) h.2.2.2.2).1) (hg x y c h1 h2 h3 h4 hc).1 (by omega),
          hP x y c h1 h2 h3 h4 hc]
      obtain ⟨offset', m', e, hcc, h1, h2, h3, h4, u⟩ := ih (offset + ph) m1 (by omega) (by omega) (by omega) (by
        obtain ⟨k, rfl⟩ := hdvd; exact ⟨k + 1, by ring⟩) hP1 (by
          intro x y c k1 k2 k3 k4 kc
          rw [Ne, hc1]
          exact hT x y c k1 k2 k3 k4 kc)
      refine ⟨offset', m', e, fun a => (hcc a).trans (hc1 a), by omega, h2, h3, h4, u1.comp u ?_ ?_ (fun _ _ _ _ => rfl) ?_⟩
      · intro x y c; omega
      · refine hi.mono ?_
        rintro x y c ⟨k1, k2, k3, k4, kc⟩
        exact (hT x y c (by omega) (by omega) (by omega) (by omega) kc).1
      · rintro x y c ⟨k1, k2, k3, k4, kc⟩ _
        rw [hP _ _ _ (by omega) (by omega) (by omega) (by omega) kc]
        rw [fold_eq (start := py) (len := ph) (v := y) (v' := y + (offset + ph)) (by omega) (by omega) (by
          obtain ⟨k, hk⟩ := hdvd
          exact ⟨k + 1, by rw [hk]; ring⟩)]
        congr 1 <;> omega
    · rw [if_neg hc]
      refine ⟨offset, m, rfl, fun _ => Iff.rfl, le_refl _, hs, by omega, hdvd, Upd.refl it _ m ?_⟩
      intro x y c; omega

theorem repeatUp_upd {I : Nat} {it : Iter} {E : Int → Int → Nat → Prop} (hi : Inj it E) {n : Nat} {px py pw ph size : Int} (hp : 0 < ph)
    (hs0 : 0 ≤ size) (hsz : size + ph < 2 ^ I) (hx1 : -2 ^ I ≤ px) (hx2 : px < 2 ^ I) (hy1 : -2 ^ I ≤ py) (hy2 : py < 2 ^ I) {m : Mem α}
    (hP : ∀ (x y : Int) (c : Nat), px ≤ x → x < px + pw → py ≤ y → y < py + ph → c < n → E x y c ∧ ∃ u, m (addr it x y c) = some (some u))
    (hT : ∀ (x y : Int) (c : Nat), px ≤ x → x < px + pw → py - size ≤ y → y < py → c < n → E x y c ∧ m (addr it x y c) ≠ none) :
    ∃ m', it.repeatUp I ⟨px, py, pw, ph⟩ size n m = some m' ∧ SameCells m m' ∧
      Upd it (fun x y c => px ≤ x ∧ x < px + pw ∧ py - size ≤ y ∧ y < py ∧ c < n) (fun x y c => m (addr it x (fold py ph y) c)) m m' := by
  have h2 : (0 : Int) < 2 ^ I := by positivity
  unfold Iter.repeatUp
  rw [if_pos ⟨hp, hs0⟩, sub_ok (by show _ ≤ px - 0; omega) (by show px - 0 < _; omega), sub_ok (by show _ ≤ py - 0; omega) (by show py - 0 < _; omega)]
  simp only [Option.bind_eq_bind, Option.bind_some, sub_zero]
  obtain ⟨offset, m1, e1, hc1, k1, k2, k3, k4, u1⟩ := repeatUpLoop_upd (I := I) hi (n := n) (px := px) (py := py) (pw := pw) (ph := ph) (size := size) hp (by omega)
    (g := fun x y c => m (addr it x y c)) hP (size.toNat + 1) 0 m (le_refl _) hs0 (by push_cast; omega) (dvd_zero _) (fun _ _ _ _ _ _ _ _ => rfl) hT
  rw [e1]
  simp only [Option.bind_some]
  rw [sub_ok (by omega) (by omega)]
  simp only [Option.bind_some]
  rw [sub_ok (by omega) (by omega)]
  simp only [Option.bind_some]
  have hP1 : ∀ (x y : Int) (c : Nat), px ≤ x → x < px + pw → py ≤ y → y < py + ph → c < n → m1 (addr it x y c) = m (addr it x y c) := by
    intro x y c h1 h2 h3 h4 hc
    exact u1.other hi (fun x' y' c' h => (hT x' y' c' (by omega) (by omega) (by omega) (by omega) h.2.2.2.2).1) (hP x y c h1 h2 h3 h4 hc).1 (by omega)
  obtain ⟨m2, e2, hc2, u2⟩ := copyTo_upd hi (n := n) (sx := px) (sy := py + (ph - (size - offset))) (dx := px) (dy := py - size) (w := pw) (h := size - offset) (m := m1)
    (fun x y c h1 h2 h3 h4 hc => by
      rw [hP1 x y c (by omega) (by omega) (by omega) (by omega) hc]
      exact hP x y c (by omega) (by omega) (by omega) (by omega) hc)
    (fun x y c h1 h2 h3 h4 hc => by
      rw [Ne, hc1]
      exact hT x y c (by omega) (by omega) (by omega) (by omega) hc)
    (by intro x y; omega)
  have es : ((it.plus px py).plus 0 (ph - (size - offset))) = it.plus (px) (py + (ph - (size - offset))) := by
    rw [plus_plus]; congr 1; omega
  have ed : (it.plus px py).minus 0 size = it.plus (px) (py - size) := by
    rw [plus_minus]; congr 1 <;> omega
  rw [es, ed, e2]
  refine ⟨m2, rfl, fun a => (hc2 a).trans (hc1 a), u1.comp u2 ?_ ?_ ?_ ?_⟩
  · intro x y c; omega
  · refine hi.mono ?_
    rintro x y c ⟨h1, h2, h3, h4, hc⟩
    exact (hT x y c (by omega) (by omega) (by omega) (by omega) hc).1
  · rintro x y c ⟨h1, h2, h3, h4, hc⟩
    rw [hP1 _ _ _ (by omega) (by omega) (by omega) (by omega) hc]
    rw [fold_eq (start := py) (len := ph) (v := y) (v' := y + (offset + ph)) (by omega) (by omega) (by
      obtain ⟨k, hk⟩ := k4
      exact ⟨k + 1, by rw [hk]; ring⟩)]
    congr 2 <;> omega
  · intro _ _ _ _ _; rfl

theorem repeatDownLoop_upd {I : Nat} {it : Iter} {E : Int → Int → Nat → Prop} (hi : Inj it E) {n : Nat} {px py pw ph size : Int} (hp : 0 < ph)
    (hsz : size < 2 ^ I) {g : Int → Int → Nat → Option (Option α)}
    (hg : ∀ (x y : Int) (c : Nat), px ≤ x → x < px + pw → py ≤ y → y < py + ph → c < n → E x y c ∧ ∃ u, g x y c = some (some u)) :
    ∀ (fuel : Nat) (offset : Int) (m : Mem α), 0 ≤ offset → offset ≤ size → size - offset < fuel → ph ∣ offset →
      (∀ (x y : Int) (c : Nat), px ≤ x → x < px + pw → py ≤ y → y < py + ph → c < n → m (addr it x y c) = g x y c) →
      (∀ (x y : Int) (c : Nat), px ≤ x → x < px + pw → py + ph ≤ y → y < py + ph + size → c < n → E x y c ∧ m (addr it x y c) ≠ none) →
      ∃ (offset' : Int) (m' : Mem α), repeatDownLoop I (it.plus px py) pw ph size n fuel offset m = some (offset', m') ∧ SameCells m m' ∧
        offset ≤ offset' ∧ offset' ≤ size ∧ size - offset' < ph ∧ ph ∣ offset' ∧
        Upd it (fun x y c => px ≤ x ∧ x < px + pw ∧ py + ph + offset ≤ y ∧ y < py + ph + offset' ∧ c < n) (fun x y c => g x (fold py ph y) c) m m' := by
  intro fuel
  induction fuel with
  | zero => intro offset m h0 hs hf; omega
  | succ fuel ih =>
    intro offset m h0 hs hf hdvd hP hT
    have h2 : (0 : Int) < 2 ^ I := by positivity
    rw [repeatDownLoop, sub_ok (by omega) (by omega)]
    simp only [Option.bind_eq_bind, Option.bind_some]
    by_cases hc : size - offset ≥ ph
    · rw [if_pos hc, add_ok (by omega) (by omega)]
      simp only [Option.bind_some]
      obtain ⟨m1, e1, hc1, u1⟩ := copyTo_upd hi (n := n) (sx := px) (sy := py) (dx := px) (dy := py + (offset + ph)) (w := pw) (h := ph) (m := m)
        (fun x y c h1 h2 h3 h4 hc => ⟨(hg x y c h1 h2 h3 h4 hc).1, by rw [hP x y c h1 h2 h3 h4 hc]; exact (hg x y c h1 h2 h3 h4 hc).2⟩)
        (fun x y c h1 h2 h3 h4 hc => hT x y c (by omega) (by omega) (by omega) (by omega) hc)
        (by intro x y; omega)
      have ed : (it.plus px py).plus 0 (offset + ph) = it.plus (px) (py + (offset + ph)) := by
        rw [plus_plus]; congr 1 <;> omega
      rw [ed, e1]
      simp only [Option.bind_some]
      have hP1 : ∀ (x y : Int) (c : Nat), px ≤ x → x < px + pw → py ≤ y → y < py + ph → c < n → m1 (addr it x y c) = g x y c := by
        intro x y c h1 h2 h3 h4 hc
        rw [u1.other hi (fun x' y' c' h => (hT x' y' c' (by omega) (by omega) (by omega) (by omega) h.2.2.2.2).1) (hg x y c h1 h2 h3 h4 hc).1 (by omega),
          hP x y c h1 h2 h3 h4 hc]
      obtain ⟨offset', m', e, hcc, h1, h2, h3, h4, u⟩ := ih (offset + ph) m1 (by omega) (by omega) (by omega) (by
        obtain ⟨k, rfl⟩ := hdvd; exact ⟨k + 1, by ring⟩) hP1 (by
          intro x y c k1 k2 k3 k4 kc
          rw [Ne, hc1]
          exact hT x y c k1 k2 k3 k4 kc)
      refine ⟨offset', m', e, fun a => (hcc a).trans (hc1 a), by omega, h2, h3, h4, u1.comp u ?_ ?_ (fun _ _ _ _ => rfl) ?_⟩
      · intro x y c; omega
      · refine hi.mono ?_
        rintro x y c ⟨k1, k2, k3, k4, kc⟩
        exact (hT x y c (by omega) (by omega) (by omega) (by omega) kc).1
      · rintro x y c ⟨k1, k2, k3, k4, kc⟩ _
        rw [hP _ _ _ (by omega) (by omega) (by omega) (by omega) kc]
        rw [fold_eq (start := py) (len := ph) (v := y) (v' := y - (offset + ph)) (by omega) (by omega) (by
          obtain ⟨k, hk⟩ := hdvd
          exact ⟨-(k + 1), by rw [hk]; ring⟩)]
        congr 1 <;> omega
    · rw [if_neg hc]
      refine ⟨offset, m, rfl, fun _ => Iff.rfl, le_refl _, hs, by omega, hdvd, Upd.refl it _ m ?_⟩
      intro x y c; omega

theorem repeatDown_upd {I : Nat} {it : Iter} {E : Int → Int → Nat → Prop} (hi : Inj it E) {n : Nat} {px py pw ph size : Int} (hp : 0 < ph)
    (hs0 : 0 ≤ size) (hsz : size + ph < 2 ^ I) (hx1 : -2 ^ I ≤ px) (hx2 : px < 2 ^ I) (hy1 : -2 ^ I ≤ py) (hy2 : py < 2 ^ I) {m : Mem α}
    (hP : ∀ (x y : Int) (c : Nat), px ≤ x → x < px + pw → py ≤ y → y < py + ph → c < n → E x y c ∧ ∃ u, m (addr it x y c) = some (some u))
    (hT : ∀ (x y : Int) (c : Nat), px ≤ x → x < px + pw → py + ph ≤ y → y < py + ph + size → c < n → E x y c ∧ m (addr it x y c) ≠ none) :
    ∃ m', it.repeatDown I ⟨px, py, pw, ph⟩ size n m = some m' ∧ SameCells m m' ∧
      Upd it (fun x y c => px ≤ x ∧ x < px + pw ∧ py + ph ≤ y ∧ y < py + ph + size ∧ c < n) (fun x y c => m (addr it x (fold py ph y) c)) m m' := by
  have h2 : (0 : Int) < 2 ^ I := by positivity
  unfold Iter.repeatDown
  rw [if_pos ⟨hp, hs0⟩, sub_ok (by show _ ≤ px - 0; omega) (by show px - 0 < _; omega), sub_ok (by show _ ≤ py - 0; omega) (by show py - 0 < _; omega)]
  simp only [Option.bind_eq_bind, Option.bind_some, sub_zero]
  obtain ⟨offset, m1, e1, hc1, k1, k2, k3, k4, u1⟩ := repeatDownLoop_upd (I := I) hi (n := n) (px := px) (py := py) (pw := pw) (ph := ph) (size := size) hp (by omega)
    (g := fun x y c => m (addr it x y c)) hP (size.toNat + 1) 0 m (le_refl _) hs0 (by push_cast; omega) (dvd_zero _) (fun _ _ _ _ _ _ _ _ => rfl) hT
  rw [e1]
  simp only [Option.bind_some]
  rw [sub_ok (by omega) (by omega)]
  simp only [Option.bind_some]
  rw [add_ok (by omega) (by omega)]
  simp only [Option.bind_some]
  have hP1 : ∀ (x y : Int) (c : Nat), px ≤ x → x < px + pw → py ≤ y → y < py + ph → c < n → m1 (addr it x y c) = m (addr it x y c) := by
    intro x y c h1 h2 h3 h4 hc
    exact u1.other hi (fun x' y' c' h => (hT x' y' c' (by omega) (by omega) (by omega) (by omega) h.2.2.2.2).1) (hP x y c h1 h2 h3 h4 hc).1 (by omega)
  obtain ⟨m2, e2, hc2, u2⟩ := copyTo_upd hi (n := n) (sx := px) (sy := py) (dx := px) (dy := py + (offset + ph)) (w := pw) (h := size - offset) (m := m1)
    (fun x y c h1 h2 h3 h4 hc => by
      rw [hP1 x y c (by omega) (by omega) (by omega) (by omega) hc]
      exact hP x y c (by omega) (by omega) (by omega) (by omega) hc)
    (fun x y c h1 h2 h3 h4 hc => by
      rw [Ne, hc1]
      exact hT x y c (by omega) (by omega) (by omega) (by omega) hc)
    (by intro x y; omega)
  have es : (it.plus px py) = it.plus (px) (py) := by
    rfl
  have ed : (it.plus px py).plus 0 (offset + ph) = it.plus (px) (py + (offset + ph)) := by
    rw [plus_plus]; congr 1 <;> omega
  rw [es, ed, e2]
  refine ⟨m2, rfl, fun a => (hc2 a).trans (hc1 a), u1.comp u2 ?_ ?_ ?_ ?_⟩
  · intro x y c; omega
  · refine hi.mono ?_
    rintro x y c ⟨h1, h2, h3, h4, hc⟩
    exact (hT x y c (by omega) (by omega) (by omega) (by omega) hc).1
  · rintro x y c ⟨h1, h2, h3, h4, hc⟩
    rw [hP1 _ _ _ (by omega) (by omega) (by omega) (by omega) hc]
    rw [fold_eq (start := py) (len := ph) (v := y) (v' := y - (offset + ph)) (by omega) (by omega) (by
      obtain ⟨k, hk⟩ := k4
      exact ⟨-(k + 1), by rw [hk]; ring⟩)]
    congr 2 <;> omega
  · intro _ _ _ _ _; rfl

end Verif.ImageIter
