import Verif.WordWrap.Model
import Verif.WordWrap.Spec
import Mathlib.Tactic.Ring
/-!
Lemmas about widths of lines, and about ways to break a sequence of words into lines.
-/
namespace Verif.WordWrap
open Spec

variable {t : Text}

theorem width_one (t : Text) (i : Nat) :
    t.width i (i + 1) = t.size i + (if i = 0 then t.space 0 else 0) + (if i + 1 = t.n then t.trailing else 0) := by
  unfold Text.width
  simp

theorem width_succ (t : Text) {i j : Nat} (h1 : i < j) (h2 : j < t.n) :
    t.width i (j + 1) = t.width i j + t.size j + t.space j + (if j + 1 = t.n then t.trailing else 0) := by
  unfold Text.width
  rw [Finset.sum_Ico_succ_top (by omega), Finset.sum_Ico_succ_top (by omega), if_neg (show ¬ j = t.n by omega)]
  ring

theorem width_le_succ (t : Text) {i j : Nat} (h1 : i < j) (h2 : j < t.n) : t.width i j ≤ t.width i (j + 1) := by
  rw [width_succ t h1 h2]; omega

theorem width_mono (t : Text) {i j k : Nat} (h1 : i < j) (h2 : j ≤ k) (h3 : k ≤ t.n) : t.width i j ≤ t.width i k := by
  induction k with
  | zero => omega
  | succ k ih =>
    rcases Nat.lt_or_ge k j with h | h
    · have : j = k + 1 := by omega
      rw [this]
    · exact le_trans (ih h (by omega)) (width_le_succ t (by omega) (by omega))

theorem fits_mono {l i j k : Nat} (h1 : i < j) (h2 : j ≤ k) (h3 : k ≤ t.n) (h : t.fits l i k) : t.fits l i j := by
  rcases h with h | h
  · left; omega
  · right; exact le_trans (width_mono t h1 h2 h3) h

theorem valid_bound {l i : Nat} {bs : List Nat} (h : t.Valid l i bs) : i < t.n := by
  induction bs generalizing l i with
  | nil => exact h.1
  | cons j js ih => have := ih h.2.2; have := h.1; omega

theorem badness_shift {t : Text} {l l' : Nat} (h : ∀ d, t.line (l + d) = t.line (l' + d)) (i : Nat) (bs : List Nat) :
    t.badness l i bs = t.badness l' i bs := by
  induction bs generalizing l l' i with
  | nil => rfl
  | cons j js ih =>
    rw [Text.badness, Text.badness, ih (l := l + 1) (l' := l' + 1) (fun d => by have := h (1 + d); rwa [← Nat.add_assoc, ← Nat.add_assoc] at this), show t.line l = t.line l' from h 0]

theorem valid_shift {t : Text} {l l' : Nat} (h : ∀ d, t.line (l + d) = t.line (l' + d)) (i : Nat) (bs : List Nat) :
    t.Valid l i bs ↔ t.Valid l' i bs := by
  have h0 : t.line l = t.line l' := h 0
  induction bs generalizing l l' i with
  | nil => rw [Text.Valid, Text.Valid, Text.fits, Text.fits, h0]
  | cons j js ih =>
    have h1 : ∀ d, t.line (l + 1 + d) = t.line (l' + 1 + d) := fun d => by have := h (1 + d); rwa [← Nat.add_assoc, ← Nat.add_assoc] at this
    have h2 := ih (l := l + 1) (l' := l' + 1) h1 j (h1 0)
    rw [Text.Valid, Text.Valid, Text.fits, Text.fits, h0]
    exact ⟨fun ⟨a, b, c⟩ => ⟨a, b, h2.1 c⟩, fun ⟨a, b, c⟩ => ⟨a, b, h2.2 c⟩⟩

/-- Every way to break into lines is at least as bad as specified. -/
def Lb (t : Text) (l i b : Nat) : Prop := ∀ bs, t.Valid l i bs → b ≤ t.badness l i bs

/-- Every way to break into lines, where the first break is not before the specified word, is at least as bad as specified. -/
def Explored (t : Text) (l i k b : Nat) : Prop := ∀ j js, k ≤ j → t.Valid l i (j :: js) → b ≤ t.badness l i (j :: js)

theorem lb_of_explored {l i b : Nat} (hn : ¬ t.fits l i t.n) (h : Explored t l i (i + 1) b) : Lb t l i b := by
  intro bs hv
  cases bs with
  | nil => exact absurd hv.2 hn
  | cons j js => exact h j js hv.1 hv

theorem explored_none {l i k b : Nat} (hik : i < k) (hn : ¬ t.fits l i (k + 1)) : Explored t l i (k + 1) b := by
  intro j js hj hv
  have := valid_bound hv.2.2
  exact absurd (fits_mono (by omega) hj (by omega) hv.2.1) hn

theorem explored_le {l i k b b' : Nat} (h : Explored t l i k b) (hb : b' ≤ b) : Explored t l i k b' :=
  fun j js hj hv => le_trans hb (h j js hj hv)

theorem explored_step {l i k b c : Nat} (h : Explored t l i (k + 1) b) (hc : Lb t (l + 1) k c) (hb : b ≤ (t.line l - t.width i k) ^ 2 + c) :
    Explored t l i k b := by
  intro j js hj hv
  rcases Nat.lt_or_ge k j with h' | h'
  · exact h j js h' hv
  · have : j = k := by omega
    subst this
    rw [Text.badness]
    have := hc js hv.2.2
    omega

/-- The gap gets wider when the break is moved to the left. -/
theorem explored_all {l i k b : Nat} (hk : k ≤ t.n) (h : Explored t l i (k + 1) b) (hb : b ≤ (t.line l - t.width i k) ^ 2) : Explored t l i (i + 1) b := by
  intro j js hj hv
  rcases Nat.lt_or_ge k j with h' | h'
  · exact h j js h' hv
  · rw [Text.badness]
    have h1 := width_mono t (show i < j by omega) h' hk
    have : (t.line l - t.width i k) ^ 2 ≤ (t.line l - t.width i j) ^ 2 := Nat.pow_le_pow_left (by omega) 2
    omega

end Verif.WordWrap
