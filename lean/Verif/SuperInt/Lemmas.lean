import Verif.SuperInt.Model
import Verif.SuperInt.Spec
import Mathlib.Tactic.Ring
import Mathlib.Tactic.Linarith
import Mathlib.Data.Nat.Bitwise
import Mathlib.Algebra.Order.Ring.Int

namespace Verif.SuperInt

open Spec

/-- The stored value is a value of type `uint_type`. -/
def Valid (N : Nat) (a : SuperInt) : Prop := a.value < 2 ^ N

/-- The represented number. -/
def SuperInt.num (N : Nat) (a : SuperInt) : Int := number N a.value a.sign

/-- The represented bits as a natural number. -/
def SuperInt.rep (N : Nat) (a : SuperInt) : Nat := a.value + a.sign.toNat * 2 ^ N

theorem pow_pos' (N : Nat) : 0 < 2 ^ N := Nat.two_pow_pos N

theorem uadd_eq {N a b : Nat} (ha : a < 2 ^ N) (hb : b < 2 ^ N) :
    uadd N a b = if a + b < 2 ^ N then a + b else a + b - 2 ^ N := by
  unfold uadd
  split
  · rename_i h; exact Nat.mod_eq_of_lt h
  · rename_i h
    rw [Nat.mod_eq_sub_mod (by omega), Nat.mod_eq_of_lt (by omega)]

theorem usub_eq {N a b : Nat} (ha : a < 2 ^ N) (hb : b < 2 ^ N) :
    usub N a b = if b ≤ a then a - b else a + 2 ^ N - b := by
  unfold usub
  split
  · rename_i h
    rw [Nat.mod_eq_sub_mod (by omega), Nat.mod_eq_of_lt (by omega)]; omega
  · rename_i h
    rw [Nat.mod_eq_of_lt (by omega)]; omega

theorem num_false {N : Nat} {a : SuperInt} (h : a.sign = false) : a.num N = a.value := by
  simp [SuperInt.num, number, h]

theorem num_true {N : Nat} {a : SuperInt} (h : a.sign = true) :
    a.num N = a.value - (2 ^ N : Nat) := by
  simp [SuperInt.num, number, h]

theorem num_representable {N : Nat} {a : SuperInt} (ha : Valid N a) : Representable N (a.num N) := by
  unfold Valid at ha
  have h2 : ((2 ^ N : Nat) : Int) = 2 ^ N := by push_cast; rfl
  unfold Representable
  rw [← h2]
  cases hs : a.sign
  · rw [num_false hs]; omega
  · rw [num_true hs]; omega

theorem representable_iff {N : Nat} {x : Int} :
    Representable N x ↔ -((2 ^ N : Nat) : Int) ≤ x ∧ x < (2 ^ N : Nat) := by
  unfold Representable; push_cast; rfl

theorem num_rep (N : Nat) (a : SuperInt) :
    ∃ k : Int, a.num N = a.rep N + k * 2 ^ (N + 1) := by
  cases hs : a.sign
  · exact ⟨0, by rw [num_false hs]; simp [SuperInt.rep, hs]⟩
  · refine ⟨-1, ?_⟩
    rw [num_true hs]; simp [SuperInt.rep, hs]; ring

theorem wrap_unique {N : Nat} {x y z : Int} (hy : IsWrap N x y) (hz : IsWrap N x z) : y = z := by
  obtain ⟨h1, k, hk⟩ := hy
  obtain ⟨h2, l, hl⟩ := hz
  rw [representable_iff] at h1 h2
  have h3 : y - z = (k - l) * 2 ^ (N + 1) := by rw [hk, hl]; ring
  have h4 : (2 : Int) ^ (N + 1) = 2 * ((2 ^ N : Nat) : Int) := by push_cast; ring
  rw [h4] at h3
  have hp := pow_pos' N
  by_contra hne
  have : k - l ≠ 0 := fun h => hne (by rw [h] at h3; omega)
  rcases lt_or_gt_of_ne this with h | h
  · have : (k - l) * (2 * ((2 ^ N : Nat) : Int)) ≤ -1 * (2 * ((2 ^ N : Nat) : Int)) :=
      mul_le_mul_of_nonneg_right (by omega) (by omega)
    omega
  · have : 1 * (2 * ((2 ^ N : Nat) : Int)) ≤ (k - l) * (2 * ((2 ^ N : Nat) : Int)) :=
      mul_le_mul_of_nonneg_right (by omega) (by omega)
    omega

theorem wrap_self {N : Nat} {x : Int} (h : Representable N x) : IsWrap N x x := ⟨h, 0, by ring⟩

/-- The number represented by a value whose bits are congruent to `x` is the wrapped version of `x`. -/
theorem wrap_of_rep {N : Nat} {r : SuperInt} (hr : Valid N r) {x : Int}
    (h : ∃ k : Int, (r.rep N : Int) = x + k * 2 ^ (N + 1)) : IsWrap N x (r.num N) := by
  obtain ⟨k, hk⟩ := h
  obtain ⟨l, hl⟩ := num_rep N r
  exact ⟨num_representable hr, k + l, by rw [hl, hk]; ring⟩

theorem num_inj {N : Nat} {a b : SuperInt} (ha : Valid N a) (hb : Valid N b) (h : a.num N = b.num N) :
    a = b := by
  unfold Valid at ha hb
  obtain ⟨v, s⟩ := a
  obtain ⟨w, t⟩ := b
  cases s <;> cases t <;>
    simp only [SuperInt.num, number, SuperInt.mk.injEq] at h ha hb ⊢ <;>
    [skip; (exfalso; have : ((2 ^ N : Nat) : Int) = 2 ^ N := by push_cast; rfl);
     (exfalso; have : ((2 ^ N : Nat) : Int) = 2 ^ N := by push_cast; rfl); skip]
  · simp at h; simp [h]
  · simp only [if_true, if_false, Bool.false_eq_true] at h; rw [← this] at h; omega
  · simp only [if_true, if_false, Bool.false_eq_true] at h; rw [← this] at h; omega
  · simp at h; simp [h]

/-! ### Addition and subtraction -/

theorem add_valid (N : Nat) (a b : SuperInt) : Valid N (add N a b) :=
  Nat.mod_lt _ (pow_pos' N)

theorem sub_valid (N : Nat) (a b : SuperInt) : Valid N (sub N a b) :=
  Nat.mod_lt _ (pow_pos' N)

theorem pick (N : Nat) {x y : Int} (h : x = y - 2 * 2 * (2 ^ N : Nat) ∨ x = y - 2 * (2 ^ N : Nat) ∨
    x = y ∨ x = y + 2 * (2 ^ N : Nat)) : ∃ k : Int, x = y + k * 2 ^ (N + 1) := by
  have h4 : (2 : Int) ^ (N + 1) = 2 * ((2 ^ N : Nat) : Int) := by push_cast; ring
  rw [h4]
  rcases h with h | h | h | h
  · exact ⟨-2, by omega⟩
  · exact ⟨-1, by omega⟩
  · exact ⟨0, by omega⟩
  · exact ⟨1, by omega⟩

theorem add_rep {N : Nat} {a b : SuperInt} (ha : Valid N a) (hb : Valid N b) :
    ∃ k : Int, ((add N a b).rep N : Int) = (a.num N + b.num N) + k * 2 ^ (N + 1) := by
  apply pick
  unfold Valid at ha hb
  unfold add SuperInt.rep
  simp only
  rw [uadd_eq ha hb]
  have e1 : (2 : Int) ^ N = ((2 ^ N : Nat) : Int) := by push_cast; rfl
  obtain ⟨v, s⟩ := a
  obtain ⟨w, t⟩ := b
  simp only [SuperInt.num, number, e1] at *
  clear e1
  generalize 2 ^ N = W at *
  split <;> rename_i hc
  · rw [decide_eq_false (by omega)]
    cases s <;> cases t <;> simp <;> omega
  · rw [decide_eq_true (by omega)]
    cases s <;> cases t <;> simp <;> omega

theorem sub_rep {N : Nat} {a b : SuperInt} (ha : Valid N a) (hb : Valid N b) :
    ∃ k : Int, ((sub N a b).rep N : Int) = (a.num N - b.num N) + k * 2 ^ (N + 1) := by
  apply pick
  unfold Valid at ha hb
  unfold sub SuperInt.rep
  simp only
  rw [usub_eq ha hb]
  have e1 : (2 : Int) ^ N = ((2 ^ N : Nat) : Int) := by push_cast; rfl
  obtain ⟨v, s⟩ := a
  obtain ⟨w, t⟩ := b
  simp only [SuperInt.num, number, e1] at *
  clear e1
  generalize 2 ^ N = W at *
  split <;> rename_i hc
  · rw [decide_eq_false (by omega)]
    cases s <;> cases t <;> simp <;> omega
  · rw [decide_eq_true (by omega)]
    cases s <;> cases t <;> simp <;> omega

theorem addOverflow_spec {N : Nat} {a b : SuperInt} (ha : Valid N a) (hb : Valid N b) :
    (Representable N (a.num N + b.num N) → addOverflow N a b = (false, add N a b)) ∧
    (¬ Representable N (a.num N + b.num N) → addOverflow N a b = (true, a)) := by
  unfold Valid at ha hb
  have hv : (add N a b).value = _ := uadd_eq ha hb
  unfold addOverflow
  generalize add N a b = r at *
  simp only
  rw [representable_iff]
  have e1 : (2 : Int) ^ N = ((2 ^ N : Nat) : Int) := by push_cast; rfl
  obtain ⟨v, s⟩ := a
  obtain ⟨w, t⟩ := b
  simp only [SuperInt.num, number, e1] at *
  clear e1
  generalize 2 ^ N = W at *
  split at hv <;> rename_i hc
  · rw [decide_eq_false (by omega)]
    cases s <;> cases t <;> simp <;> omega
  · rw [decide_eq_true (by omega)]
    cases s <;> cases t <;> simp <;> omega

theorem subOverflow_spec {N : Nat} {a b : SuperInt} (ha : Valid N a) (hb : Valid N b) :
    (Representable N (a.num N - b.num N) → subOverflow N a b = (false, sub N a b)) ∧
    (¬ Representable N (a.num N - b.num N) → subOverflow N a b = (true, a)) := by
  unfold Valid at ha hb
  have hv : (sub N a b).value = _ := usub_eq ha hb
  unfold subOverflow
  generalize sub N a b = r at *
  simp only
  rw [representable_iff]
  have e1 : (2 : Int) ^ N = ((2 ^ N : Nat) : Int) := by push_cast; rfl
  obtain ⟨v, s⟩ := a
  obtain ⟨w, t⟩ := b
  simp only [SuperInt.num, number, e1] at *
  clear e1
  generalize 2 ^ N = W at *
  split at hv <;> rename_i hc
  · rw [decide_eq_false (by omega)]
    cases s <;> cases t <;> simp <;> omega
  · rw [decide_eq_true (by omega)]
    cases s <;> cases t <;> simp <;> omega

/-! ### Comparison -/

theorem lt_iff {N : Nat} {a b : SuperInt} (ha : Valid N a) (hb : Valid N b) :
    lt a b = true ↔ a.num N < b.num N := by
  unfold Valid at ha hb
  have e1 : (2 : Int) ^ N = ((2 ^ N : Nat) : Int) := by push_cast; rfl
  obtain ⟨v, s⟩ := a
  obtain ⟨w, t⟩ := b
  simp only [SuperInt.num, number, lt, e1] at *
  clear e1
  generalize 2 ^ N = W at *
  cases s <;> cases t <;> simp <;> omega

theorem eq_iff {N : Nat} {a b : SuperInt} (ha : Valid N a) (hb : Valid N b) :
    eq a b = true ↔ a.num N = b.num N := by
  constructor
  · intro h
    simp only [eq, Bool.and_eq_true, decide_eq_true_eq] at h
    unfold SuperInt.num; rw [h.1, h.2]
  · intro h
    have := num_inj ha hb h
    subst this
    simp [eq]

/-! ### Multiplication -/

theorem or_half {N : Nat} (hN : 0 < N) {a : SuperInt} (ha : Valid N a) :
    a.sign.toNat * 2 ^ (N - 1) % 2 ^ N ||| a.value / 2 = a.rep N / 2 := by
  unfold Valid at ha
  obtain ⟨n, rfl⟩ : ∃ n, N = n + 1 := ⟨N - 1, by omega⟩
  have e : 2 ^ (n + 1) = 2 * 2 ^ n := by ring
  simp only [Nat.add_sub_cancel]
  have hb : a.value / 2 < 2 ^ n := by omega
  unfold SuperInt.rep
  cases a.sign
  · simp
  · simp only [Bool.toNat_true, one_mul]
    rw [Nat.mod_eq_of_lt (by have := pow_pos' n; omega)]
    have := Nat.two_pow_add_eq_or_of_lt hb 1
    rw [mul_one] at this
    rw [← this]; omega

theorem mul_rep {N : Nat} (hN : 0 < N) {a b : SuperInt} (ha : Valid N a) (hb : Valid N b) :
    Valid N (mul N a b) ∧ (mul N a b).rep N = (a.rep N * b.rep N) % 2 ^ (N + 1) := by
  unfold mul
  simp only
  rw [or_half hN ha, or_half hN hb]
  have ha1 : a.value % 2 = a.rep N % 2 := by
    unfold SuperInt.rep
    obtain ⟨n, rfl⟩ : ∃ n, N = n + 1 := ⟨N - 1, by omega⟩
    rw [pow_succ, ← mul_assoc]; omega
  have hb1 : b.value % 2 = b.rep N % 2 := by
    unfold SuperInt.rep
    obtain ⟨n, rfl⟩ : ∃ n, N = n + 1 := ⟨N - 1, by omega⟩
    rw [pow_succ, ← mul_assoc]; omega
  rw [ha1, hb1]
  generalize a.rep N = x
  generalize b.rep N = y
  obtain ⟨n, rfl⟩ : ∃ n, N = n + 1 := ⟨N - 1, by omega⟩
  simp only [Nat.add_sub_cancel]
  have hv : uadd (n + 1) (uadd (n + 1) (umul (n + 1) (x / 2) (y / 2) * 2 % 2 ^ (n + 1))
      (umul (n + 1) (x / 2) (y % 2))) (umul (n + 1) (x % 2) (y / 2)) =
      (x / 2 * (y / 2) * 2 + x / 2 * (y % 2) + x % 2 * (y / 2)) % 2 ^ (n + 1) := by
    unfold uadd umul
    simp [Nat.add_mod, Nat.mul_mod]
  rw [hv]
  have hxy : x * y = 2 * (x / 2 * (y / 2) * 2 + x / 2 * (y % 2) + x % 2 * (y / 2)) + x % 2 * (y % 2) := by
    have h1 := Nat.div_add_mod x 2
    have h2 := Nat.div_add_mod y 2
    generalize x / 2 = p at *
    generalize y / 2 = q at *
    generalize x % 2 = r at *
    generalize y % 2 = s at *
    subst h1; subst h2; ring
  rw [hxy]
  generalize x / 2 * (y / 2) * 2 + x / 2 * (y % 2) + x % 2 * (y / 2) = z
  have hc : x % 2 * (y % 2) ≤ 1 := by
    rcases Nat.mod_two_eq_zero_or_one x with h | h <;> rcases Nat.mod_two_eq_zero_or_one y with h' | h' <;>
      rw [h, h'] <;> decide
  rw [show umul (n + 1) (x % 2) (y % 2) = (x % 2) * (y % 2) % 2 ^ (n + 1) from rfl]
  generalize x % 2 * (y % 2) = c at *
  have hp := pow_pos' n
  have e : 2 ^ (n + 1) = 2 * 2 ^ n := by ring
  have e' : 2 ^ (n + 1 + 1) = 2 * 2 ^ (n + 1) := by ring
  have hm : z % 2 ^ (n + 1) * 2 % 2 ^ (n + 1) = 2 ^ 1 * (z % 2 ^ n) := by
    rw [e, mul_comm _ 2, Nat.mul_mod_mul_left, Nat.mod_mul_left_mod, pow_one]
  have hum : c % 2 ^ (n + 1) = c := Nat.mod_eq_of_lt (by omega)
  rw [hm, hum, ← Nat.two_pow_add_eq_or_of_lt (by rw [pow_one]; omega : c < 2 ^ 1)]
  have hl : z % 2 ^ n < 2 ^ n := Nat.mod_lt _ hp
  constructor
  · unfold Valid; simp only; omega
  · unfold SuperInt.rep
    simp only
    have hd : z % 2 ^ (n + 1) = z % 2 ^ n + 2 ^ n * (z / 2 ^ n % 2) := by
      rw [pow_succ, Nat.mod_mul]
    have hq : z % 2 ^ (n + 1) / 2 ^ n = z / 2 ^ n % 2 := by
      rw [hd, Nat.add_mul_div_left _ _ hp, Nat.div_eq_of_lt hl, zero_add]
    have hr : (2 * z + c) % 2 ^ (n + 1 + 1) = 2 * (z % 2 ^ (n + 1)) + c := by
      have h1 : 2 * z + c = 2 ^ (n + 1 + 1) * (z / 2 ^ (n + 1)) + (2 * (z % 2 ^ (n + 1)) + c) := by
        have := Nat.div_add_mod z (2 ^ (n + 1))
        rw [e', mul_assoc]; omega
      have h2 : z % 2 ^ (n + 1) < 2 ^ (n + 1) := Nat.mod_lt _ (pow_pos' _)
      rw [h1, Nat.mul_add_mod, Nat.mod_eq_of_lt (by omega)]
    rw [hr, hq, hd, e]
    rcases Nat.mod_two_eq_zero_or_one (z / 2 ^ n) with h | h <;> rw [h] <;> simp <;> omega

end Verif.SuperInt
