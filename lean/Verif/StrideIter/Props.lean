import Verif.StrideIter.Model
import Verif.StrideIter.Spec
import Mathlib.Tactic.Ring
import Mathlib.Tactic.Linarith
import Mathlib.Tactic.Positivity
import Mathlib.Algebra.Order.Ring.Int
/-!
Properties C224 and C225: iteration with a fixed stride.
-/
namespace Verif.StrideIter
open Spec

theorem pow_half {N : Nat} (hN : 1 ≤ N) : (2 : Int) ^ N = 2 * 2 ^ (N - 1) := by
  obtain ⟨k, rfl⟩ : ∃ k, N = k + 1 := ⟨N - 1, by omega⟩
  simp only [Nat.add_sub_cancel, Int.pow_succ]
  omega

theorem toSize_cast (N : Nat) (x : Int) : (toSize N x : Int) = x % 2 ^ N := by
  unfold toSize
  have h : (0 : Int) < 2 ^ N := by positivity
  exact Int.toNat_of_nonneg (Int.emod_nonneg _ (by omega))

theorem toDiff_small {N x : Nat} (h : (x : Int) < 2 ^ (N - 1)) : toDiff N x = x := by
  unfold toDiff
  rw [if_pos (by exact_mod_cast h)]

theorem toDiff_large {N x : Nat} (h : (2 : Int) ^ (N - 1) ≤ x) : toDiff N x = (x : Int) - 2 ^ N := by
  unfold toDiff
  rw [if_neg (by have : 2 ^ (N - 1) ≤ x := by exact_mod_cast h
                 omega)]

theorem toDiff_mod {N : Nat} (hN : 1 ≤ N) {u : Nat} {x : Int} (hu : (u : Int) = x % 2 ^ N) (h0 : -(2 ^ (N - 1)) ≤ x) (h1 : x < 2 ^ (N - 1)) :
    toDiff N u = x := by
  have hp := pow_half hN
  by_cases h : 0 ≤ x
  · have he : x % 2 ^ N = x := Int.emod_eq_of_lt h (by omega)
    rw [he] at hu
    rw [toDiff_small (by omega), hu]
  · have he : x % 2 ^ N = x + 2 ^ N := by
      rw [← Int.add_emod_right]
      exact Int.emod_eq_of_lt (by omega) (by omega)
    rw [he] at hu
    rw [toDiff_large (by omega)]
    omega

theorem offset_eq {N : Nat} (hN : 1 ≤ N) {S : Nat} {i : Int} (h0 : -(2 ^ (N - 1)) ≤ i * S) (h1 : i * S < 2 ^ (N - 1)) : offset N S i = i * S := by
  unfold offset
  refine toDiff_mod hN ?_ h0 h1
  push_cast
  rw [toSize_cast, Int.mul_emod, Int.emod_emod_of_dvd _ (Int.dvd_refl _), ← Int.mul_emod]

/-! ### C224: Movement, access, and comparison -/

/-- An operation on an iterator. -/
def step (N S : Nat) (p : Int) : Op → Int
  | .inc => inc N S p
  | .dec => dec N S p
  | .postInc => (postInc N S p).1
  | .postDec => (postDec N S p).1
  | .add i => add N S p i
  | .sub i => sub N S p i

/-- C224: after any sequence of moves, the iterator is at the expected element. -/
theorem C224_move (N : Nat) (hN : 1 ≤ N) (S : Nat) (hS : (S : Int) < 2 ^ (N - 1)) (b k : Int) (ops : List Op) (h : ∀ op ∈ ops, InRange N S op) :
    ops.foldl (step N S) (b + k * S) = b + ops.foldl move k * S := by
  induction ops generalizing k with
  | nil => rfl
  | cons op ops ih =>
    have hop := h op (by simp)
    have hone : step N S (b + k * S) op = b + move k op * S := by
      cases op with
      | add i => simp only [step, add, move]; rw [offset_eq hN hop.1 hop.2]; ring
      | sub i => simp only [step, sub, move]; rw [offset_eq hN hop.1 hop.2]; ring
      | _ => simp only [step, inc, dec, postInc, postDec, move]; rw [toDiff_small hS]; ring
    rw [List.foldl_cons, List.foldl_cons, hone]
    exact ih _ (fun o ho => h o (List.mem_cons_of_mem _ ho))

/-- C224: the postfix operators return the original iterator. -/
theorem C224_postfix (N S : Nat) (p : Int) : (postInc N S p).2 = p ∧ (postDec N S p).2 = p := ⟨rfl, rfl⟩

/-- C224: the elements that are accessed are the expected ones. -/
theorem C224_access {α : Type} (N : Nat) (hN : 1 ≤ N) (S : Nat) (seq : Int → α) (b k i : Int) (h0 : -(2 ^ (N - 1)) ≤ i * S)
    (h1 : i * S < 2 ^ (N - 1)) :
    deref seq (b + k * S) = seq (b + k * S) ∧ subscr N S seq (b + k * S) i = seq (b + (k + i) * S) ∧
    subscr N S seq (b + k * S) i = deref seq (add N S (b + k * S) i) := by
  refine ⟨rfl, ?_, rfl⟩
  unfold subscr
  rw [offset_eq hN h0 h1]
  congr 1
  ring

/-- C224: the order of iterators is that of the elements that they refer to. -/
theorem C224_compare (S : Nat) (hS : 1 ≤ S) (b i j : Int) :
    (eq (b + i * S) (b + j * S) = true ↔ i = j) ∧ (lt (b + i * S) (b + j * S) = true ↔ i < j) ∧ (le (b + i * S) (b + j * S) = true ↔ i ≤ j) := by
  have hpos : (0 : Int) < S := by omega
  have hlt : ∀ i j : Int, i * S < j * S ↔ i < j := fun i j => Int.mul_lt_mul_right hpos
  have h1 := hlt i j
  have h2 := hlt j i
  unfold eq lt le
  simp only [beq_iff_eq, decide_eq_true_eq]
  refine ⟨⟨fun h => ?_, fun h => by rw [h]⟩, ⟨fun h => h1.mp (by omega), fun h => ?_⟩, ⟨fun h => ?_, fun h => ?_⟩⟩
  · omega
  · have := h1.mpr h; omega
  · omega
  · omega

example : [Op.inc, .add 3, .sub (-2), .postDec].foldl (step 64 5) 100 = 125 := by decide
example : subscr 64 5 (fun p => p) 100 (-3) = 85 := by decide

/-! ### C225: Distance -/

/-- C225: the distance between two iterators is right if it is not negative.

The claim without the first hypothesis is false (see `C225_negative`). -/
theorem C225_distance_partial (N S : Nat) (hN : 1 ≤ N) (hS : 1 ≤ S) (b i j : Int) (hij : j ≤ i) (h : (i - j) * S < 2 ^ (N - 1)) :
    diff N S (b + i * S) (b + j * S) = i - j := by
  have hp := pow_half hN
  have hpos : (0 : Int) < S := by omega
  have he : b + i * S - (b + j * S) = (i - j) * S := by ring
  have h0 : 0 ≤ (i - j) * (S : Int) := Int.mul_nonneg (by omega) (by omega)
  have hle : i - j ≤ (i - j) * (S : Int) := by nlinarith
  have hc : ((toSize N ((i - j) * S) / S : Nat) : Int) = i - j := by
    rw [Int.natCast_ediv, toSize_cast, Int.emod_eq_of_lt h0 (by omega), Int.mul_ediv_cancel _ (by omega)]
  unfold diff
  rw [he, toDiff_small (by rw [hc]; omega), hc]

/-- C225: the distance is right, negative or not, if the stride is one. -/
theorem C225_unit_stride (N : Nat) (hN : 1 ≤ N) (p q : Int) (h0 : -(2 ^ (N - 1)) ≤ p - q) (h1 : p - q < 2 ^ (N - 1)) : diff N 1 p q = p - q := by
  unfold diff
  rw [Nat.div_one]
  exact toDiff_mod hN (toSize_cast N _) h0 h1

/-- C225: with any other stride, the distance to a later element is never right. It is not even negative. -/
theorem C225_negative (N S : Nat) (hN : 1 ≤ N) (hS : 2 ≤ S) (b i j : Int) (hij : i < j) (h : -(2 ^ (N - 1)) ≤ (i - j) * S) :
    0 ≤ diff N S (b + i * S) (b + j * S) ∧ diff N S (b + i * S) (b + j * S) ≠ i - j := by
  have hp := pow_half hN
  have hpos : (2 : Int) ≤ S := by omega
  have he : b + i * S - (b + j * S) = (i - j) * S := by ring
  have hneg : (i - j) * (S : Int) < 0 := by nlinarith
  have hm : (i - j) * (S : Int) % 2 ^ N = (i - j) * S + 2 ^ N := by
    rw [← Int.add_emod_right]
    exact Int.emod_eq_of_lt (by omega) (by omega)
  have hc : ((toSize N ((i - j) * S) / S : Nat) : Int) < 2 ^ (N - 1) := by
    rw [Int.natCast_ediv, toSize_cast, hm]
    apply Int.ediv_lt_of_lt_mul (by omega)
    have : (2 : Int) ^ (N - 1) * 2 ≤ 2 ^ (N - 1) * S := Int.mul_le_mul_of_nonneg_left hpos (by positivity)
    omega
  have hd : 0 ≤ diff N S (b + i * S) (b + j * S) := by
    unfold diff
    rw [he, toDiff_small hc]
    exact Int.natCast_nonneg _
  exact ⟨hd, by omega⟩

example : diff 64 3 106 100 = 2 := by decide
example : diff 64 1 100 106 = -6 := by decide
example : diff 64 3 100 106 = 6148914691236517203 := by decide
example : diff 64 4 100 104 = 4611686018427387903 := by decide

end Verif.StrideIter
