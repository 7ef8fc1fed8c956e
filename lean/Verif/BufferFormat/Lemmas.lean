import Verif.BufferFormat.Model
import Verif.BufferFormat.Spec
import Mathlib.Tactic.Ring
namespace Verif.BufferFormat
open Spec

theorem number_congr {e : Endianness} {b : Nat} : ∀ {n : Nat} {f g : Nat → Nat}, (∀ i < n, f i = g i) →
    number e b n f = number e b n g
  | 0, _, _, _ => rfl
  | n + 1, f, g, h => by
    have h1 : number e b n f = number e b n g := number_congr fun i hi => h i (by omega)
    cases e <;> simp only [number, h1, h n (by omega)]

theorem number_one (e : Endianness) (b : Nat) (f : Nat → Nat) : number e b 1 f = f 0 := by
  cases e <;> simp [number]

theorem number_append (e : Endianness) (b k : Nat) : ∀ (n : Nat) (f : Nat → Nat), number e b (k + n) f =
    match e with
    | .big => number e b k f * b ^ n + number e b n (fun i => f (k + i))
    | .little => number e b k f + number e b n (fun i => f (k + i)) * b ^ k
  | 0, f => by cases e <;> simp [number]
  | n + 1, f => by
    have ih := number_append e b k n f
    rw [← Nat.add_assoc]
    cases e with
    | big => simp only [number] at ih ⊢; rw [ih, Nat.pow_succ]; ring
    | little => simp only [number] at ih ⊢; rw [ih, Nat.pow_add]; ring

theorem number_nest (e : Endianness) (b n : Nat) (f : Nat → Nat) : ∀ (m : Nat),
    number e (b ^ n) m (fun j => number e b n fun k => f (j * n + k)) = number e b (m * n) f
  | 0 => by simp [number]
  | m + 1 => by
    rw [Nat.add_mul, Nat.one_mul, number_append e b (m * n), ← number_nest e b n f m]
    cases e with
    | big => rfl
    | little => simp only [number, ← Nat.pow_mul, Nat.mul_comm n m]

theorem number_lt {e : Endianness} {b : Nat} : ∀ {n : Nat} {f : Nat → Nat}, (∀ i < n, f i < b) → number e b n f < b ^ n
  | 0, _, _ => by simp [number]
  | n + 1, f, h => by
    have h1 : number e b n f < b ^ n := number_lt fun i hi => h i (by omega)
    have h2 := h n (by omega)
    cases e with
    | big =>
      simp only [number, Nat.pow_succ]
      calc number .big b n f * b + f n < number .big b n f * b + b := by omega
        _ = (number .big b n f + 1) * b := by ring
        _ ≤ b ^ n * b := Nat.mul_le_mul_right _ h1
    | little =>
      simp only [number, Nat.pow_succ]
      calc number .little b n f + f n * b ^ n < b ^ n + f n * b ^ n := by omega
        _ = (f n + 1) * b ^ n := by ring
        _ ≤ b * b ^ n := Nat.mul_le_mul_right _ h2
        _ = b ^ n * b := by ring

/-- The power of the base of digit `j` among `n` digits. -/
def place (e : Endianness) (n j : Nat) : Nat :=
  match e with
  | .big => n - 1 - j
  | .little => j

theorem number_digit {e : Endianness} {b : Nat} : ∀ {n : Nat} {f : Nat → Nat}, (∀ i < n, f i < b) → ∀ {j : Nat}, j < n →
    number e b n f / b ^ place e n j % b = f j
  | 0, _, _, _, hj => by omega
  | n + 1, f, h, j, hj => by
    have hl : number e b n f < b ^ n := number_lt fun i hi => h i (by omega)
    have hn := h n (by omega)
    have hb : 0 < b := by omega
    have ih : ∀ {j}, j < n → number e b n f / b ^ place e n j % b = f j := fun hj => number_digit (fun i hi => h i (by omega)) hj
    cases e with
    | big =>
      simp only [number, place]
      by_cases hjn : j = n
      · subst hjn
        rw [show j + 1 - 1 - j = 0 by omega, Nat.pow_zero, Nat.div_one, Nat.mul_comm, Nat.mul_add_mod, Nat.mod_eq_of_lt hn]
      · rw [show n + 1 - 1 - j = (n - 1 - j) + 1 by omega, Nat.pow_succ, Nat.mul_comm (b ^ _) b, ← Nat.div_div_eq_div_mul,
          Nat.mul_comm _ b, Nat.mul_add_div hb, Nat.div_eq_of_lt hn, Nat.add_zero]
        exact ih (by omega)
    | little =>
      simp only [number, place]
      by_cases hjn : j = n
      · subst hjn
        rw [Nat.add_mul_div_right _ _ (Nat.pow_pos hb), Nat.div_eq_of_lt hl, Nat.zero_add, Nat.mod_eq_of_lt hn]
      · rw [show f n * b ^ n = f n * b ^ (n - j - 1) * b * b ^ j by
          rw [Nat.mul_assoc, Nat.mul_assoc, ← Nat.pow_succ', ← Nat.pow_add]
          congr 2; omega, Nat.add_mul_div_right _ _ (Nat.pow_pos hb), Nat.add_mul_mod_self_right]
        exact ih (by omega)

/-- A block of adjacent digits. -/
theorem number_block {e : Endianness} {b m n : Nat} {f : Nat → Nat} (h : ∀ i, f i < b) {s : Nat} (hs : s < m) :
    number e b (m * n) f / b ^ (n * place e m s) % b ^ n = number e b n fun k => f (s * n + k) := by
  rw [← number_nest, Nat.pow_mul]
  exact number_digit (f := fun j => number e b n fun k => f (j * n + k)) (fun i _ => number_lt fun k _ => h _) hs

end Verif.BufferFormat
