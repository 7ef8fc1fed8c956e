import Verif.MulPrec.Model
import Verif.MulPrec.Spec
import Verif.Integer.Props
import Mathlib.Tactic.Ring
import Mathlib.Tactic.Linarith
import Mathlib.Tactic.LinearCombination
import Mathlib.Tactic.Push
/-!
Loops, arrays, and expressions.
-/
namespace Verif.MulPrec
open Verif.Integer

/-! ### Loops -/

theorem loop_inv {σ : Type} {body : Nat → σ → Option σ} (Inv : Nat → σ → Prop) (k lo : Nat) (st : σ) (h0 : Inv lo st)
    (hstep : ∀ i st, lo ≤ i → i < lo + k → Inv i st → ∃ st', body i st = some st' ∧ Inv (i + 1) st') :
    ∃ st', loop body k lo st = some st' ∧ Inv (lo + k) st' := by
  induction k generalizing lo st with
  | zero => exact ⟨st, rfl, h0⟩
  | succ k ih =>
    obtain ⟨st1, h1, h2⟩ := hstep lo st (Nat.le_refl _) (by omega) h0
    obtain ⟨st2, h3, h4⟩ := ih (lo + 1) st1 h2 (fun i st a b => hstep i st (by omega) (by omega))
    refine ⟨st2, ?_, by rw [show lo + (k + 1) = lo + 1 + k by omega]; exact h4⟩
    rw [loop, h1]
    exact h3

/-! ### Arrays -/

/-- An element of an array. -/
def g (xs : List Nat) (i : Nat) : Nat := xs.getD i 0

theorem rd_eq {xs : List Nat} {i : Nat} (h : i < xs.length) : rd xs i = some (g xs i) := by
  simp [rd, g, h]

theorem wr_eq {xs : List Nat} {i : Nat} (v : Nat) (h : i < xs.length) : wr xs i v = some (xs.set i v) := by
  rw [wr, if_pos h]

theorem g_set_eq {xs : List Nat} {i : Nat} (v : Nat) (h : i < xs.length) : g (xs.set i v) i = v := by
  simp [g, h]

theorem g_set_ne {xs : List Nat} {i j : Nat} (v : Nat) (h : i ≠ j) : g (xs.set i v) j = g xs j := by
  simp [g, List.getElem?_set_ne h]

theorem g_zero (n i : Nat) : g (zero n) i = 0 := by
  simp only [g, zero, List.getD_eq_getElem?_getD, List.getElem?_replicate]
  split <;> rfl

theorem zero_length (n : Nat) : (zero n).length = n := by simp [zero]

/-! ### The value of a sequence of digits -/

/-- The value of the first `n` digits in radix `B`. -/
def V (B : Nat) (f : Nat → Nat) : Nat → Nat
  | 0 => 0
  | n + 1 => V B f n + f n * B ^ n

theorem V_zero (B : Nat) (f : Nat → Nat) : V B f 0 = 0 := rfl

theorem V_succ (B : Nat) (f : Nat → Nat) (n : Nat) : V B f (n + 1) = V B f n + f n * B ^ n := rfl

theorem V_congr {B n : Nat} {f h : Nat → Nat} (hfh : ∀ i < n, f i = h i) : V B f n = V B h n := by
  induction n with
  | zero => rfl
  | succ n ih => rw [V_succ, V_succ, ih (fun i hi => hfh i (by omega)), hfh n (by omega)]

theorem V_lt {B n : Nat} {f : Nat → Nat} (hf : ∀ i < n, f i < B) : V B f n < B ^ n := by
  induction n with
  | zero => simp [V]
  | succ n ih =>
    have h1 := ih (fun i hi => hf i (by omega))
    have h2 := hf n (by omega)
    rw [V_succ, pow_succ]
    have h3 : f n * B ^ n ≤ (B - 1) * B ^ n := Nat.mul_le_mul_right _ (by omega)
    have h4 : (B - 1) * B ^ n + B ^ n = B ^ n * B := by
      obtain ⟨b, rfl⟩ : ∃ b, B = b + 1 := ⟨B - 1, by omega⟩
      rw [Nat.add_sub_cancel]; ring
    omega

theorem V_split (B : Nat) (f : Nat → Nat) (m n : Nat) : V B f (m + n) = V B f m + B ^ m * V B (fun i => f (m + i)) n := by
  induction n with
  | zero => simp [V_zero]
  | succ n ih => rw [← Nat.add_assoc, V_succ, ih, V_succ, pow_add]; ring

theorem V_const_zero (B n : Nat) : V B (fun _ => 0) n = 0 := by
  induction n with
  | zero => rfl
  | succ n ih => rw [V_succ, ih]; simp

theorem V_zeroArr (B m n : Nat) : V B (g (zero m)) n = 0 := by
  rw [V_congr (h := fun _ => 0) (fun i _ => g_zero m i), V_const_zero]

theorem V_set_ge {B i n v : Nat} {xs : List Nat} (h : n ≤ i) : V B (g (xs.set i v)) n = V B (g xs) n :=
  V_congr fun j hj => g_set_ne v (by omega)

/-- Changing one digit. -/
theorem V_set {B i n v : Nat} {xs : List Nat} (hl : i < xs.length) (h : i < n) :
    V B (g (xs.set i v)) n + g xs i * B ^ i = V B (g xs) n + v * B ^ i := by
  induction n with
  | zero => omega
  | succ n ih =>
    rw [V_succ, V_succ]
    by_cases hin : i = n
    · subst hin
      rw [V_set_ge (Nat.le_refl _), g_set_eq v hl]
      omega
    · have := ih (by omega)
      rw [g_set_ne v hin]
      omega

theorem V_inj {B n : Nat} {f h : Nat → Nat} (hf : ∀ i < n, f i < B) (hh : ∀ i < n, h i < B) (he : V B f n = V B h n) :
    ∀ i < n, f i = h i := by
  induction n with
  | zero => intro i hi; omega
  | succ n ih =>
    rw [V_succ, V_succ] at he
    have h1 := V_lt (B := B) (n := n) (f := f) (fun i hi => hf i (by omega))
    have h2 := V_lt (B := B) (n := n) (f := h) (fun i hi => hh i (by omega))
    have e1 : V B f n = V B h n := by
      have := congrArg (· % B ^ n) he
      simpa [Nat.add_mul_mod_self_right, Nat.mod_eq_of_lt h1, Nat.mod_eq_of_lt h2] using this
    have hBn : 0 < B ^ n := by omega
    have e2 : f n = h n := by
      rw [e1] at he
      exact Nat.eq_of_mul_eq_mul_right hBn (by omega)
    intro i hi
    by_cases hin : i = n
    · rw [hin]; exact e2
    · exact ih (fun i hi => hf i (by omega)) (fun i hi => hh i (by omega)) e1 i (by omega)

/-- The digits of the value. -/
theorem V_digit {B n : Nat} {f : Nat → Nat} (hf : ∀ i < n, f i < B) (k : Nat) (hk : k < n) :
    V B f n / B ^ k % B = f k := by
  have hB : 0 < B := by have := hf k hk; omega
  obtain ⟨m, rfl⟩ : ∃ m, n = k + (1 + m) := ⟨n - k - 1, by omega⟩
  rw [V_split, V_split, Nat.add_mul_div_left _ _ (Nat.pow_pos hB),
    Nat.div_eq_of_lt (V_lt fun i hi => hf i (by omega))]
  simp only [V, pow_zero, mul_one, zero_add, pow_one, Nat.add_zero]
  rw [Nat.add_mul_mod_self_left, Nat.mod_eq_of_lt (hf k hk)]

theorem uval_cons (w x : Nat) (xs : List Nat) : Spec.uval w (x :: xs) = x + 2 ^ w * Spec.uval w xs := rfl

theorem uval_eq (w : Nat) (xs : List Nat) : Spec.uval w xs = V (2 ^ w) (g xs) xs.length := by
  induction xs with
  | nil => rfl
  | cons x xs ih =>
    rw [uval_cons, ih, List.length_cons, Nat.add_comm xs.length 1, V_split]
    have e1 : V (2 ^ w) (g (x :: xs)) 1 = x := by simp [V, g]
    have e2 : (fun i => g (x :: xs) (1 + i)) = g xs := by
      funext i; simp [g, Nat.add_comm 1 i]
    rw [e1, e2, pow_one]

theorem valid_iff {w N : Nat} {a : List Nat} : Spec.Valid w N a ↔ a.length = N ∧ ∀ i < N, g a i < 2 ^ w := by
  constructor
  · rintro ⟨rfl, h⟩
    refine ⟨rfl, fun i hi => ?_⟩
    simp only [g, List.getD_eq_getElem?_getD, List.getElem?_eq_getElem hi, Option.getD_some]
    exact h _ (List.getElem_mem hi)
  · rintro ⟨rfl, h⟩
    refine ⟨rfl, fun x hx => ?_⟩
    obtain ⟨i, hi, rfl⟩ := List.mem_iff_getElem.1 hx
    have := h i hi
    simpa [g, List.getElem?_eq_getElem hi] using this

/-! ### Expressions -/

theorem two_pos (n : Nat) : 0 < 2 ^ n := Nat.pow_pos (by omega)

theorem cast_pow (n : Nat) : ((2 ^ n : Nat) : Int) = 2 ^ n := by push_cast; rfl

theorem P_cases {I w : Nat} (hp : I ≠ w) : (w < I ∧ P I w = ⟨true, I⟩) ∨ (I < w ∧ P I w = ⟨false, w⟩) := by
  by_cases h : w ≤ I
  · exact .inl ⟨by omega, by simp [P, promote, h, intTy]⟩
  · exact .inr ⟨by omega, by simp [P, promote, h]⟩

theorem P_bits {I w : Nat} (hp : I ≠ w) : w ≤ (P I w).bits := by
  rcases P_cases hp with ⟨h, e⟩ | ⟨h, e⟩ <;> rw [e]
  exact Nat.le_of_lt h

theorem P_width {I w : Nat} (hp : I ≠ w) : w ≤ (P I w).width := by
  rcases P_cases hp with ⟨h, e⟩ | ⟨h, e⟩ <;> rw [e] <;> simp <;> omega

theorem toT_emod (w : Nat) (x : Int) : toT w x = (x % 2 ^ w).toNat := rfl

theorem toT_nat {w x : Nat} (h : x < 2 ^ w) : toT w (x : Int) = x := by
  rw [toT_emod, ← cast_pow, ← Int.natCast_mod, Int.toNat_natCast, Nat.mod_eq_of_lt h]

theorem toT_natmod (w x : Nat) : toT w (x : Int) = x % 2 ^ w := by
  rw [toT_emod, ← cast_pow, ← Int.natCast_mod, Int.toNat_natCast]

theorem toT_lt (w : Nat) (x : Int) : toT w x < 2 ^ w := by
  rw [toT_emod]
  have h1 := Int.emod_nonneg x (ne_of_gt (p_pos w))
  have h2 := Int.emod_lt_of_pos x (p_pos w)
  have h3 := cast_pow w
  omega

/-- Values that differ by a multiple of `2^w` become the same part. -/
theorem toT_congr {w : Nat} {x y : Int} (h : (2 : Int) ^ w ∣ x - y) : toT w x = toT w y := by
  rw [toT_emod, toT_emod, Int.emod_eq_emod_iff_emod_sub_eq_zero.2 (Int.emod_eq_zero_of_dvd h)]

theorem toT_congr_nat {w : Nat} {x : Int} {y : Nat} (h : (2 : Int) ^ w ∣ x - y) : toT w x = y % 2 ^ w := by
  rw [toT_congr h, toT_natmod]

theorem cast_dvd (t : Ty) (x : Int) : (2 : Int) ^ t.width ∣ cast t x - x := by
  obtain ⟨s, b⟩ := t
  cases s
  · rw [cast_u, width_u, Int.emod_def]
    exact ⟨-(x / 2 ^ b), by ring⟩
  · rw [cast_s, width_s, Int.emod_def]
    exact ⟨-((x + 2 ^ b) / 2 ^ (b + 1)), by ring⟩

theorem toT_cast {I w : Nat} (hp : I ≠ w) (x : Int) : toT w (cast (P I w) x) = toT w x :=
  toT_congr (dvd_trans (p_dvd (P_width hp)) (cast_dvd _ _))

theorem P_In {I w x : Nat} (hp : I ≠ w) (h : x < 2 ^ w) : (P I w).In (x : Int) := by
  rw [In_nonneg (by omega)]
  calc (x : Int) < ((2 ^ w : Nat) : Int) := by exact_mod_cast h
    _ = 2 ^ w := cast_pow w
    _ ≤ _ := p_le (P_bits hp)

theorem arith_P (I w : Nat) (x : Int) : arith I (P I w) x = arith I (T w) x := by
  have : promote I (promote I (T w)) = promote I (T w) := by
    by_cases h : w ≤ I
    · simp [promote, h, intTy]
    · simp [promote, h]
  simp only [arith, this]

/-- Arithmetic in the promoted type. -/
theorem arith_T {I w : Nat} (hp : I ≠ w) {x : Int} (h1 : -(2 ^ w) ≤ x) (h2 : x < 2 ^ (w + 1)) :
    ∃ y, arith I (T w) x = some y ∧ (2 : Int) ^ w ∣ y - x ∧ (0 ≤ x → x < 2 ^ w → y = x) ∧ (w < I → y = x) ∧
      (I < w → y = x % 2 ^ w) := by
  rcases P_cases hp with ⟨h, e⟩ | ⟨h, e⟩
  · have e1 := p_le (show w ≤ I by omega)
    have e2 := p_le (show w + 1 ≤ I by omega)
    have e3 := p_pos I
    refine ⟨x, ?_, by simp, fun _ _ => rfl, fun _ => rfl, fun h' => by omega⟩
    have e' : promote I (T w) = ⟨true, I⟩ := e
    simp only [arith, e', if_true, In_s]
    rw [if_pos (by omega)]
  · have e' : promote I (T w) = ⟨false, w⟩ := e
    refine ⟨x % 2 ^ w, ?_, ?_, fun a b => Int.emod_eq_of_lt a b, fun h' => by omega, fun _ => rfl⟩
    · simp [arith, e']
    · rw [Int.emod_def]; exact ⟨-(x / 2 ^ w), by ring⟩

theorem arith_nat {I w x : Nat} (hp : I ≠ w) (h : x < 2 ^ w) : arith I (T w) (x : Int) = some (x : Int) := by
  have e := cast_pow w
  have e2 := p_succ w
  have e3 := p_pos w
  obtain ⟨y, h1, -, h3, -⟩ := arith_T hp (x := (x : Int)) (by omega) (by omega)
  rw [h1, h3 (by omega) (by omega)]

theorem bitsOf_nat {I w x : Nat} (hp : I ≠ w) (h : x < 2 ^ w) : bitsOf (P I w) (x : Int) = x := by
  have hb : 2 ^ w ≤ 2 ^ (P I w).width := Nat.pow_le_pow_right (by omega) (P_width hp)
  rw [bitsOf, ← cast_pow, ← Int.natCast_mod, Int.toNat_natCast, Nat.mod_eq_of_lt (by omega)]

theorem or_lt {w x y : Nat} (hx : x < 2 ^ w) (hy : y < 2 ^ w) : x ||| y < 2 ^ w := Nat.or_lt_two_pow hx hy

theorem bitOr_nat {I w x y : Nat} (hp : I ≠ w) (hx : x < 2 ^ w) (hy : y < 2 ^ w) :
    bitOr (P I w) (x : Int) (y : Int) = ((x ||| y : Nat) : Int) := by
  rw [bitOr, bitsOf_nat hp hx, bitsOf_nat hp hy, cast_id (P_In hp (or_lt hx hy))]

theorem bitAnd_nat {I w x y : Nat} (hp : I ≠ w) (hx : x < 2 ^ w) (hy : y < 2 ^ w) :
    bitAnd (P I w) (x : Int) (y : Int) = ((x &&& y : Nat) : Int) := by
  rw [bitAnd, bitsOf_nat hp hx, bitsOf_nat hp hy, cast_id (P_In hp (Nat.lt_of_le_of_lt Nat.and_le_left hx))]

/-- `or` of parts, one of which may have more bits than the part type. -/
theorem toT_bitOr {I w x : Nat} {y : Int} (hp : I ≠ w) (hx : x < 2 ^ w) :
    toT w (bitOr (P I w) (x : Int) y) = x ||| toT w y := by
  rw [bitOr, toT_cast hp, bitsOf_nat hp hx, toT_natmod, Nat.or_mod_two_pow, Nat.mod_eq_of_lt hx]
  congr 1
  rw [bitsOf, toT_emod]
  have hb := P_width hp
  have h0 : 0 ≤ y % 2 ^ (P I w).width := Int.emod_nonneg y (ne_of_gt (p_pos _))
  apply Int.ofNat.inj
  show ((_ : Nat) : Int) = ((_ : Nat) : Int)
  rw [Int.natCast_mod, Int.toNat_of_nonneg h0, cast_pow, Int.emod_emod_of_dvd _ (p_dvd hb),
    Int.toNat_of_nonneg (Int.emod_nonneg y (ne_of_gt (p_pos _)))]

theorem bitOr_comm (t : Ty) (x y : Int) : bitOr t x y = bitOr t y x := by
  rw [bitOr, bitOr, Nat.lor_comm]

/-- Masking. -/
theorem toT_bitAnd_mask {I w s : Nat} (hp : I ≠ w) (hs : s ≤ w) (x : Int) :
    toT w (bitAnd (P I w) x ((2 ^ s - 1 : Nat) : Int)) = (x % 2 ^ s).toNat := by
  have hs2 : 2 ^ s ≤ 2 ^ w := Nat.pow_le_pow_right (by omega) hs
  have hpos := two_pos s
  rw [bitAnd, toT_cast hp, bitsOf_nat hp (show 2 ^ s - 1 < 2 ^ w by omega), Nat.and_two_pow_sub_one_eq_mod,
    toT_nat (by have := Nat.mod_lt (bitsOf (P I w) x) hpos; omega), bitsOf]
  have hb := P_width hp
  have h0 : 0 ≤ x % 2 ^ (P I w).width := Int.emod_nonneg x (ne_of_gt (p_pos _))
  apply Int.ofNat.inj
  show ((_ : Nat) : Int) = ((_ : Nat) : Int)
  rw [Int.natCast_mod, Int.toNat_of_nonneg h0, cast_pow, Int.emod_emod_of_dvd _ (p_dvd (by omega)),
    Int.toNat_of_nonneg (Int.emod_nonneg x (ne_of_gt (p_pos _)))]

theorem toT_bitAnd_mask_nat {I w s x : Nat} (hp : I ≠ w) (hs : s ≤ w) :
    toT w (bitAnd (P I w) (x : Int) ((2 ^ s - 1 : Nat) : Int)) = x % 2 ^ s := by
  rw [toT_bitAnd_mask hp hs, ← cast_pow, ← Int.natCast_mod, Int.toNat_natCast]

theorem shr_nat {I w x r : Nat} (hp : I ≠ w) (hr : r < w) : shr (P I w) (x : Int) r = some ((x / 2 ^ r : Nat) : Int) := by
  have := P_width hp
  rw [shr, if_pos (by omega), ← cast_pow, Int.natCast_div]

theorem shl_toT {I w x r : Nat} (hp : I ≠ w) (hr : r < w) :
    ∃ y, shl (P I w) (x : Int) r = some y ∧ toT w y = x * 2 ^ r % 2 ^ w := by
  have := P_width hp
  refine ⟨_, by rw [shl, if_pos (by omega)], ?_⟩
  rw [toT_cast hp, ← cast_pow, ← Int.natCast_mul, toT_natmod]

theorem shl_nat {I w x r : Nat} (hp : I ≠ w) (hr : r < w) (hx : x * 2 ^ r < 2 ^ w) :
    shl (P I w) (x : Int) r = some ((x * 2 ^ r : Nat) : Int) := by
  have := P_width hp
  rw [shl, if_pos (by omega), ← cast_pow, ← Int.natCast_mul, cast_id (P_In hp hx)]

theorem subw_le (w : Nat) : 2 * subw w ≤ w := by unfold subw; omega

theorem subw_pos {w : Nat} (hw : 2 ≤ w) : 0 < subw w := by unfold subw; omega

theorem mask_eq {I w : Nat} (hI : 1 ≤ I) (_hw : 2 ≤ w) : mask I w = some (2 ^ subw w - 1) := by
  have h := C56_mask I hI (T w) (subw w)
  have hs := subw_le w
  rw [Int.toNat_natCast, Nat.min_eq_left (show subw w ≤ (T w).bits by show subw w ≤ w; omega)] at h
  simp only [mask, h, Option.bind_eq_bind, Option.bind_some]
  have := cast_pow (subw w)
  have := two_pos (subw w)
  congr 1
  omega

theorem sq_le {w : Nat} : 2 ^ subw w * 2 ^ subw w ≤ 2 ^ w := by
  rw [← pow_add]; exact Nat.pow_le_pow_right (by omega) (by have := subw_le w; omega)

theorem mulStep_eq {I w a b c d : Nat} (hp : I ≠ w) (hI : 1 ≤ I) (hw : 2 ≤ w) (ha : a < 2 ^ subw w) (hb : b < 2 ^ subw w)
    (hc : c < 2 ^ subw w) (hd : d < 2 ^ subw w) :
    mulStep I w a b c d = some ((a * b + c + d) % 2 ^ subw w, (a * b + c + d) / 2 ^ subw w) := by
  have hsq := sq_le (w := w)
  have hlt : a * b + c + d < 2 ^ w := by
    have : a * b ≤ (2 ^ subw w - 1) * (2 ^ subw w - 1) := Nat.mul_le_mul (by omega) (by omega)
    generalize 2 ^ subw w = B at *
    obtain ⟨k, rfl⟩ : ∃ k, B = k + 1 := ⟨B - 1, by omega⟩
    rw [Nat.add_sub_cancel] at this
    have e : (k + 1) * (k + 1) = k * k + k + k + 1 := by ring
    omega
  have h1 := subw_le w
  have h2 := subw_pos hw
  simp only [mulStep, arith_P]
  rw [← Int.natCast_mul, arith_nat hp (by omega)]
  simp only [Option.bind_eq_bind, Option.bind_some]
  rw [← Int.natCast_add, arith_nat hp (by omega)]
  simp only [Option.bind_some]
  rw [← Int.natCast_add, arith_nat hp (by omega)]
  simp only [Option.bind_some]
  rw [mask_eq hI hw, shr_nat hp (by omega)]
  simp only [Option.bind_some]
  rw [toT_bitAnd_mask_nat hp (by omega), toT_nat (Nat.lt_of_le_of_lt (Nat.div_le_self _ _) hlt)]

theorem addStep_eq {I w x y c : Nat} (hp : I ≠ w) (hI : 1 ≤ I) (hw : 2 ≤ w) (hx : x < 2 ^ subw w) (hy : y < 2 ^ subw w)
    (hc : c ≤ 1) :
    addStep I w x y c = some ((x + y + c) % 2 ^ subw w, (x + y + c) / 2 ^ subw w) := by
  have hsq := sq_le (w := w)
  have hlt : x + y + c < 2 ^ w := by
    have h2 : 2 ≤ 2 ^ subw w := Nat.pow_le_pow_right (n := 2) (by omega) (subw_pos hw)
    have : 2 * 2 ^ subw w ≤ 2 ^ subw w * 2 ^ subw w := Nat.mul_le_mul_right _ h2
    omega
  have h1 := subw_le w
  have h2 := subw_pos hw
  simp only [addStep, arith_P]
  rw [← Int.natCast_add, arith_nat hp (by omega)]
  simp only [Option.bind_eq_bind, Option.bind_some]
  rw [← Int.natCast_add, arith_nat hp (by omega)]
  simp only [Option.bind_some]
  rw [mask_eq hI hw, shr_nat hp (by omega)]
  simp only [Option.bind_some]
  rw [toT_bitAnd_mask_nat hp (by omega), toT_nat (Nat.lt_of_le_of_lt (Nat.div_le_self _ _) hlt)]

/-- Subtraction with borrow. -/
theorem subStep_eq {I w x y c : Nat} (hp : I ≠ w) (hI : 1 ≤ I) (hw : 2 ≤ w) (hx : x < 2 ^ subw w) (hy : y < 2 ^ subw w)
    (hc : c ≤ 1) :
    ∃ d c', subStep I w x y c = some (d, c') ∧ d < 2 ^ subw w ∧ c' ≤ 1 ∧ x + c' * 2 ^ subw w = y + c + d := by
  have h1 := subw_le w
  have h2 := subw_pos hw
  have e1 := cast_pow (subw w)
  have e2 := p_le (show subw w ≤ w by omega)
  have e3 := p_succ w
  have e4 := p_pos w
  obtain ⟨a, ha, ha1, -, ha2, ha3⟩ := arith_T hp (x := (x : Int) - y) (by omega) (by omega)
  have hab : -(2 ^ w) ≤ a - c ∧ a - c < 2 ^ (w + 1) := by
    rcases Nat.lt_or_gt_of_ne hp with h | h
    · rw [ha3 h]
      have := Int.emod_nonneg ((x : Int) - y) (ne_of_gt (p_pos w))
      have := Int.emod_lt_of_pos ((x : Int) - y) (p_pos w)
      omega
    · rw [ha2 h]; omega
  obtain ⟨b, hb, hb1, -, hb2, hb3⟩ := arith_T hp (x := a - c) hab.1 hab.2
  have hmask := mask_eq (I := I) hI hw
  have hPw := P_width hp
  have hd : ∃ k : Int, b = (x : Int) - y - c + k * 2 ^ w := by
    obtain ⟨k1, hk1⟩ := ha1
    obtain ⟨k2, hk2⟩ := hb1
    exact ⟨k1 + k2, by linear_combination hk1 + hk2⟩
  simp only [subStep, arith_P, ha, hb, hmask, Option.bind_eq_bind, Option.bind_some, shr]
  rw [if_pos (by omega)]
  simp only [Option.bind_some]
  rw [toT_bitAnd_mask hp (by omega)]
  have hone := toT_bitAnd_mask hp (s := 1) (by omega) (b / 2 ^ subw w)
  rw [show ((2 ^ 1 - 1 : Nat) : Int) = 1 from rfl] at hone
  rw [hone]
  -- The value of the difference.
  generalize hv : (x : Int) - y - c = v at *
  have hv1 : -(2 ^ subw w) ≤ v ∧ v < 2 ^ subw w := by omega
  have hmod : b % 2 ^ subw w = v % 2 ^ subw w := by
    obtain ⟨k, hk⟩ := hd
    obtain ⟨m, hm⟩ := p_dvd (show subw w ≤ w by omega)
    rw [hk, hm, show v + k * (2 ^ subw w * m) = v + 2 ^ subw w * (k * m) by ring, Int.add_mul_emod_self_left]
  have hbor : b / 2 ^ subw w % 2 ^ 1 = if v < 0 then 1 else 0 := by
    have hcase : b = v ∨ (b = v + 2 ^ w ∧ v < 0) := by
      rcases Nat.lt_or_gt_of_ne hp with h | h
      · have hbv : b = v % 2 ^ w := by
          obtain ⟨k, hk⟩ := hd
          have hb0 : b % 2 ^ w = b := by rw [hb3 h, Int.emod_emod_of_dvd _ (dvd_refl _)]
          rw [← hb0, hk, Int.add_mul_emod_self_right]
        by_cases hv0 : v < 0
        · right
          refine ⟨?_, hv0⟩
          rw [hbv, ← Int.add_emod_right]
          exact Int.emod_eq_of_lt (by omega) (by omega)
        · left
          rw [hbv]
          exact Int.emod_eq_of_lt (by omega) (by omega)
      · left
        rw [hb2 h, ha2 h, hv]
    have hdiv : v / 2 ^ subw w = if v < 0 then -1 else 0 := by
      split_ifs with h0
      · rw [Int.ediv_eq_iff_of_pos (p_pos _)]; omega
      · rw [Int.ediv_eq_iff_of_pos (p_pos _)]; omega
    rcases hcase with h | ⟨h, h0⟩
    · rw [h, hdiv]
      split_ifs <;> rfl
    · rw [h]
      have hpw : (2 : Int) ^ w = 2 ^ subw w * (2 * 2 ^ (w - subw w - 1)) := by
        rw [← p_succ, ← pow_add]; congr 1; omega
      rw [hpw, Int.add_mul_ediv_left _ _ (ne_of_gt (p_pos _)), hdiv, if_pos h0, if_pos h0]
      omega
  rw [hmod, hbor]
  refine ⟨_, _, rfl, ?_, ?_, ?_⟩
  · have := Int.emod_nonneg v (ne_of_gt (p_pos (subw w)))
    have := Int.emod_lt_of_pos v (p_pos (subw w))
    omega
  · split_ifs <;> decide
  · by_cases h0 : v < 0
    · rw [if_pos h0]
      have : v % 2 ^ subw w = v + 2 ^ subw w := by
        rw [← Int.add_emod_right]
        exact Int.emod_eq_of_lt (by omega) (by omega)
      rw [this]
      simp
      omega
    · rw [if_neg h0]
      have : v % 2 ^ subw w = v := Int.emod_eq_of_lt (by omega) (by omega)
      rw [this]
      simp
      omega

theorem partialAdd_eq {I w l r : Nat} {c : Bool} (hp : I ≠ w) (hw : 1 ≤ w) (hl : l < 2 ^ w) (hr : r < 2 ^ w) :
    ∃ d c', partialAdd I w l r c = some (d, c') ∧ d < 2 ^ w ∧ d + c'.toNat * 2 ^ w = l + r + c.toNat := by
  have e1 := cast_pow w
  have e3 := p_succ w
  have e4 := p_pos w
  obtain ⟨a, ha, ha1, -⟩ := arith_T hp (x := (l : Int) + r) (by omega) (by omega)
  have hcl : c.toNat ≤ 1 := by cases c <;> decide
  have ta : toT w a = (l + r) % 2 ^ w := toT_congr_nat (by push_cast; exact ha1)
  have tl := Nat.mod_lt (l + r) (two_pos w)
  obtain ⟨b, hb, hb1, -⟩ := arith_T hp (x := (((l + r) % 2 ^ w : Nat) : Int) + c.toNat) (by omega) (by omega)
  have tb : toT w b = ((l + r) % 2 ^ w + c.toNat) % 2 ^ w := toT_congr_nat (by push_cast at hb1 ⊢; exact hb1)
  simp only [partialAdd, ha, ta, hb, tb, Option.bind_eq_bind, Option.bind_some]
  refine ⟨_, _, rfl, Nat.mod_lt _ (two_pos w), ?_⟩
  have hM : 2 ≤ 2 ^ w := Nat.pow_le_pow_right (n := 2) (by omega) hw
  generalize 2 ^ w = M at *
  clear ha ha1 ta hb hb1 tb e1 e3 e4 a b
  by_cases h1 : l + r < M
  · rw [Nat.mod_eq_of_lt h1]
    by_cases h2 : l + r + c.toNat < M
    · rw [Nat.mod_eq_of_lt h2, decide_eq_false (show ¬ l + r < l by omega),
        decide_eq_false (show ¬ l + r + c.toNat < l + r by omega)]
      simp
    · rw [Nat.mod_eq_sub_mod (by omega), Nat.mod_eq_of_lt (by omega), decide_eq_false (show ¬ l + r < l by omega),
        decide_eq_true (show l + r + c.toNat - M < l + r by omega)]
      simp; omega
  · have e : (l + r) % M = l + r - M := by rw [Nat.mod_eq_sub_mod (by omega), Nat.mod_eq_of_lt (by omega)]
    rw [e, Nat.mod_eq_of_lt (by omega), decide_eq_true (show l + r - M < l by omega)]
    simp; omega

theorem partialSub_eq {I w l r : Nat} {c : Bool} (hp : I ≠ w) (hw : 1 ≤ w) (hl : l < 2 ^ w) (hr : r < 2 ^ w) :
    ∃ d c', partialSub I w l r c = some (d, c') ∧ d < 2 ^ w ∧ l + c'.toNat * 2 ^ w = r + c.toNat + d := by
  have e1 := cast_pow w
  have e3 := p_succ w
  have e4 := p_pos w
  have hcl : c.toNat ≤ 1 := by cases c <;> decide
  obtain ⟨a, ha, ha1, -⟩ := arith_T hp (x := (l : Int) - r) (by omega) (by omega)
  have ta : toT w a = (l + 2 ^ w - r) % 2 ^ w := toT_congr_nat (by
    obtain ⟨k, hk⟩ := ha1
    rw [Nat.cast_sub (by omega)]
    push_cast
    exact ⟨k - 1, by linear_combination hk⟩)
  have tl := Nat.mod_lt (l + 2 ^ w - r) (two_pos w)
  obtain ⟨b, hb, hb1, -⟩ := arith_T hp (x := (((l + 2 ^ w - r) % 2 ^ w : Nat) : Int) - c.toNat) (by omega) (by omega)
  have tb : toT w b = ((l + 2 ^ w - r) % 2 ^ w + 2 ^ w - c.toNat) % 2 ^ w := toT_congr_nat (by
    obtain ⟨k, hk⟩ := hb1
    have := two_pos w
    rw [Nat.cast_sub (by omega), Nat.cast_add, cast_pow w]
    exact ⟨k - 1, by linear_combination hk⟩)
  simp only [partialSub, ha, ta, hb, tb, Option.bind_eq_bind, Option.bind_some]
  refine ⟨_, _, rfl, Nat.mod_lt _ (two_pos w), ?_⟩
  have hM : 2 ≤ 2 ^ w := Nat.pow_le_pow_right (n := 2) (by omega) hw
  generalize 2 ^ w = M at *
  clear ha ha1 ta hb hb1 tb e1 e3 e4 a b
  by_cases h1 : r ≤ l
  · have e : (l + M - r) % M = l - r := by
      rw [show l + M - r = (l - r) + M by omega, Nat.add_mod_right, Nat.mod_eq_of_lt (by omega)]
    rw [e] at tl ⊢
    by_cases h2 : c.toNat ≤ l - r
    · have e2 : (l - r + M - c.toNat) % M = l - r - c.toNat := by
        rw [show l - r + M - c.toNat = (l - r - c.toNat) + M by omega, Nat.add_mod_right, Nat.mod_eq_of_lt (by omega)]
      rw [e2, decide_eq_false (show ¬ l - r > l by omega), decide_eq_false (show ¬ l - r - c.toNat > l - r by omega)]
      simp; omega
    · rw [Nat.mod_eq_of_lt (show l - r + M - c.toNat < M by omega), decide_eq_false (show ¬ l - r > l by omega),
        decide_eq_true (show l - r + M - c.toNat > l - r by omega)]
      simp; omega
  · rw [Nat.mod_eq_of_lt (show l + M - r < M by omega)]
    have e2 : (l + M - r + M - c.toNat) % M = l + M - r - c.toNat := by
      rw [show l + M - r + M - c.toNat = (l + M - r - c.toNat) + M by omega, Nat.add_mod_right, Nat.mod_eq_of_lt (by omega)]
    rw [e2, decide_eq_true (show l + M - r > l by omega)]
    simp; omega

end Verif.MulPrec
