import Verif.PixelLoops.Spec
import Verif.Integer.TwosCompl
import Mathlib.Tactic.Ring
/-!
Fields of bits in words.
-/
namespace Verif.PixelLoops
open Verif.Integer

/-! ### Digits -/

theorem num_foldl (b : Nat) (l : List Nat) : ∀ a, l.foldl (fun a d => a * b + d) a = a * b ^ l.length + Spec.num b l := by
  unfold Spec.num
  induction l with
  | nil => intro a; simp
  | cons d l ih =>
    intro a
    rw [List.foldl_cons, ih, List.foldl_cons, ih (0 * b + d), List.length_cons]
    ring

theorem num_nil (b : Nat) : Spec.num b [] = 0 := rfl

theorem num_append (b : Nat) (l l' : List Nat) : Spec.num b (l ++ l') = Spec.num b l * b ^ l'.length + Spec.num b l' := by
  rw [Spec.num, List.foldl_append, num_foldl]; rfl

theorem num_cons (b d : Nat) (l : List Nat) : Spec.num b (d :: l) = d * b ^ l.length + Spec.num b l := by
  rw [Spec.num, List.foldl_cons, num_foldl]; simp

theorem num_lt {b : Nat} {l : List Nat} (h : ∀ d ∈ l, d < b) : Spec.num b l < b ^ l.length := by
  induction l with
  | nil => simp [num_nil]
  | cons d l ih =>
    rw [num_cons, List.length_cons]
    have h1 := ih (fun x hx => h x (List.mem_cons_of_mem _ hx))
    have h2 : (d + 1) * b ^ l.length ≤ b * b ^ l.length := Nat.mul_le_mul_right _ (h d List.mem_cons_self)
    rw [Nat.add_mul] at h2
    rw [Nat.pow_succ, Nat.mul_comm _ b]; omega

theorem num_replicate_zero (b n : Nat) : Spec.num b (List.replicate n 0) = 0 := by
  induction n with
  | zero => rfl
  | succ n ih => rw [List.replicate_succ, num_cons, ih]; simp

/-- A list split at an index. -/
theorem split_at {α : Type} {l : List α} {j : Nat} (h : j < l.length) :
    l = l.take j ++ l[j] :: l.drop (j + 1) := by
  rw [← List.drop_eq_getElem_cons h, List.take_append_drop]

theorem num_split {k : Nat} {l : List Nat} {j : Nat} (h : j < l.length) :
    Spec.num (2 ^ k) l =
      (Spec.num (2 ^ k) (l.take j) * 2 ^ k + l[j]) * 2 ^ (k * (l.length - 1 - j)) + Spec.num (2 ^ k) (l.drop (j + 1)) := by
  conv_lhs => rw [split_at h]
  rw [num_append, num_cons, List.length_cons, List.length_drop, ← Nat.pow_mul, ← Nat.pow_mul]
  rw [show l.length - (j + 1) = l.length - 1 - j by omega]
  rw [show k * (l.length - 1 - j + 1) = k + k * (l.length - 1 - j) by ring, Nat.pow_add]
  ring

theorem num_split_set {k : Nat} {l : List Nat} {j : Nat} (h : j < l.length) (x : Nat) :
    Spec.num (2 ^ k) (l.set j x) =
      (Spec.num (2 ^ k) (l.take j) * 2 ^ k + x) * 2 ^ (k * (l.length - 1 - j)) + Spec.num (2 ^ k) (l.drop (j + 1)) := by
  have h' : j < (l.set j x).length := by simpa using h
  rw [num_split h', List.length_set, List.getElem_set_self, List.drop_set_of_lt (by omega), List.take_set,
    List.set_eq_of_length_le (by simp)]

theorem drop_num_lt {k : Nat} {l : List Nat} {j : Nat} (h : j < l.length) (hd : ∀ d ∈ l, d < 2 ^ k) :
    Spec.num (2 ^ k) (l.drop (j + 1)) < 2 ^ (k * (l.length - 1 - j)) := by
  have := num_lt (b := 2 ^ k) (l := l.drop (j + 1)) (fun d hd' => hd d (List.mem_of_mem_drop hd'))
  rw [List.length_drop, ← Nat.pow_mul, show l.length - (j + 1) = l.length - 1 - j by omega] at this
  exact this

/-- Extraction of a digit. -/
theorem num_get {k : Nat} {l : List Nat} {j : Nat} (h : j < l.length) (hd : ∀ d ∈ l, d < 2 ^ k) :
    Spec.num (2 ^ k) l / 2 ^ (k * (l.length - 1 - j)) % 2 ^ k = l[j] := by
  rw [num_split h, Nat.mul_comm _ (2 ^ (k * (l.length - 1 - j))), Nat.mul_add_div (Nat.two_pow_pos _),
    Nat.div_eq_of_lt (drop_num_lt h hd), Nat.add_zero, Nat.mul_comm, Nat.mul_add_mod,
    Nat.mod_eq_of_lt (hd _ (List.getElem_mem h))]

/-! ### Bits -/

theorem testBit_parts {hi d lo k s : Nat} (hd : d < 2 ^ k) (hlo : lo < 2 ^ s) (i : Nat) :
    ((hi * 2 ^ k + d) * 2 ^ s + lo).testBit i =
      if i < s then lo.testBit i else if i - s < k then d.testBit (i - s) else hi.testBit (i - s - k) := by
  rw [Nat.mul_comm _ (2 ^ s), Nat.testBit_two_pow_mul_add _ hlo]
  split
  · rfl
  · rw [Nat.mul_comm _ (2 ^ k), Nat.testBit_two_pow_mul_add _ hd]

theorem lt_bits {x k i : Nat} (h : x < 2 ^ k) (hi : ¬ i < k) : x.testBit i = false :=
  Nat.testBit_lt_two_pow (Nat.lt_of_lt_of_le h (Nat.pow_le_pow_right (by decide) (by omega)))

/-- Replacement of a field. -/
theorem set_field {hi d x lo k s N : Nat} (hd : d < 2 ^ k) (hx : x < 2 ^ k) (hlo : lo < 2 ^ s)
    (hN : (hi * 2 ^ k + d) * 2 ^ s + lo < 2 ^ N) :
    (((hi * 2 ^ k + d) * 2 ^ s + lo) &&& ((2 ^ N - 1) ^^^ ((2 ^ k - 1) * 2 ^ s))) ||| (x * 2 ^ s) =
      (hi * 2 ^ k + x) * 2 ^ s + lo := by
  apply Nat.eq_of_testBit_eq
  intro i
  have hb := fun h => lt_bits (i := i) hN h
  rw [testBit_parts hd hlo] at hb
  rw [Nat.testBit_or, Nat.testBit_and, Nat.testBit_xor, testBit_parts hd hlo, testBit_parts hx hlo,
    Nat.testBit_two_pow_sub_one, Nat.mul_comm (2 ^ k - 1), Nat.mul_comm x, Nat.testBit_two_pow_mul, Nat.testBit_two_pow_mul,
    Nat.testBit_two_pow_sub_one]
  by_cases h1 : i < s
  · simp only [h1, if_true, ge_iff_le, show ¬ s ≤ i by omega, decide_false, Bool.false_and, Bool.or_false, Bool.xor_false]
    by_cases h3 : i < N
    · simp [h3]
    · have := hb h3
      rw [if_pos h1] at this
      rw [this]; simp
  · simp only [h1, if_false, ge_iff_le, show s ≤ i by omega, decide_true, Bool.true_and]
    by_cases h2 : i - s < k
    · simp only [h2, if_true, decide_true, Bool.xor_true]
      by_cases h3 : i < N
      · simp [h3]
      · have := hb h3
        rw [if_neg h1, if_pos h2] at this
        rw [this]; simp
    · simp only [h2, if_false, decide_false, Bool.xor_false]
      rw [lt_bits hx h2, Bool.or_false]
      by_cases h3 : i < N
      · simp [h3]
      · have := hb h3
        rw [if_neg h1, if_neg h2] at this
        rw [this]; simp

/-- Insertion into a field of zeros. -/
theorem or_field {hi x lo k s : Nat} (hx : x < 2 ^ k) (hlo : lo < 2 ^ s) :
    ((hi * 2 ^ k + 0) * 2 ^ s + lo) ||| (x * 2 ^ s) = (hi * 2 ^ k + x) * 2 ^ s + lo := by
  apply Nat.eq_of_testBit_eq
  intro i
  rw [Nat.testBit_or, testBit_parts (Nat.two_pow_pos k) hlo, testBit_parts hx hlo, Nat.mul_comm x, Nat.testBit_two_pow_mul]
  by_cases h1 : i < s
  · simp [h1, show ¬ s ≤ i by omega]
  · by_cases h2 : i - s < k
    · simp [h1, h2, show s ≤ i by omega]
    · simp only [h1, h2, if_false]; rw [lt_bits hx h2]; simp

theorem num_set_field {k N : Nat} {l : List Nat} {j x : Nat} (h : j < l.length) (hd : ∀ d ∈ l, d < 2 ^ k) (hx : x < 2 ^ k)
    (hN : k * l.length ≤ N) :
    (Spec.num (2 ^ k) l &&& ((2 ^ N - 1) ^^^ ((2 ^ k - 1) * 2 ^ (k * (l.length - 1 - j))))) |||
      (x * 2 ^ (k * (l.length - 1 - j))) = Spec.num (2 ^ k) (l.set j x) := by
  rw [num_split_set h]
  have hlt : Spec.num (2 ^ k) l < 2 ^ N := by
    have := num_lt hd
    rw [← Nat.pow_mul] at this
    exact Nat.lt_of_lt_of_le this (Nat.pow_le_pow_right (by decide) hN)
  rw [num_split h] at hlt ⊢
  exact set_field (hd _ (List.getElem_mem h)) hx (drop_num_lt h hd) hlt

theorem num_or_field {k : Nat} {l : List Nat} {j x : Nat} (h : j < l.length) (hd : ∀ d ∈ l, d < 2 ^ k) (hx : x < 2 ^ k)
    (hz : l[j] = 0) :
    Spec.num (2 ^ k) l ||| (x * 2 ^ (k * (l.length - 1 - j))) = Spec.num (2 ^ k) (l.set j x) := by
  rw [num_split_set h, num_split h, hz]
  exact or_field hx (drop_num_lt h hd)

/-! ### Operations of integer types on nonnegative values -/

theorem bits_le_width (t : Ty) : t.bits ≤ t.width := by unfold Ty.width; omega

theorem pow_cast_lt {x k b : Nat} (h : x < 2 ^ k) (hk : k ≤ b) : (x : Int) < 2 ^ b := by
  have : x < 2 ^ b := Nat.lt_of_lt_of_le h (Nat.pow_le_pow_right (by decide) hk)
  exact_mod_cast this

theorem shl_nat {t : Ty} {x n : Nat} (hn : n < t.width) (hx : x * 2 ^ n < 2 ^ t.bits) :
    shl t x n = some ((x * 2 ^ n : Nat) : Int) := by
  unfold shl
  rw [if_pos hn, cast_id]
  · push_cast; rfl
  · rw [In_nonneg (by positivity)]; exact_mod_cast hx

theorem shr_nat {t : Ty} {x n : Nat} (hn : n < t.width) : shr t x n = some ((x / 2 ^ n : Nat) : Int) := by
  unfold shr
  rw [if_pos hn]; push_cast; rfl

theorem bitAnd_nat {t : Ty} {x y : Nat} (hx : x < 2 ^ t.bits) (hy : y < 2 ^ t.bits) :
    bitAnd t x y = ((x &&& y : Nat) : Int) := by
  rw [bitAnd_left (by omega) (by exact_mod_cast hx), bitsOf_nonneg (by omega) (by exact_mod_cast hy)]; rfl

theorem bitOr_nat {t : Ty} {x y : Nat} (hx : x < 2 ^ t.bits) (hy : y < 2 ^ t.bits) :
    bitOr t x y = ((x ||| y : Nat) : Int) := by
  unfold bitOr
  rw [bitsOf_nonneg (by omega) (by exact_mod_cast hx), bitsOf_nonneg (by omega) (by exact_mod_cast hy)]
  simp only [Int.toNat_natCast]
  apply cast_id
  rw [In_nonneg (by omega)]
  exact_mod_cast Nat.or_lt_two_pow hx hy

/-- `x ^ y` in a promoted type. -/
theorem bitXor_lt {b x y : Nat} (hx : x < 2 ^ b) (hy : y < 2 ^ b) : x ^^^ y < 2 ^ b := Nat.xor_lt_two_pow hx hy

/-! ### Order of channels -/

/-- The index in the stored order of the channel with canonical index `i`. -/
def stored (n : Nat) (hasAlpha alphaFirst reverse : Bool) (i : Nat) : Nat :=
  let j := if hasAlpha && alphaFirst then (i + 1) % n else i
  if reverse then n - 1 - j else j

/-- The canonical index of the channel with index `j` in the stored order. -/
def unstored (n : Nat) (hasAlpha alphaFirst reverse : Bool) (j : Nat) : Nat :=
  let j := if reverse then n - 1 - j else j
  if hasAlpha && alphaFirst then (if j = 0 then n - 1 else j - 1) else j

variable {n : Nat} {ha af rv : Bool}

theorem stored_lt {i : Nat} (h : i < n) : stored n ha af rv i < n := by
  unfold stored
  have := Nat.mod_lt (i + 1) (by omega : 0 < n)
  split <;> split <;> simp_all <;> omega

theorem unstored_lt {j : Nat} (h : j < n) : unstored n ha af rv j < n := by
  unfold unstored
  simp only
  split <;> split <;> (try split) <;> omega

theorem rot_cases {i : Nat} (h : i < n) : (i + 1) % n = if i + 1 = n then 0 else i + 1 := by
  split
  · rename_i h2; rw [h2, Nat.mod_self]
  · exact Nat.mod_eq_of_lt (by omega)

theorem unstored_stored {i : Nat} (h : i < n) : unstored n ha af rv (stored n ha af rv i) = i := by
  unfold stored unstored
  simp only [rot_cases h]
  cases rv <;> cases (ha && af) <;> simp only [Bool.false_eq_true, if_false, if_true]
  · split <;> split <;> omega
  · omega
  · split <;> split <;> omega

theorem stored_unstored {j : Nat} (h : j < n) : stored n ha af rv (unstored n ha af rv j) = j := by
  unfold stored
  simp only [rot_cases (unstored_lt h)]
  unfold unstored
  cases rv <;> cases (ha && af) <;> simp only [Bool.false_eq_true, if_false, if_true]
  · split <;> split <;> omega
  · omega
  · split <;> split <;> omega

theorem order_length {α : Type} (l : List α) : (Spec.order ha af rv l).length = l.length := by
  unfold Spec.order
  simp only
  split <;> split <;> simp

theorem order_get {α : Type} (l : List α) (j : Nat) (h : j < l.length) :
    (Spec.order ha af rv l)[j]? = l[unstored l.length ha af rv j]? := by
  have rot : ∀ i, i < l.length → (l.drop (l.length - 1) ++ l.take (l.length - 1))[i]? =
      l[if i = 0 then l.length - 1 else i - 1]? := by
    intro i hi
    by_cases h0 : i = 0
    · subst h0
      rw [List.getElem?_append_left (by simp; omega), List.getElem?_drop]; simp
    · rw [List.getElem?_append_right (by simp; omega), if_neg h0]
      have e : i - (l.drop (l.length - 1)).length = i - 1 := by simp; omega
      rw [e, List.getElem?_take, if_pos (by omega)]
  unfold Spec.order unstored
  cases rv <;> cases (ha && af) <;> simp only [Bool.false_eq_true, if_false, if_true]
  · exact rot j h
  · rw [List.getElem?_reverse h]
  · have hl : (l.drop (l.length - 1) ++ l.take (l.length - 1)).length = l.length := by simp
    rw [List.getElem?_reverse (by omega), hl]
    exact rot _ (by omega)

theorem order_set {α : Type} (l : List α) (i : Nat) (x : α) (h : i < l.length) :
    Spec.order ha af rv (l.set i x) = (Spec.order ha af rv l).set (stored l.length ha af rv i) x := by
  apply List.ext_getElem?
  intro j
  by_cases hj : j < l.length
  · rw [order_get _ _ (by simpa using hj), List.length_set, List.getElem?_set, List.getElem?_set, order_get _ _ hj]
    have hiff : stored l.length ha af rv i = j ↔ i = unstored l.length ha af rv j := by
      constructor
      · rintro rfl; rw [unstored_stored h]
      · rintro rfl; rw [stored_unstored hj]
    by_cases hc : i = unstored l.length ha af rv j
    · rw [if_pos hc, if_pos (hiff.2 hc), if_pos h, if_pos (by rw [order_length]; exact stored_lt h)]
    · rw [if_neg hc, if_neg (fun h => hc (hiff.1 h))]
  · rw [List.getElem?_eq_none (by rw [order_length]; simpa using hj), List.getElem?_eq_none (by simp [order_length]; omega)]

theorem order_stored {α : Type} (l : List α) (i : Nat) (h : i < l.length) :
    (Spec.order ha af rv l)[stored l.length ha af rv i]? = l[i]? := by
  rw [order_get _ _ (stored_lt h), unstored_stored h]

theorem order_mem {l : List Nat} {x : Nat} (h : x ∈ Spec.order ha af rv l) : x ∈ l := by
  obtain ⟨j, hj, rfl⟩ := List.mem_iff_getElem.1 h
  have hj' : j < l.length := by rwa [order_length] at hj
  have := order_get (ha := ha) (af := af) (rv := rv) l j hj'
  rw [List.getElem?_eq_getElem hj, List.getElem?_eq_getElem (unstored_lt hj')] at this
  injection this with this
  rw [this]; exact List.getElem_mem _

/-! ### Digits of a number -/

theorem num_digits {k : Nat} : ∀ {n v : Nat}, v < 2 ^ (k * n) →
    Spec.num (2 ^ k) ((List.range n).map fun j => v / 2 ^ (k * (n - 1 - j)) % 2 ^ k) = v := by
  intro n
  induction n with
  | zero => intro v hv; simp only [Nat.mul_zero, Nat.pow_zero] at hv; rw [List.range_zero, List.map_nil, num_nil]; omega
  | succ n ih =>
    intro v hv
    have hv' : v / 2 ^ k < 2 ^ (k * n) := by
      rw [Nat.div_lt_iff_lt_mul (Nat.two_pow_pos _), ← Nat.pow_add]
      rw [Nat.mul_succ] at hv; exact hv
    rw [List.range_succ, List.map_append, num_append]
    have e : ((List.range n).map fun j => v / 2 ^ (k * (n + 1 - 1 - j)) % 2 ^ k) =
        (List.range n).map fun j => v / 2 ^ k / 2 ^ (k * (n - 1 - j)) % 2 ^ k := by
      apply List.map_congr_left
      intro j hj
      have := List.mem_range.1 hj
      rw [Nat.div_div_eq_div_mul, ← Nat.pow_add, show n + 1 - 1 - j = n - 1 - j + 1 by omega, Nat.mul_succ, Nat.add_comm]
    rw [e, ih hv', List.map_cons, List.map_nil, List.length_singleton, num_cons, num_nil]
    simp only [Nat.add_sub_cancel, Nat.sub_self, Nat.mul_zero, Nat.pow_zero, Nat.div_one, List.length_nil, Nat.mul_one, Nat.add_zero,
      Nat.pow_one]
    exact Nat.div_add_mod' v (2 ^ k)

theorem order_digits {α : Type} (g : Nat → α) :
    Spec.order ha af rv ((List.range n).map fun i => g (stored n ha af rv i)) = (List.range n).map g := by
  apply List.ext_getElem?
  intro j
  by_cases hj : j < n
  · rw [order_get _ _ (by simpa using hj), List.length_map, List.length_range, List.getElem?_map, List.getElem?_map,
      List.getElem?_range (unstored_lt hj), List.getElem?_range hj, Option.map_some, Option.map_some, stored_unstored hj]
  · rw [List.getElem?_eq_none (by rw [order_length]; simp; omega), List.getElem?_eq_none (by simp; omega)]

end Verif.PixelLoops
