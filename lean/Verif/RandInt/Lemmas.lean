import Verif.RandInt.Model
import Verif.MulPrec.Convert
import Mathlib.Data.List.Forall2
/-!
Lemmas about random multiple precision integers.
-/
namespace Verif.RandInt
open Verif.MulPrec Verif.MulPrec.Spec

def Digits (w : Nat) (a : List Nat) : Prop := ∀ x ∈ a, x < 2 ^ w

theorem digits_cons {w x : Nat} {xs : List Nat} : Digits w (x :: xs) ↔ x < 2 ^ w ∧ Digits w xs := by
  simp [Digits]

theorem D_digits {w n : Nat} {a : List Nat} : D (2 ^ w) n a ↔ a.length = n ∧ Digits w a := by
  rw [← D_iff]; rfl

theorem uval_digits_lt {w : Nat} {a : List Nat} (h : Digits w a) : uval w a < 2 ^ (w * a.length) :=
  uval_lt (D_digits.2 ⟨rfl, h⟩)

theorem add_one {w a b : Nat} {c : Bool} (hw : 1 ≤ w) (ha : a < 2 ^ w) (hb : b < 2 ^ w) :
    ((a + b) % 2 ^ w + c.toNat) % 2 ^ w + (decide ((a + b) % 2 ^ w < a) || decide (((a + b) % 2 ^ w + c.toNat) % 2 ^ w < (a + b) % 2 ^ w)).toNat * 2 ^ w = a + b + c.toNat := by
  have h2 : 2 ≤ 2 ^ w := le_trans (by norm_num) (Nat.pow_le_pow_right (show 0 < 2 by omega) hw)
  generalize hB : 2 ^ w = B at *
  rcases Nat.lt_or_ge (a + b) B with h | h
  · rw [Nat.mod_eq_of_lt h, decide_eq_false (show ¬ a + b < a by omega), Bool.false_or]
    have hc : c.toNat ≤ 1 := Bool.toNat_le c
    rcases Nat.lt_or_ge (a + b + c.toNat) B with h' | h'
    · rw [Nat.mod_eq_of_lt h', decide_eq_false (by omega)]; simp
    · have e : a + b + c.toNat = B := by omega
      rw [e, Nat.mod_self, decide_eq_true (by omega)]; simp
  · have e : (a + b) % B = a + b - B := by rw [Nat.mod_eq_sub_mod h, Nat.mod_eq_of_lt (by omega)]
    have hc : c.toNat ≤ 1 := Bool.toNat_le c
    rw [e, decide_eq_true (show a + b - B < a by omega), Bool.true_or, Nat.mod_eq_of_lt (by omega)]
    simp; omega

theorem sub_one {w a b : Nat} {c : Bool} (hw : 1 ≤ w) (ha : a < 2 ^ w) (hb : b < 2 ^ w) :
    ((a + (2 ^ w - b)) % 2 ^ w + (2 ^ w - c.toNat)) % 2 ^ w + b + c.toNat =
      a + (decide ((a + (2 ^ w - b)) % 2 ^ w > a) || decide (((a + (2 ^ w - b)) % 2 ^ w + (2 ^ w - c.toNat)) % 2 ^ w > (a + (2 ^ w - b)) % 2 ^ w)).toNat * 2 ^ w := by
  have h2 : 2 ≤ 2 ^ w := le_trans (by norm_num) (Nat.pow_le_pow_right (show 0 < 2 by omega) hw)
  generalize hB : 2 ^ w = B at *
  have hc : c.toNat ≤ 1 := Bool.toNat_le c
  have key : ∀ d, d < B → (d + (B - c.toNat)) % B = if c.toNat ≤ d then d - c.toNat else d + B - c.toNat := by
    intro d hd
    split
    · rw [show d + (B - c.toNat) = d - c.toNat + B by omega, Nat.add_mod_right, Nat.mod_eq_of_lt (by omega)]
    · rw [Nat.mod_eq_of_lt (by omega)]; omega
  rcases Nat.lt_or_ge a b with h | h
  · have e : (a + (B - b)) % B = a + B - b := by rw [Nat.mod_eq_of_lt (by omega)]; omega
    rw [e, decide_eq_true (show a + B - b > a by omega), Bool.true_or, key _ (by omega)]
    simp only [Bool.toNat_true]
    split <;> omega
  · have e : (a + (B - b)) % B = a - b := by
      rw [show a + (B - b) = a - b + B by omega, Nat.add_mod_right, Nat.mod_eq_of_lt (by omega)]
    rw [e, decide_eq_false (show ¬ a - b > a by omega), Bool.false_or, key _ (by omega)]
    split
    · rw [decide_eq_false (by omega)]; simp; omega
    · rw [decide_eq_true (by omega)]; simp; omega

theorem add_spec {w : Nat} (hw : 1 ≤ w) : ∀ {a b : List Nat} {c : Bool}, a.length = b.length → Digits w a → Digits w b →
    (add w a b c).length = a.length ∧ Digits w (add w a b c) ∧ ∃ k, uval w (add w a b c) + k * 2 ^ (w * a.length) = uval w a + uval w b + c.toNat
  | [], [], c, _, _, _ => ⟨rfl, by simp [add, Digits], c.toNat, by simp [add, uval]⟩
  | x :: a, y :: b, c, hl, ha, hb => by
    rw [digits_cons] at ha hb
    simp only [List.length_cons, Nat.add_right_cancel_iff] at hl
    simp only [add]
    have h1 := add_one (c := c) hw ha.1 hb.1
    generalize (decide ((x + y) % 2 ^ w < x) || decide (((x + y) % 2 ^ w + c.toNat) % 2 ^ w < (x + y) % 2 ^ w)) = c' at *
    obtain ⟨e1, e2, k, e3⟩ := add_spec hw (c := c') hl ha.2 hb.2
    refine ⟨by simp [e1], digits_cons.2 ⟨Nat.mod_lt _ (two_pos _), e2⟩, k, ?_⟩
    simp only [uval_cons, List.length_cons]
    have e4 : k * 2 ^ (w * (a.length + 1)) = 2 ^ w * (k * 2 ^ (w * a.length)) := by
      rw [Nat.mul_add, Nat.mul_one, pow_add]; ring
    have e5 := congrArg (fun z => 2 ^ w * z) e3
    simp only [Nat.mul_add] at e5
    rw [e4]
    have e6 : c'.toNat * 2 ^ w = 2 ^ w * c'.toNat := Nat.mul_comm _ _
    omega
  | [], _ :: _, _, hl, _, _ => by simp at hl
  | _ :: _, [], _, hl, _, _ => by simp at hl

theorem sub_spec {w : Nat} (hw : 1 ≤ w) : ∀ {a b : List Nat} {c : Bool}, a.length = b.length → Digits w a → Digits w b →
    (sub w a b c).length = a.length ∧ Digits w (sub w a b c) ∧ ∃ k, uval w (sub w a b c) + uval w b + c.toNat = uval w a + k * 2 ^ (w * a.length)
  | [], [], c, _, _, _ => ⟨rfl, by simp [sub, Digits], c.toNat, by simp [sub, uval]⟩
  | x :: a, y :: b, c, hl, ha, hb => by
    rw [digits_cons] at ha hb
    simp only [List.length_cons, Nat.add_right_cancel_iff] at hl
    simp only [sub]
    have h1 := sub_one (c := c) hw ha.1 hb.1
    generalize (decide ((x + (2 ^ w - y)) % 2 ^ w > x) || decide (((x + (2 ^ w - y)) % 2 ^ w + (2 ^ w - c.toNat)) % 2 ^ w > (x + (2 ^ w - y)) % 2 ^ w)) = c' at *
    obtain ⟨e1, e2, k, e3⟩ := sub_spec hw (c := c') hl ha.2 hb.2
    refine ⟨by simp [e1], digits_cons.2 ⟨Nat.mod_lt _ (two_pos _), e2⟩, k, ?_⟩
    simp only [uval_cons, List.length_cons]
    have e4 : k * 2 ^ (w * (a.length + 1)) = 2 ^ w * (k * 2 ^ (w * a.length)) := by
      rw [Nat.mul_add, Nat.mul_one, pow_add]; ring
    have e5 := congrArg (fun z => 2 ^ w * z) e3
    simp only [Nat.mul_add] at e5
    rw [e4]
    have e6 : c'.toNat * 2 ^ w = 2 ^ w * c'.toNat := Nat.mul_comm _ _
    omega
  | [], _ :: _, _, hl, _, _ => by simp at hl
  | _ :: _, [], _, hl, _, _ => by simp at hl

/-- The number of bits of a number. -/
def BitLength (x n : Nat) : Prop := x < 2 ^ n ∧ (n = 0 ∨ 2 ^ (n - 1) ≤ x)

theorem findMsbPos_spec {w n : Nat} {a : List Nat} (hw : 1 ≤ w) (ha : D (2 ^ w) n a) : ∀ k ≤ n, ∃ b : Nat, findMsbPos w a k = some ((b : Int) - 1) ∧
    BitLength (V (2 ^ w) (g a) k) b ∧ b ≤ k * w := by
  intro k
  induction k with
  | zero => intro _; exact ⟨0, rfl, ⟨by simp [V_zero], .inl rfl⟩, by omega⟩
  | succ k ih =>
    intro hk
    have hx := ha.2 k (by omega)
    rw [findMsbPos, rd_eq (show k < a.length by rw [ha.1]; omega)]
    simp only [Option.bind_eq_bind, Option.bind_some]
    rw [V_succ]
    by_cases h : g a k = 0
    · rw [if_neg (by simpa using h), h]
      obtain ⟨b, h1, h2, h3⟩ := ih (by omega)
      exact ⟨b, h1, by simpa using h2, le_trans h3 (Nat.mul_le_mul_right _ (by omega))⟩
    · rw [if_pos h]
      have hin : (⟨false, w⟩ : Integer.Ty).In (g a k : Int) := by
        rw [Integer.In_u]
        have := cast_pow w
        refine ⟨by omega, ?_⟩
        omega
      rw [Integer.findMsbPos_pos hin (by omega), Int.toNat_natCast]
      have hlog1 : 2 ^ Nat.log2 (g a k) ≤ g a k := Nat.log2_self_le h
      have hlog2 : g a k < 2 ^ (Nat.log2 (g a k) + 1) := Nat.lt_log2_self
      have hlog3 : Nat.log2 (g a k) < w := (Nat.log2_lt h).2 hx
      generalize Nat.log2 (g a k) = e at *
      refine ⟨k * w + e + 1, by push_cast; ring_nf, ⟨?_, .inr ?_⟩, ?_⟩
      · have hV := V_lt (B := 2 ^ w) (f := g a) (n := k) (fun i hi => ha.2 i (by omega))
        calc V (2 ^ w) (g a) k + g a k * (2 ^ w) ^ k < (2 ^ w) ^ k + g a k * (2 ^ w) ^ k := by omega
          _ = (g a k + 1) * (2 ^ w) ^ k := by ring
          _ ≤ 2 ^ (e + 1) * (2 ^ w) ^ k := Nat.mul_le_mul_right _ hlog2
          _ = 2 ^ (k * w + e + 1) := by rw [← pow_mul, ← pow_add]; congr 1; ring
      · rw [Nat.add_sub_cancel]
        calc 2 ^ (k * w + e) = 2 ^ e * (2 ^ w) ^ k := by rw [← pow_mul, ← pow_add]; congr 1; ring
          _ ≤ g a k * (2 ^ w) ^ k := Nat.mul_le_mul_right _ hlog1
          _ ≤ _ := Nat.le_add_left _ _
      · rw [Nat.add_mul]; omega

theorem less_eq (a b : List Nat) (k : Nat) : less a b k = lessLoop a b k := by
  induction k with
  | zero => rfl
  | succ k ih =>
    simp only [less, lessLoop, ih]
    cases h1 : rd a k <;> cases h2 : rd b k <;> simp

theorem fill_spec : ∀ (xs parts : List Nat) (i : Nat), i + xs.length ≤ parts.length →
    fill i parts xs = some (parts.take i ++ xs ++ parts.drop (i + xs.length))
  | [], parts, i, _ => by simp [fill]
  | x :: xs, parts, i, h => by
    simp only [List.length_cons] at h
    rw [fill, wr, if_pos (by omega)]
    simp only [Option.bind_eq_bind, Option.bind_some]
    rw [fill_spec xs (parts.set i x) (i + 1) (by simp; omega)]
    congr 1
    rw [List.take_set, List.drop_set, if_pos (by omega)]
    rw [List.take_succ_eq_append_getElem (by omega), List.set_append_right _ _ (by simp)]
    simp [List.length_take, Nat.min_eq_left (show i ≤ parts.length by omega), show i + 1 + xs.length = i + (xs.length + 1) by omega]

theorem uval_append_zero (w : Nat) (xs : List Nat) (n : Nat) : uval w (xs ++ zero n) = uval w xs := by
  induction xs with
  | nil =>
    simp only [List.nil_append]
    induction n with
    | zero => rfl
    | succ n ih => rw [zero, List.replicate_succ, uval_cons]; rw [zero] at ih; rw [ih]; simp [uval]
  | cons x xs ih => rw [List.cons_append, uval_cons, uval_cons, ih]

/-- The random numbers for one attempt. -/
def Fit : List Nat → List Nat → Prop := List.Forall₂ (· ≤ ·)

theorem requests_length {w numBits n : Nat} (hw : 1 ≤ w) (h : numBits ≤ n * w) : (requests w numBits).length ≤ n := by
  have h1 : numBits / w ≤ n := by
    rw [Nat.div_le_iff_le_mul_add_pred (by omega)]
    have : w * n = n * w := Nat.mul_comm _ _
    omega
  unfold requests
  split
  · simp only [List.length_append, List.length_replicate, List.length_singleton]
    rcases Nat.lt_or_ge (numBits / w) n with h2 | h2
    · omega
    · have e := Nat.div_add_mod numBits w
      have : w * n ≤ w * (numBits / w) := Nat.mul_le_mul_left _ h2
      have : w * n = n * w := Nat.mul_comm _ _
      omega
  · simp [h1]

theorem fit_digits {w numBits : Nat} (hw : 1 ≤ w) {xs : List Nat} (h : Fit xs (requests w numBits)) : Digits w xs := by
  have hall : ∀ y ∈ requests w numBits, y < 2 ^ w := by
    intro y hy
    unfold requests at hy
    rcases List.mem_append.1 hy with hy | hy
    · have := (List.mem_replicate.1 hy).2
      have := two_pos w; omega
    · split at hy
      · simp only [List.mem_singleton] at hy
        have h1 : 2 ^ (numBits % w) ≤ 2 ^ w := Nat.pow_le_pow_right (by omega) (Nat.le_of_lt (Nat.mod_lt _ (by omega)))
        have := two_pos (numBits % w)
        omega
      · simp at hy
  unfold Fit at h
  generalize requests w numBits = ys at *
  revert hall
  induction h with
  | nil => intro _ x hx; simp at hx
  | cons h1 _ ih =>
    intro hall
    rw [digits_cons]
    exact ⟨lt_of_le_of_lt h1 (hall _ List.mem_cons_self), ih (fun y hy => hall y (List.mem_cons_of_mem _ hy))⟩

theorem fit_exists (w e : Nat) : ∀ (f x : Nat), x < 2 ^ (w * f + e) →
    ∃ xs, Fit xs (List.replicate f (2 ^ w - 1) ++ if e > 0 then [2 ^ e - 1] else []) ∧ uval w xs = x
  | 0, x, h => by
    rw [Nat.mul_zero, Nat.zero_add] at h
    by_cases he : e > 0
    · refine ⟨[x], ?_, by simp [uval]⟩
      simp only [List.replicate_zero, List.nil_append, if_pos he]
      exact .cons (by omega) .nil
    · have : e = 0 := by omega
      subst this
      refine ⟨[], ?_, by simp [uval]; omega⟩
      simp [Fit]
  | f + 1, x, h => by
    have hx : x / 2 ^ w < 2 ^ (w * f + e) := by
      rw [Nat.div_lt_iff_lt_mul (two_pos w), ← pow_add]
      rwa [show w * f + e + w = w * (f + 1) + e by ring]
    obtain ⟨xs, h1, h2⟩ := fit_exists w e f (x / 2 ^ w) hx
    refine ⟨x % 2 ^ w :: xs, ?_, ?_⟩
    · rw [List.replicate_succ, List.cons_append]
      exact .cons (by have := Nat.mod_lt x (two_pos w); omega) h1
    · rw [uval_cons, h2]; exact Nat.mod_add_div _ _

theorem fit_lt (w e : Nat) (he : e < w) : ∀ (f : Nat) (xs : List Nat), Fit xs (List.replicate f (2 ^ w - 1) ++ if e > 0 then [2 ^ e - 1] else []) →
    uval w xs < 2 ^ (w * f + e)
  | 0, xs, h => by
    rw [Nat.mul_zero, Nat.zero_add]
    simp only [List.replicate_zero, List.nil_append] at h
    split at h
    · cases h with
      | cons h1 h2 => cases h2; have := two_pos e; simp [uval]; omega
    · cases h; simp [uval, two_pos]
  | f + 1, xs, h => by
    rw [List.replicate_succ, List.cons_append] at h
    cases h with
    | cons h1 h2 =>
      have := fit_lt w e he f _ h2
      rw [uval_cons, show w * (f + 1) + e = w + (w * f + e) by ring, pow_add]
      rename_i x xs
      have h3 := two_pos w
      calc x + 2 ^ w * uval w xs < 2 ^ w + 2 ^ w * uval w xs := by omega
        _ = 2 ^ w * (uval w xs + 1) := by ring
        _ ≤ _ := Nat.mul_le_mul_left _ this

theorem attempt_spec {w n : Nat} {diff : List Nat} (hw : 1 ≤ w) (hd : D (2 ^ w) n diff) {numBits : Nat} (hb : numBits ≤ n * w) :
    ∀ (parts xs : List Nat), parts.length = n → (∃ ys, parts = ys ++ zero (n - (requests w numBits).length)) → Fit xs (requests w numBits) →
      fill 0 parts xs = some (xs ++ zero (n - (requests w numBits).length)) ∧ (xs ++ zero (n - (requests w numBits).length)).length = n ∧
      Digits w (xs ++ zero (n - (requests w numBits).length)) ∧
      less diff (xs ++ zero (n - (requests w numBits).length)) n = some (decide (uval w diff < uval w xs)) := by
    have hlen := requests_length hw hb
    rintro parts xs hp ⟨ys, rfl⟩ hf
    have hl : xs.length = (requests w numBits).length := hf.length_eq
    rw [fill_spec _ _ _ (by omega)]
    have hys : ys.length = (requests w numBits).length := by
      simp only [List.length_append, zero_length] at hp; omega
    refine ⟨?_, ?_, ?_, ?_⟩
    · simp [hl, ← hys]
    · simp [zero_length]; omega
    · intro x hx
      rcases List.mem_append.1 hx with hx | hx
      · exact fit_digits hw hf x hx
      · have := (List.mem_replicate.1 hx).2; rw [this]; exact two_pos _
    · have hD : D (2 ^ w) n (xs ++ zero (n - (requests w numBits).length)) := by
        rw [D_digits]
        refine ⟨by simp [zero_length]; omega, fun x hx => ?_⟩
        rcases List.mem_append.1 hx with hx | hx
        · exact fit_digits hw hf x hx
        · have := (List.mem_replicate.1 hx).2; rw [this]; exact two_pos _
      rw [less_eq, lessLoop_spec hd hD n (Nat.le_refl _)]
      rw [← uval_append_zero w xs (n - (requests w numBits).length), uval_D hd, uval_D hD]

theorem attempts_spec {w n : Nat} {diff : List Nat} (hw : 1 ≤ w) (hd : D (2 ^ w) n diff) {numBits : Nat} (hb : numBits ≤ n * w) :
    ∀ (pre : List (List Nat)) (parts xs : List Nat) (post : List (List Nat)), parts.length = n →
    (∃ ys, parts = ys ++ zero (n - (requests w numBits).length)) → (∀ ys ∈ pre, Fit ys (requests w numBits) ∧ uval w diff < uval w ys) →
    Fit xs (requests w numBits) → uval w xs ≤ uval w diff →
    ∃ r, attempts diff n parts (pre ++ xs :: post) = some r ∧ r.length = n ∧ Digits w r ∧ uval w r = uval w xs := by
  have key := attempt_spec hw hd hb
  intro pre
  induction pre with
  | nil =>
    intro parts xs post hp hz _ hf hle
    obtain ⟨h1, h2, h3, h4⟩ := key parts xs hp hz hf
    refine ⟨_, ?_, h2, h3, uval_append_zero _ _ _⟩
    rw [List.nil_append, attempts, h1]
    simp only [Option.bind_eq_bind, Option.bind_some, h4]
    rw [decide_eq_false (by omega)]; rfl
  | cons ys pre ih =>
    intro parts xs post hp hz hpre hf hle
    obtain ⟨g1, g2⟩ := hpre ys List.mem_cons_self
    obtain ⟨h1, h2, h3, h4⟩ := key parts ys hp hz g1
    obtain ⟨r, e1, e2⟩ := ih _ xs post h2 ⟨ys, rfl⟩ (fun z hz => hpre z (List.mem_cons_of_mem _ hz)) hf hle
    refine ⟨r, ?_, e2⟩
    rw [List.cons_append, attempts, h1]
    simp only [Option.bind_eq_bind, Option.bind_some, h4]
    rw [decide_eq_true g2]
    exact e1

theorem attempts_none {w n : Nat} {diff : List Nat} (hw : 1 ≤ w) (hd : D (2 ^ w) n diff) {numBits : Nat} (hb : numBits ≤ n * w) :
    ∀ (xss : List (List Nat)) (parts : List Nat), parts.length = n →
    (∃ ys, parts = ys ++ zero (n - (requests w numBits).length)) → (∀ ys ∈ xss, Fit ys (requests w numBits) ∧ uval w diff < uval w ys) →
    attempts diff n parts xss = none
  | [], _, _, _, _ => rfl
  | xs :: xss, parts, hp, hz, h => by
    obtain ⟨g1, g2⟩ := h xs List.mem_cons_self
    obtain ⟨h1, h2, h3, h4⟩ := attempt_spec hw hd hb parts xs hp hz g1
    have := attempts_none hw hd hb xss _ h2 ⟨xs, rfl⟩ (fun z hz => h z (List.mem_cons_of_mem _ hz))
    rw [attempts, h1]
    simp only [Option.bind_eq_bind, Option.bind_some, h4]
    rw [decide_eq_true g2]
    exact this

end Verif.RandInt
