import Verif.FormatAs.Spec
import Mathlib.Tactic.Linarith
import Mathlib.Tactic.FieldSimp
import Mathlib.Tactic.Ring
import Mathlib.Tactic.NormNum
import Mathlib.Tactic.Positivity
/-!
Properties of formatted values (C215 to C219).
-/
namespace Verif.FormatAs

/-- C215: the suffix of an ordinal is the English one for the magnitude of the number. -/
theorem C215_ordinal (v : Int) : ordinal v = toString v ++ Spec.suffix v.natAbs := by
  unfold ordinal
  congr 1
  unfold ordinalSuffix
  have key : ∀ t : Int, (0 ≤ t ∧ t < 100) → (t = (v.natAbs % 100 : Nat)) →
      (match (if t ≤ 3 then t else if t ≥ 20 then (if t.tmod 10 ≤ 3 then t.tmod 10 else 0) else 0) with
        | 0 => "th" | 1 => "st" | 2 => "nd" | _ => "rd") = Spec.suffix v.natAbs := by
    intro t _ ht
    have h1 : Spec.suffix v.natAbs = Spec.suffix (v.natAbs % 100) := by
      unfold Spec.suffix
      have h2 : v.natAbs % 100 % 10 = v.natAbs % 10 := by omega
      have h3 : v.natAbs % 100 % 100 = v.natAbs % 100 := by omega
      rw [h2, h3]
    rw [h1]
    have hlt : v.natAbs % 100 < 100 := Nat.mod_lt _ (by norm_num)
    generalize v.natAbs % 100 = k at *
    subst ht
    have : ∀ k : Fin 100, (match (if ((k : Nat) : Int) ≤ 3 then ((k : Nat) : Int) else if ((k : Nat) : Int) ≥ 20 then
        (if (((k : Nat) : Int)).tmod 10 ≤ 3 then (((k : Nat) : Int)).tmod 10 else 0) else 0) with
        | 0 => "th" | 1 => "st" | 2 => "nd" | _ => "rd") = Spec.suffix k := by decide +kernel
    exact this ⟨k, hlt⟩
  have ht : v.tmod 100 = if 0 ≤ v then v % 100 else -((-v) % 100) := by
    split
    · rw [Int.tmod_eq_emod_of_nonneg (by assumption)]
    · rw [← Int.tmod_eq_emod_of_nonneg (by omega), Int.neg_tmod, neg_neg]
  apply key
  · rw [ht]; split <;> split <;> omega
  · rw [ht]; split <;> split <;> omega

example : [1, 2, 3, 4, 11, 12, 13, 21, 102, 111, 113, -1, -12, 0, 1000000000023].map ordinal =
    ["1st", "2nd", "3rd", "4th", "11th", "12th", "13th", "21st", "102nd", "111th", "113th", "-1st", "-12th", "0th",
     "1000000000023rd"] := by decide +kernel

theorem round_eq {v : ℚ} (h0 : 0 ≤ v) (h1 : v + 1 / 2 < 2 ^ 63) :
    ∃ r : Int, round v = some r ∧ 0 ≤ r ∧ (r : ℚ) ≤ v + 1 / 2 ∧ v < r + 1 / 2 := by
  have hf := Int.floor_le (v + 1 / 2)
  have hf2 := Int.lt_floor_add_one (v + 1 / 2)
  have hn : 0 ≤ ⌊v + 1 / 2⌋ := Int.floor_nonneg.2 (by linarith)
  have hl : ⌊v + 1 / 2⌋ < 2 ^ 63 := by
    rw [Int.floor_lt]; push_cast; exact h1
  refine ⟨_, ?_, hn, hf, by linarith⟩
  unfold round
  simp only
  rw [if_pos ⟨hn, by omega⟩, if_pos hl]

theorem sign_abs {v : ℚ} {h : Int} (hh : 0 < h) :
    (v < 0 ↔ (if v < 0 then -h else h) < 0) ∧ |(if v < 0 then -h else h)| = h ∧
      |(((if v < 0 then -h else h : Int)) : ℚ)| = (h : ℚ) := by
  have hq : (0 : ℚ) < h := by exact_mod_cast hh
  by_cases hv : v < 0
  · rw [if_pos hv]
    refine ⟨by simp [hv, hh], by rw [abs_neg, abs_of_pos hh], ?_⟩
    push_cast; rw [abs_neg, abs_of_pos hq]
  · rw [if_neg hv]
    refine ⟨?_, abs_of_pos hh, abs_of_pos hq⟩
    constructor
    · intro h; exact (hv h).elim
    · intro h; omega

/-- C216: times of at least 59 and a half minutes are given as hours and minutes, with an error of at most half a minute.
Other times of at least 59 and a half seconds are given as minutes and seconds, with an error of at most half a second.
Other times are given as a quantity. Minutes and seconds in the last place are less than 60, and the sign is that of the
time. The documented boundaries are an hour and a minute. -/
theorem C216_time_partial (v : ℚ) (hv : |v| / 60 + 1 / 2 < 2 ^ 63) : ∃ t, time v = some t ∧ Spec.Tells v t := by
  have ha := abs_nonneg v
  unfold time
  obtain ⟨r, hr, r0, r1, r2⟩ := round_eq (v := |v| / 60) (by positivity) hv
  simp only [hr, Option.bind_eq_bind, Option.bind_some]
  by_cases h : r ≥ 60
  · rw [if_pos h]
    refine ⟨_, rfl, ?_⟩
    have hd : r.tdiv 60 = r / 60 := Int.tdiv_eq_ediv_of_nonneg r0
    have hm : r.tmod 60 = r % 60 := Int.tmod_eq_emod_of_nonneg r0
    rw [hd, hm]
    have hpos : 0 < r / 60 := by omega
    obtain ⟨s1, s2, s3⟩ := sign_abs (v := v) hpos
    unfold Spec.Tells
    have hsum : ((r / 60 : Int) : ℚ) * 60 + ((r % 60 : Int) : ℚ) = r := by
      have : r / 60 * 60 + r % 60 = r := by omega
      exact_mod_cast this
    have h60 : (60 : ℚ) ≤ r := by exact_mod_cast h
    refine ⟨by linarith, by omega, by rw [s2]; omega, s1, ?_⟩
    rw [s3, abs_le]
    constructor <;> linarith
  · rw [if_neg h]
    have h59 : (r : ℚ) ≤ 59 := by
      have : r ≤ 59 := by omega
      exact_mod_cast this
    have hlt : |v| < 3570 := by linarith
    obtain ⟨q, hq, q0, q1, q2⟩ := round_eq (v := |v|) ha (by linarith)
    rw [hq]
    simp only [Option.bind_some]
    by_cases h' : q ≥ 60
    · rw [if_pos h']
      refine ⟨_, rfl, ?_⟩
      have hd : q.tdiv 60 = q / 60 := Int.tdiv_eq_ediv_of_nonneg q0
      have hm : q.tmod 60 = q % 60 := Int.tmod_eq_emod_of_nonneg q0
      rw [hd, hm]
      have hpos : 0 < q / 60 := by omega
      obtain ⟨s1, s2, s3⟩ := sign_abs (v := v) hpos
      unfold Spec.Tells
      have hsum : ((q / 60 : Int) : ℚ) * 60 + ((q % 60 : Int) : ℚ) = q := by
        have : q / 60 * 60 + q % 60 = q := by omega
        exact_mod_cast this
      have h60 : (60 : ℚ) ≤ q := by exact_mod_cast h'
      have hub : q < 3571 := by
        have : (q : ℚ) < 3571 := by linarith
        exact_mod_cast this
      refine ⟨by linarith, hlt, by omega, by rw [s2]; omega, s1, ?_⟩
      rw [s3, abs_le]
      constructor <;> linarith
    · rw [if_neg h']
      refine ⟨_, rfl, ?_, rfl⟩
      have : q ≤ 59 := by omega
      have : (q : ℚ) ≤ 59 := by exact_mod_cast this
      linarith

/-- C216: a time of 59 minutes and 30 seconds, that is less than an hour, is given as one hour and zero minutes, and a
time of 59 and a half seconds, that is less than a minute, is given as one minute and zero seconds. -/
theorem C216_boundaries : time 3570 = some (.hm 1 0) ∧ time (119 / 2) = some (.ms 1 0) := by decide +kernel

example : time 197 = some (.ms 3 17) ∧ time (-34860) = some (.hm (-9) 41) ∧ time (7 / 2) = some (.quant (7 / 2)) ∧
    time (2 ^ 80) = none := by decide +kernel

theorem smallLoop_eq : ∀ (k : Nat) (v : ℚ) (i : Nat), ∃ j, j ≤ k ∧ smallLoop k v i = (v * 1000 ^ j, i + j) ∧
    (limit / 1000 ≤ v * 1000 ^ j ∨ j = k) ∧ (v < limit → v * 1000 ^ j < limit)
  | 0, v, i => ⟨0, le_refl _, by simp [smallLoop], Or.inr rfl, by simp⟩
  | k + 1, v, i => by
    unfold smallLoop
    by_cases h : v * 1000 ≥ limit
    · rw [if_pos h]
      exact ⟨0, Nat.zero_le _, by simp, Or.inl (by rw [pow_zero, mul_one, div_le_iff₀ (by norm_num)]; exact h), by simp⟩
    · rw [if_neg h]
      obtain ⟨j, h1, h2, h3, h4⟩ := smallLoop_eq k (v * 1000) (i + 1)
      have e : v * 1000 * 1000 ^ j = v * 1000 ^ (j + 1) := by ring
      rw [e] at h2 h3 h4
      refine ⟨j + 1, by omega, ?_, ?_, fun _ => h4 (not_le.1 h)⟩
      · rw [h2]; congr 1; omega
      · rcases h3 with h3 | h3
        · exact Or.inl h3
        · exact Or.inr (by omega)

theorem largeLoop_eq : ∀ (k : Nat) (v : ℚ) (i : Nat), ∃ j, j ≤ k ∧ largeLoop k v i = (v / 1000 ^ (j + 1), i + j) ∧
    (v / 1000 ^ (j + 1) < limit ∨ j = k) ∧ (limit ≤ v → limit / 1000 ≤ v / 1000 ^ (j + 1))
  | 0, v, i => ⟨0, le_refl _, by simp [largeLoop], Or.inr rfl, fun h => by
      rw [zero_add, pow_one]; exact div_le_div_of_nonneg_right h (by norm_num)⟩
  | k + 1, v, i => by
    unfold largeLoop
    by_cases h : v / 1000 < limit
    · rw [if_pos h]
      exact ⟨0, Nat.zero_le _, by simp, Or.inl (by simpa using h), fun h => by
        rw [zero_add, pow_one]; exact div_le_div_of_nonneg_right h (by norm_num)⟩
    · rw [if_neg h]
      obtain ⟨j, h1, h2, h3, h4⟩ := largeLoop_eq k (v / 1000) (i + 1)
      have e : v / 1000 / 1000 ^ (j + 1) = v / 1000 ^ (j + 1 + 1) := by
        rw [div_div, ← pow_succ']
      rw [e] at h2 h3 h4
      refine ⟨j + 1, by omega, ?_, ?_, fun _ => h4 (not_lt.1 h)⟩
      · rw [h2]; congr 1; omega
      · rcases h3 with h3 | h3
        · exact Or.inl h3
        · exact Or.inr (by omega)

theorem binLoop_eq : ∀ (k : Nat) (v : ℚ) (i : Nat), ∃ j, j ≤ k ∧ binLoop k v i = (v / 1024 ^ j, i + j) ∧
    (v / 1024 ^ j < limit ∨ j = k) ∧ (limit / 1024 ≤ v / 1024 ^ j ∨ j = 0)
  | 0, v, i => ⟨0, le_refl _, by simp [binLoop], Or.inr rfl, Or.inr rfl⟩
  | k + 1, v, i => by
    unfold binLoop
    by_cases h : v < limit
    · rw [if_pos h]
      exact ⟨0, Nat.zero_le _, by simp, Or.inl (by simpa using h), Or.inr rfl⟩
    · rw [if_neg h]
      obtain ⟨j, h1, h2, h3, h4⟩ := binLoop_eq k (v / 1024) (i + 1)
      have e : v / 1024 / 1024 ^ j = v / 1024 ^ (j + 1) := by
        rw [div_div, ← pow_succ']
      rw [e] at h2 h3 h4
      refine ⟨j + 1, by omega, ?_, ?_, Or.inl ?_⟩
      · rw [h2]; congr 1; omega
      · rcases h3 with h3 | h3
        · exact Or.inl h3
        · exact Or.inr (by omega)
      · rcases h4 with h4 | h4
        · exact h4
        · subst h4
          rw [zero_add, pow_one]
          exact div_le_div_of_nonneg_right (not_lt.1 h) (by norm_num)

theorem signed_eq {v a : ℚ} (h : 0 ≤ a) : |if v < 0 then -a else a| = a := by
  split
  · rw [abs_neg, abs_of_nonneg h]
  · exact abs_of_nonneg h

theorem signed_mul {v a c : ℚ} (h : |v| = a * c) : v = (if v < 0 then -a else a) * c := by
  by_cases hv : v < 0
  · rw [if_pos hv, neg_mul, ← h, abs_of_neg hv, neg_neg]
  · rw [if_neg hv, ← h, abs_of_nonneg (not_lt.1 hv)]

/-- C217: the number that is shown times the power of 1000 that is denoted by the prefix is the quantity. The magnitude
of the number that is shown is less than 999.5, unless the prefix is the one for the highest power, and at least 0.9995,
unless the prefix is the one for the lowest power. -/
theorem C217_quant (v : ℚ) : ∃ e, ((quant v).2, e) ∈ Spec.decadic ∧ v = (quant v).1 * 1000 ^ e ∧
    (|(quant v).1| < 1999 / 2 ∨ e = 8) ∧ (1999 / 2000 ≤ |(quant v).1| ∨ e = -8) := by
  have ha := abs_nonneg v
  unfold quant
  simp only
  by_cases h : |v| < limit
  · rw [if_pos h]
    obtain ⟨j, h1, h2, h3, h4⟩ := smallLoop_eq (smallPrefixes.length - 1) |v| 0
    rw [h2]
    simp only
    have hn : 0 ≤ |v| * 1000 ^ j := by positivity
    refine ⟨-(j : Int), ?_, ?_, ?_, ?_⟩
    · rw [zero_add]
      have hj : j < 9 := by
        have : smallPrefixes.length - 1 = 8 := rfl
        omega
      have : ∀ j : Fin 9, (smallPrefixes.getD j "", -((j : Nat) : Int)) ∈ Spec.decadic := by decide +kernel
      exact this ⟨j, hj⟩
    · apply signed_mul
      rw [zpow_neg, zpow_natCast, mul_assoc, mul_inv_cancel₀ (by positivity), mul_one]
    · rw [signed_eq hn]
      exact Or.inl (h4 h)
    · rw [signed_eq hn]
      rcases h3 with h3 | h3
      · left
        have : limit / 1000 = 1999 / 2000 := by unfold limit; norm_num
        rw [← this]; exact h3
      · right
        rw [h3]; rfl
  · rw [if_neg h]
    obtain ⟨j, h1, h2, h3, h4⟩ := largeLoop_eq (largePrefixes.length - 1) |v| 0
    rw [h2]
    simp only
    have hn : 0 ≤ |v| / 1000 ^ (j + 1) := by positivity
    refine ⟨((j + 1 : Nat) : Int), ?_, ?_, ?_, ?_⟩
    · rw [zero_add]
      have hj : j < 8 := by
        have : largePrefixes.length - 1 = 7 := rfl
        omega
      have : ∀ j : Fin 8, (largePrefixes.getD j "", (((j : Nat) + 1 : Nat) : Int)) ∈ Spec.decadic := by decide +kernel
      exact this ⟨j, hj⟩
    · apply signed_mul
      rw [zpow_natCast, div_mul_cancel₀ _ (by positivity)]
    · rw [signed_eq hn]
      rcases h3 with h3 | h3
      · exact Or.inl h3
      · right
        rw [h3]; rfl
    · rw [signed_eq hn]
      left
      have : limit / 1000 = 1999 / 2000 := by unfold limit; norm_num
      rw [← this]; exact h4 (not_lt.1 h)

/-- C217: zero is given with the prefix for the lowest power. -/
theorem C217_zero : quant 0 = (0, "y") := by decide +kernel

/-- C217: the prefix is inserted after any leading space in the unit. -/
theorem C217_unit (pre : List Char) (k : Nat) (unit : List Char) (h : unit.head? ≠ some ' ') :
    unitText pre (List.replicate k ' ' ++ unit) = List.replicate k ' ' ++ pre ++ unit := by
  induction k with
  | zero =>
    cases unit with
    | nil => simp [unitText]
    | cons c cs =>
      have hc : c ≠ ' ' := fun e => h (by rw [e]; rfl)
      unfold unitText
      split
      · rename_i heq
        injection heq with h1 h2
        exact (hc h1).elim
      · rfl
  | succ k ih =>
    rw [List.replicate_succ, List.cons_append, unitText, ih]
    rfl

example : quant 9192631770 = (9192631770 / 1000 ^ 3, "G") ∧ quant (-1 / 250) = (-4, "m") ∧ quant 999 = (999, "") ∧
    quant (1999 / 2) = (1999 / 2000, "k") ∧ unitText "G".toList " Hz".toList = " GHz".toList := by decide +kernel

/-- C218: the number that is shown times the power of 1024 that is denoted by the prefix is the quantity. The magnitude
of the number that is shown is less than 999.5, unless the prefix is the one for the highest power, and at least
999.5 / 1024, unless there is no prefix. -/
theorem C218_quant (v : ℚ) : ∃ e, ((quantBin v).2, e) ∈ Spec.binary ∧ v = (quantBin v).1 * 1024 ^ e ∧
    (|(quantBin v).1| < 1999 / 2 ∨ e = 8) ∧ (1999 / 2048 ≤ |(quantBin v).1| ∨ e = 0) := by
  have ha := abs_nonneg v
  unfold quantBin
  simp only
  obtain ⟨j, h1, h2, h3, h4⟩ := binLoop_eq (binaryPrefixes.length - 1) |v| 0
  rw [h2]
  simp only
  have hn : 0 ≤ |v| / 1024 ^ j := by positivity
  refine ⟨(j : Int), ?_, ?_, ?_, ?_⟩
  · rw [zero_add]
    have hj : j < 9 := by
      have : binaryPrefixes.length - 1 = 8 := rfl
      omega
    have : ∀ j : Fin 9, (binaryPrefixes.getD j "", ((j : Nat) : Int)) ∈ Spec.binary := by decide +kernel
    exact this ⟨j, hj⟩
  · apply signed_mul
    rw [zpow_natCast, div_mul_cancel₀ _ (by positivity)]
  · rw [signed_eq hn]
    rcases h3 with h3 | h3
    · exact Or.inl h3
    · right
      rw [h3]; rfl
  · rw [signed_eq hn]
    rcases h4 with h4 | h4
    · left
      have : limit / 1024 = 1999 / 2048 := by unfold limit; norm_num
      rw [← this]; exact h4
    · right
      rw [h4]; rfl

/-- C218: an amount of memory is given as a number of bytes if it is less than 999.5, with the singular form for one and
minus one, and as a quantity otherwise. The documented boundary is 1024. -/
theorem C218_byte_size_partial (v : ℚ) :
    (|v| < 1999 / 2 → byteSize v = .count v (if |v| = 1 then "byte" else "bytes")) ∧
    (1024 ≤ |v| → byteSize v = .quant (quantBin v).1 (quantBin v).2) := by
  unfold byteSize limit
  constructor
  · intro h
    rw [if_neg (not_le.2 h)]
    have : needSingular v = decide (|v| = 1) := by
      unfold needSingular
      rw [Bool.eq_iff_iff]
      simp [abs_eq]
    rw [this]
    simp
  · intro h
    rw [if_pos (by linarith)]

/-- C218: 1000 bytes, that is less than 1024 bytes, is given as a fraction of a kibibyte. -/
theorem C218_boundary : byteSize 1000 = .quant (125 / 128) "Ki" := by decide +kernel

example : byteSize 3 = .count 3 "bytes" ∧ byteSize (-1) = .count (-1) "byte" ∧ byteSize 3072 = .quant 3 "Ki" := by
  decide +kernel

theorem double_lt_one {v : ℚ} (hd : Spec.Double v) (h : v < 1) : v ≤ 1 - 1 / 2 ^ 53 := by
  obtain ⟨z, e, hz, rfl⟩ := hd
  have hz' : z < 2 ^ 53 := lt_of_le_of_lt (le_abs_self z) hz
  rcases Int.le_total 0 e with he | he
  · obtain ⟨k, rfl⟩ := Int.eq_ofNat_of_zero_le he
    rw [zpow_natCast] at h ⊢
    have h1 : z * 2 ^ k < 1 := by exact_mod_cast h
    have h2 : z * 2 ^ k ≤ 0 := by omega
    have h3 : (z : ℚ) * 2 ^ k ≤ 0 := by exact_mod_cast h2
    have : (0 : ℚ) ≤ 1 - 1 / 2 ^ 53 := by norm_num
    linarith
  · obtain ⟨k, hk⟩ := Int.eq_ofNat_of_zero_le (Int.neg_nonneg_of_nonpos he)
    have : e = -(k : Int) := by omega
    subst this
    have hp : (0 : ℚ) < 2 ^ k := by positivity
    rw [zpow_neg, zpow_natCast, ← div_eq_mul_inv] at h ⊢
    rw [div_lt_one hp] at h
    have h1 : z < 2 ^ k := by exact_mod_cast h
    rw [div_le_iff₀ hp]
    by_cases hk : k ≤ 53
    · have h2 : z ≤ 2 ^ k - 1 := by omega
      have h3 : (z : ℚ) ≤ 2 ^ k - 1 := by exact_mod_cast h2
      have h4 : (2 : ℚ) ^ k ≤ 2 ^ 53 := pow_le_pow_right₀ (by norm_num) hk
      have h5 : 1 / (2 : ℚ) ^ 53 * 2 ^ k ≤ 1 := by
        rw [one_div, inv_mul_le_iff₀ (by positivity)]; linarith
      linarith
    · have h4 : (2 : ℚ) ^ 54 ≤ 2 ^ k := pow_le_pow_right₀ (by norm_num) (by omega)
      have h3 : (z : ℚ) < 2 ^ 53 := by exact_mod_cast hz'
      have h6 : (1 / 2 : ℚ) ≤ 1 - 1 / 2 ^ 53 := by norm_num
      have : (1 / 2 : ℚ) * 2 ^ k ≤ (1 - 1 / 2 ^ 53) * 2 ^ k := mul_le_mul_of_nonneg_right h6 hp.le
      norm_num at *
      linarith

theorem rnd_lt {rnd : ℚ → ℚ} (hr : Spec.Nearest rnd) {m k : Nat} (hk : k ≤ 53) (h1 : m ≤ 2 ^ k) (h2 : 2 ^ k < 2 * m)
    {x : ℚ} (hx : x ≤ m * (1 - 1 / 2 ^ 53)) : rnd x < m := by
  by_contra hc
  rw [not_lt] at hc
  have hm : 0 < m := by
    have := Nat.pos_of_ne_zero (n := 2 ^ k) (by positivity)
    omega
  have hmq : (0 : ℚ) < m := by exact_mod_cast hm
  have hu : (0 : ℚ) < 1 / 2 ^ (53 - k) := by positivity
  -- the next lower number
  have hd : Spec.Double ((m : ℚ) - 1 / 2 ^ (53 - k)) := by
    refine ⟨m * 2 ^ (53 - k) - 1, -((53 - k : Nat) : Int), ?_, ?_⟩
    · have h3 : 1 ≤ m * 2 ^ (53 - k) := Nat.one_le_iff_ne_zero.2 (by positivity)
      have h4 : m * 2 ^ (53 - k) ≤ 2 ^ 53 := by
        calc m * 2 ^ (53 - k) ≤ 2 ^ k * 2 ^ (53 - k) := Nat.mul_le_mul_right _ h1
          _ = 2 ^ 53 := by rw [← pow_add]; congr 1; omega
      have h3' : (1 : Int) ≤ m * 2 ^ (53 - k) := by exact_mod_cast h3
      have h4' : (m : Int) * 2 ^ (53 - k) ≤ 2 ^ 53 := by exact_mod_cast h4
      rw [abs_of_nonneg (by omega)]
      omega
    · rw [zpow_neg, zpow_natCast]
      push_cast
      have : (2 : ℚ) ^ (53 - k) ≠ 0 := by positivity
      field_simp
  have hn := hr x _ hd
  have hpos : 0 ≤ rnd x - x := by
    have : (m : ℚ) * (1 - 1 / 2 ^ 53) ≤ m := by
      have : (1 - 1 / 2 ^ 53 : ℚ) ≤ 1 := by norm_num
      nlinarith
    linarith
  rw [abs_of_nonneg hpos] at hn
  rcases le_total ((m : ℚ) - 1 / 2 ^ (53 - k)) x with hle | hle
  · rw [abs_of_nonpos (by linarith)] at hn
    have h5 : (m : ℚ) * (1 / 2 ^ 53) * 2 ≤ 1 / 2 ^ (53 - k) := by
      have : (m : ℚ) * (1 - 1 / 2 ^ 53) = m - m * (1 / 2 ^ 53) := by ring
      linarith
    have h6 : (1 : ℚ) / 2 ^ (53 - k) = 2 ^ k / 2 ^ 53 := by
      rw [div_eq_div_iff (by positivity) (by positivity), one_mul, ← pow_add]
      congr 1; omega
    rw [h6, mul_one_div, div_mul_eq_mul_div, div_le_div_iff_of_pos_right (by positivity)] at h5
    have h7 : m * 2 ≤ 2 ^ k := by exact_mod_cast h5
    omega
  · rw [abs_of_nonneg (by linarith)] at hn
    linarith

theorem double_int {m : Nat} (h : m < 2 ^ 53) : Spec.Double (m : ℚ) :=
  ⟨m, 0, by
    have : (0 : Int) ≤ m := by omega
    rw [abs_of_nonneg this]
    exact_mod_cast h, by simp⟩

theorem percent_jump {rnd : ℚ → ℚ} (hr : Spec.Nearest rnd) {m k : Nat} (hk : k ≤ 52) (h1 : m ≤ 2 ^ k)
    (h2 : 2 ^ k < 2 * m) {v : ℚ} (hv : Spec.Double v) : (m : Int) ≤ ⌊rnd (v * m)⌋ ↔ 1 ≤ v := by
  have hm0 : (0 : ℚ) ≤ m := by positivity
  rw [Int.le_floor]
  push_cast
  constructor
  · intro h
    by_contra hc
    have h3 := double_lt_one hv (not_le.1 hc)
    have h4 : v * m ≤ m * (1 - 1 / 2 ^ 53) := by
      rw [mul_comm]; exact mul_le_mul_of_nonneg_left h3 hm0
    have := rnd_lt hr (k := k) (by omega) h1 h2 h4
    linarith
  · intro h
    have h3 : (m : ℚ) ≤ v * m := by nlinarith
    have hm : m < 2 ^ 53 := lt_of_le_of_lt h1 (Nat.pow_lt_pow_right (by norm_num) (by omega))
    have hn := hr (v * m) m (double_int hm)
    rw [abs_of_nonpos (a := (m : ℚ) - v * m) (by linarith)] at hn
    have := neg_abs_le (rnd (v * m) - v * m)
    linarith

/-- C219: with any allowed number of decimals, the jump to 100% happens when the value becomes at least one, and not
before, in spite of rounding in the computation. -/
theorem C219_jump (rnd : ℚ → ℚ) (hr : Spec.Nearest rnd) (v : ℚ) (hv : Spec.Double v) (n : Nat) (hn : n ≤ 6) :
    ∃ u, percent rnd v n = some u ∧ ((100 * 10 ^ n : Int) ≤ u ↔ 1 ≤ v) := by
  unfold percent
  rw [if_neg (by omega)]
  refine ⟨_, rfl, ?_⟩
  rw [Int.toNat_natCast]
  have key : ∀ k : Nat, k ≤ 52 → 100 * 10 ^ n ≤ 2 ^ k → 2 ^ k < 2 * (100 * 10 ^ n) →
      ((100 * 10 ^ n : Int) ≤ ⌊rnd (v * (10 ^ n * 100))⌋ ↔ 1 ≤ v) := by
    intro k h1 h2 h3
    have := percent_jump hr h1 h2 h3 hv
    push_cast at this
    rw [mul_comm ((10 : ℚ) ^ n) 100]
    exact this
  rcases (show n = 0 ∨ n = 1 ∨ n = 2 ∨ n = 3 ∨ n = 4 ∨ n = 5 ∨ n = 6 by omega) with h | h | h | h | h | h | h <;>
    subst h
  · exact key 7 (by norm_num) (by norm_num) (by norm_num)
  · exact key 10 (by norm_num) (by norm_num) (by norm_num)
  · exact key 14 (by norm_num) (by norm_num) (by norm_num)
  · exact key 17 (by norm_num) (by norm_num) (by norm_num)
  · exact key 20 (by norm_num) (by norm_num) (by norm_num)
  · exact key 24 (by norm_num) (by norm_num) (by norm_num)
  · exact key 27 (by norm_num) (by norm_num) (by norm_num)

/-- C219: other numbers of decimals are rejected. -/
theorem C219_decimals (rnd : ℚ → ℚ) (v : ℚ) (n : Int) : percent rnd v n = none ↔ ¬ (0 ≤ n ∧ n ≤ 6) := by
  unfold percent
  split
  · simp; omega
  · simp; omega

/-- C219: when there is no rounding in the computation, the result is the largest number of units that is not greater
than the value. -/
theorem C219_exact (rnd : ℚ → ℚ) (v : ℚ) (n : Nat) (hn : n ≤ 6) (h : rnd (v * (10 ^ n * 100)) = v * (10 ^ n * 100)) :
    ∃ u : Int, percent rnd v n = some u ∧ (u : ℚ) / (100 * 10 ^ n) ≤ v ∧ v < ((u : ℚ) + 1) / (100 * 10 ^ n) := by
  unfold percent
  rw [if_neg (by omega)]
  refine ⟨_, rfl, ?_, ?_⟩
  · rw [Int.toNat_natCast, h, div_le_iff₀ (by positivity), mul_comm (100 : ℚ)]
    exact Int.floor_le _
  · rw [Int.toNat_natCast, h, lt_div_iff₀ (by positivity), mul_comm (100 : ℚ)]
    exact Int.lt_floor_add_one _

/-- C219: a negative value is not rounded towards zero, contrary to a comment in the code. -/
theorem C219_negative (rnd : ℚ → ℚ) (hr : Spec.Nearest rnd) : percent rnd (-1 / 1024) 0 = some (-1) := by
  have hd : Spec.Double (-1 / 1024 * (10 ^ 0 * 100)) := ⟨-25, -8, by norm_num, by norm_num⟩
  have h0 := hr (-1 / 1024 * (10 ^ 0 * 100)) _ hd
  rw [sub_self, abs_zero] at h0
  have h1 : rnd (-1 / 1024 * (10 ^ 0 * 100)) = -1 / 1024 * (10 ^ 0 * 100) := by
    have := abs_nonpos_iff.1 h0
    linarith
  unfold percent
  rw [if_neg (by norm_num)]
  simp only [Int.toNat_zero]
  rw [h1]
  decide +kernel

example : percent id (999 / 1000) 0 = some 99 ∧ percent id (9999 / 10000) 1 = some 999 ∧ percent id 2 0 = some 200 ∧
    percent id 1 7 = none := by decide +kernel

end Verif.FormatAs
