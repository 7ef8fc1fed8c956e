import Verif.IntText.Format
/-
The properties of the integer parser and the integer formatter. `I` is the number of value bits of `int` (7 ≤ I is
more than guaranteed by C++), `M` is the maximum value of `std::size_t`.
-/
namespace Verif.IntText
open Verif.Integer Verif.Buffer

/-- Documented meaning of the sign modes: integer_parser.hpp:48-53. -/
def plusOk : Sign → Bool
  | .accept => true
  | _ => false

def minusOk (signed : Bool) : Sign → Bool
  | .auto_ => signed
  | .accept => true
  | .acceptMinus => true
  | .reject => false

theorem allows_eq (T : Ty) (m : Sign) : allowsPlus T m = plusOk m ∧ allowsMinus T m = minusOk T.signed m := by
  unfold allowsPlus allowsMinus
  cases m <;> cases h : T.signed <;> simp [mapSign, h] <;> decide

/-- Parsing succeeds exactly if the string is a numeral (in the specified radix, with an optional sign of a permitted
kind) that denotes a number in the range of the target type, and then stores that number. On failure the target variable
is unchanged. No undefined behaviour occurs. -/
theorem C25_parse (I : Nat) (hI : 7 ≤ I) (T : Ty) (narrow : C → Nat) (radix : Nat) (hr : 2 ≤ radix) (hr2 : radix ≤ 36)
    (mode : Sign) (s : List C) (var : Int) :
    (∀ v, parse I T narrow radix mode s var = some (true, v) ↔
      Spec.Denotes radix (plusOk mode) (minusOk T.signed mode) (s.map narrow) v ∧ Integer.Spec.Fits T v) ∧
    ((∃ v, parse I T narrow radix mode s var = some (true, v)) ∨ parse I T narrow radix mode s var = some (false, var)) := by
  have h := parse_spec I hI T narrow radix hr hr2 mode s var
  rw [(allows_eq T mode).1, (allows_eq T mode).2] at h
  simp only [fits_iff]
  constructor
  · intro v
    constructor
    · intro hv
      by_contra hc
      by_cases hx : ∃ v, Spec.Denotes radix (plusOk mode) (minusOk T.signed mode) (s.map narrow) v ∧ T.In v
      · obtain ⟨w, hw, hf⟩ := hx
        rw [h.1 w hw hf] at hv
        cases hv
        exact hc ⟨hw, hf⟩
      · rw [h.2 hx] at hv
        cases hv
    · rintro ⟨h1, h2⟩
      exact h.1 v h1 h2
  · by_cases hx : ∃ v, Spec.Denotes radix (plusOk mode) (minusOk T.signed mode) (s.map narrow) v ∧ T.In v
    · obtain ⟨w, hw, hf⟩ := hx
      exact Or.inl ⟨w, h.1 w hw hf⟩
    · exact Or.inr (h.2 hx)

/-- A string denotes at most one number. -/
theorem C25_unique (radix : Nat) (hr2 : radix ≤ 36) (P Mi : Bool) (s : List Nat) (v w : Int)
    (hv : Spec.Denotes radix P Mi s v) (hw : Spec.Denotes radix P Mi s w) : v = w := by
  obtain ⟨sg1, n1, c1, d1, a1, a2, a3, a4, a5⟩ := hv
  obtain ⟨sg2, n2, c2, d2, b1, b2, b3, b4, b5⟩ := hw
  have nd : ∀ {cs ds : List Nat} {x rest}, List.Forall₂ (Spec.IsDigit radix) cs ds → cs = x :: rest → ¬ (x = 43 ∨ x = 45) := by
    intro cs ds x rest h he hx
    subst he
    cases h with
    | cons h _ => exact not_digit hr2 hx h
  have hsg : sg1 = sg2 ∧ n1 = n2 := by
    cases a2 <;> cases b2 <;> first
      | exact ⟨rfl, rfl⟩
      | (exfalso
         rw [a1] at b1
         first
         | exact nd a4 b1 (Or.inl rfl)
         | exact nd a4 b1 (Or.inr rfl)
         | exact nd b4 b1.symm (Or.inl rfl)
         | exact nd b4 b1.symm (Or.inr rfl)
         | (have := (List.cons.inj b1).1; revert this; decide))
  obtain ⟨rfl, rfl⟩ := hsg
  rw [a1] at b1
  have := List.append_cancel_left b1
  subst this
  rw [a5, b5, forall2_unique hr2 a4 b4]

def codes (s : String) : List Nat := s.toList.map Char.toNat

example : parse 31 ⟨true, 7⟩ id 10 .auto_ (codes "-128") 5 = some (true, -128) := by decide +kernel
example : parse 31 ⟨true, 7⟩ id 10 .auto_ (codes "-129") 5 = some (false, 5) := by decide +kernel
example : parse 31 ⟨false, 64⟩ id 36 .accept (codes "+3W5E11264sgsf") 5 = some (true, 18446744073709551615) := by decide +kernel
example : parse 31 ⟨false, 8⟩ id 10 .auto_ (codes "+1") 5 = some (false, 5) := by decide +kernel
example : parse 31 ⟨false, 8⟩ id 10 .accept (codes "-000") 5 = some (true, 0) := by decide +kernel
example : parse 31 ⟨false, 8⟩ id 10 .accept (codes "-") 5 = some (false, 5) := by decide +kernel

/-- The number of digits that is used when the specified minimum is negative: the largest number of digits of any value of the
type. -/
def IsMaxDigits (T : Ty) (radix n : Nat) : Prop :=
  (∀ v, Integer.Spec.Fits T v → (Nat.digits radix v.natAbs).length ≤ n) ∧
  ∃ v, Integer.Spec.Fits T v ∧ (Nat.digits radix v.natAbs).length = n

theorem numDigits_eq {x : Int} {radix n : Nat} (hr : 2 ≤ radix) (h : IsNumDigits x radix n) : (Nat.digits radix x.natAbs).length = n := by
  unfold IsNumDigits at h
  rw [Int.natAbs_natCast] at h
  apply le_antisymm
  · rw [Nat.digits_length_le_iff (by omega)]; exact h.1
  · rcases h.2 with h | h
    · omega
    · by_contra hc
      have h2 := (Nat.digits_length_le_iff (b := radix) (k := n - 1) (by omega) x.natAbs).mp (by omega)
      omega

theorem maxDigits_is {I : Nat} {T : Ty} {radix : Nat} (hr : 2 ≤ radix) (hbi : (intTy I).In (radix : Int)) :
    ∃ n : Nat, maxDigits I T radix = some (n : Int) ∧ n ≤ T.bits + 1 ∧ IsMaxDigits T radix n := by
  obtain ⟨n, h1, h2, a, b, h3, h4, h5⟩ := maxDigits_spec (T := T) (show (2 : Int) ≤ radix by omega) hbi
  have h4 := numDigits_eq hr h4
  have h5 := numDigits_eq hr h5
  refine ⟨n, h1, h2, ?_, ?_⟩
  · intro v hv
    have hv' := fits_iff.mp hv
    have : v.natAbs ≤ T.min.natAbs ∨ v.natAbs ≤ T.max.natAbs := by
      have := hv'.1; have := hv'.2
      by_cases h : v < 0
      · left; omega
      · right; omega
    rcases this with h | h
    · have := Nat.le_length_digits_le radix _ _ h; omega
    · have := Nat.le_length_digits_le radix _ _ h; omega
  · rcases Nat.le_total a b with h | h
    · exact ⟨T.max, fits_iff.mpr (In_max T), by omega⟩
    · exact ⟨T.min, fits_iff.mpr (In_min T), by omega⟩

/-- Formatting yields the numeral of the value with the specified minimum number of digits. If the specified minimum is negative, it is the
maximum number of digits of the type. It does so whatever is left in the buffer by earlier formatting, and leaves it
ready for more. The hypotheses about sizes say that the numeral is not too long to be represented in memory. -/
theorem C26_format (I : Nat) (hI : 7 ≤ I) (T : Ty) (M : Nat) (d : C) (widen : Nat → C) (lower : Bool) (radix : Nat)
    (hr : 2 ≤ radix) (hr2 : radix ≤ 36) (minDigits : Int) (hmd : minDigits < 2 ^ I) (value : Int)
    (hv : Integer.Spec.Fits T value) (mem : List C) (hm : mem.length ≤ M)
    (hT : T.bits + 1 < 2 ^ I) (hM : max minDigits.toNat (T.bits + 1) + 1 ≤ M) :
    ∃ (n : Nat) (mem' : List C), (0 ≤ minDigits → (n : Int) = minDigits) ∧ (minDigits < 0 → IsMaxDigits T radix n) ∧
      mem'.length ≤ M ∧
      format I T M d widen lower radix minDigits value mem = .ok (mem', (Spec.numeral lower radix n value).map widen) := by
  have hv' := fits_iff.mp hv
  have hI2 : (128 : Int) ≤ 2 ^ I := p_le (a := 7) hI
  have hlen := digits_length_le hr (In_natAbs hv')
  by_cases hneg : minDigits < 0
  · obtain ⟨n, h1, h2, h3⟩ := maxDigits_is (I := I) (T := T) hr (by unfold intTy; rw [In_s]; omega)
    obtain ⟨mem', e1, e2⟩ := format_core I hI T M d widen lower radix hr hr2 minDigits n
      (by unfold effMinDigits; rw [if_pos hneg, h1]; rfl) (by omega) value hv' mem hm (by omega) (by omega)
    exact ⟨n, mem', by omega, fun _ => h3, e1, e2⟩
  · have hp := cast_pow I
    obtain ⟨mem', e1, e2⟩ := format_core I hI T M d widen lower radix hr hr2 minDigits minDigits.toNat
      (by unfold effMinDigits; rw [if_neg hneg, Int.toNat_of_nonneg (by omega)]) (by omega) value hv' mem hm (by omega) (by omega)
    exact ⟨minDigits.toNat, mem', by omega, by omega, e1, e2⟩

/-- Parsing the result of formatting yields the formatted value. The minimum number of digits must not be zero for the value zero
(whose numeral would have no digits). The sign mode can be any that permits a minus sign if one is needed; the default
always does. -/
theorem C26_roundtrip (I : Nat) (hI : 7 ≤ I) (T : Ty) (M : Nat) (d : C) (widen : Nat → C) (narrow : C → Nat)
    (hmap : ∀ c < 128, narrow (widen c) = c) (lower : Bool) (radix : Nat)
    (hr : 2 ≤ radix) (hr2 : radix ≤ 36) (minDigits : Int) (hmd : minDigits < 2 ^ I) (value : Int)
    (hv : Integer.Spec.Fits T value) (mem : List C) (hm : mem.length ≤ M)
    (hT1 : 1 ≤ T.bits) (hT : T.bits + 1 < 2 ^ I) (hM : max minDigits.toNat (T.bits + 1) + 1 ≤ M)
    (hz : value = 0 → minDigits ≠ 0) (mode : Sign) (hmode : value < 0 → mode ≠ .reject) (var : Int) :
    ∃ mem' text, format I T M d widen lower radix minDigits value mem = .ok (mem', text) ∧
      parse I T narrow radix mode text var = some (true, value) := by
  obtain ⟨n, mem', h1, h2, -, h3⟩ := C26_format I hI T M d widen lower radix hr hr2 minDigits hmd value hv mem hm hT hM
  refine ⟨mem', _, h3, ?_⟩
  rw [(C25_parse I hI T narrow radix hr hr2 mode _ var).1]
  refine ⟨?_, hv⟩
  have hid : (Spec.numeral lower radix n value).map (narrow ∘ widen) = Spec.numeral lower radix n value := by
    conv_rhs => rw [← List.map_id (Spec.numeral lower radix n value)]
    apply List.map_congr_left
    intro c hc
    apply hmap
    unfold Spec.numeral at hc
    rcases List.mem_append.mp hc with h | h
    · split at h
      · rw [List.mem_singleton] at h; subst h; decide
      · cases h
    · obtain ⟨x, hx, rfl⟩ := List.mem_map.mp h
      have hx := digits_lt hr x hx
      have key : ∀ lower : Bool, ∀ x < 36, Spec.digitChar lower x < 128 := by decide +kernel
      exact key lower x (by omega)
  rw [List.map_map, hid]
  apply numeral_denotes lower hr hr2
  · by_cases h0 : value = 0
    · right
      by_cases hneg : minDigits < 0
      · have hone : Integer.Spec.Fits T 1 := by
          rw [fits_iff, In_nonneg (by omega)]
          exact p_le (a := 1) hT1
        have := (h2 hneg).1 1 hone
        rw [show (1 : Int).natAbs = 1 from rfl, digits_len hr (by omega)] at this
        omega
      · have := h1 (by omega)
        have := hz h0
        omega
    · exact Or.inl h0
  · intro hlt
    have hs : T.signed = true := by
      by_contra hc
      have := nonneg_of_unsigned (by simpa using hc) (fits_iff.mp hv)
      omega
    have := hmode hlt
    cases mode <;> simp [minusOk, hs] at *

def text (r : Res (List Nat × List Nat)) : String :=
  match r with
  | .ok (_, s) => String.ofList (s.map Char.ofNat)
  | .error _ => "?"

example : text (format 31 ⟨true, 7⟩ 100 0 id false 10 1 (-128) [0, 0]) = "-128" := by decide +kernel
example : text (format 31 ⟨true, 31⟩ 100 0 id true 16 8 0xBEEF [0, 0]) = "0000beef" := by decide +kernel
example : text (format 31 ⟨false, 8⟩ 100 0 id false 2 (-1) 5 []) = "00000101" := by decide +kernel
example : text (format 31 ⟨true, 31⟩ 100 0 id false 10 0 0 []) = "" := by decide +kernel

end Verif.IntText
