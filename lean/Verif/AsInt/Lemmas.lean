import Verif.AsInt.Model
import Verif.AsInt.Spec
import Verif.PixelSize.Lemmas
import Mathlib.Data.List.TakeWhile
/-!
Lemmas about formatting and parsing of integers.
-/
namespace Verif.AsInt
open Verif.Integer Verif.PixelSize Spec

theorem format_eq {I : Nat} (hI : 7 ≤ I) {T : Ty} (hT : T.bits + 1 < 2 ^ I) {M : Nat} (hM : T.bits + 2 ≤ M) {radix : Nat} (hr : 2 ≤ radix) (hr2 : radix ≤ 36)
    {mem : List Char} (hm : mem.length ≤ M) {v : Int} (hv : Integer.Spec.Fits T v) : format I T M radix 1 mem v = some (Spec.numeral radix v) := by
  have h1 : (1 : Int) < 2 ^ I := by
    have : (T.bits : Int) + 1 < 2 ^ I := by exact_mod_cast hT
    omega
  obtain ⟨n, mem', h3, -, -, h4⟩ := IntText.C26_format I hI T M ' ' Char.ofNat false radix hr hr2 1 h1 v hv mem hm hT (by simp; omega)
  have hn : n = 1 := by have := h3 (by decide); omega
  subst hn
  unfold format
  rw [h4]
  rfl

theorem parse_iff {I : Nat} (hI : 7 ≤ I) (T : Ty) {radix : Nat} (hr : 2 ≤ radix) (hr2 : radix ≤ 36) (s : List Char) (var : Int) :
    (∀ v, parse I T radix s var = some (true, v) ↔ Spec.IsInt T radix s v) ∧
    ((∃ v, parse I T radix s var = some (true, v)) ∨ parse I T radix s var = some (false, var)) := by
  obtain ⟨h1, h2⟩ := IntText.C25_parse I hI T narrow radix hr hr2 .auto_ s var
  refine ⟨fun v => ?_, h2⟩
  have h := h1 v
  rw [toNat_eq_narrow hr2] at h
  have e1 : IntText.plusOk .auto_ = false := rfl
  have e2 : IntText.minusOk T.signed .auto_ = T.signed := by cases T.signed <;> rfl
  rw [e1, e2] at h
  exact h

theorem digitChar_word : ∀ d < 36, (48 ≤ IntText.Spec.digitChar false d ∧ IntText.Spec.digitChar false d ≤ 57) ∨
    (65 ≤ IntText.Spec.digitChar false d ∧ IntText.Spec.digitChar false d ≤ 90) := by decide +kernel

theorem numeral_codes {radix : Nat} (hr : 2 ≤ radix) (hr2 : radix ≤ 36) (v : Int) : ∀ c ∈ IntText.Spec.numeral false radix 1 v, c < 128 := by
  intro c hc
  unfold IntText.Spec.numeral at hc
  rcases List.mem_append.mp hc with hc | hc
  · split at hc
    · simp only [List.mem_singleton] at hc; rw [hc]; decide
    · simp at hc
  · obtain ⟨d, hd, rfl⟩ := List.mem_map.mp hc
    have h1 := IntText.digits_lt hr d hd
    have := digitChar_word d (by omega)
    omega

theorem fits_neg {T : Ty} {v : Int} (hv : Integer.Spec.Fits T v) : v < 0 → T.signed = true := by
  intro h
  by_contra h2
  rw [Bool.not_eq_true] at h2
  have := hv.1
  simp [h2] at this
  omega

theorem numeral_isInt {T : Ty} {radix : Nat} (hr : 2 ≤ radix) (hr2 : radix ≤ 36) {v : Int} (hv : Integer.Spec.Fits T v) :
    Spec.IsInt T radix (Spec.numeral radix v) v := by
  refine ⟨?_, hv⟩
  have h := IntText.numeral_denotes false (n := 1) hr hr2 v false T.signed (Or.inr (by decide)) (fits_neg hv)
  rw [← toNat_eq_narrow hr2]
  unfold Spec.numeral
  rw [List.map_map]
  have : (IntText.Spec.numeral false radix 1 v).map (narrow ∘ Char.ofNat) = IntText.Spec.numeral false radix 1 v := by
    rw [← List.map_id (IntText.Spec.numeral false radix 1 v), List.map_map]
    apply List.map_congr_left
    intro c hc
    simp only [Function.comp, id]
    exact narrow_ofNat _ (numeral_codes hr hr2 v c hc)
  rw [this]; exact h

/-- A numeral is an optional minus sign followed by digits and capital letters. -/
theorem numeral_shape {radix : Nat} (hr : 2 ≤ radix) (hr2 : radix ≤ 36) (v : Int) :
    ∃ sign word, Spec.numeral radix v = sign ++ word ∧ (sign = [] ∨ sign = ['-']) ∧ word ≠ [] ∧
      ∀ c ∈ word, ∃ n, c = Char.ofNat n ∧ ((48 ≤ n ∧ n ≤ 57) ∨ (65 ≤ n ∧ n ≤ 90)) := by
  unfold Spec.numeral IntText.Spec.numeral
  rw [List.map_append]
  refine ⟨_, _, rfl, ?_, ?_, ?_⟩
  · by_cases h : v < 0
    · rw [if_pos h]; right; rfl
    · rw [if_neg h]; left; rfl
  · intro h
    have h := congrArg List.length h
    simp only [IntText.Spec.digits, List.length_map, List.length_append, List.length_replicate, List.length_reverse, List.length_nil] at h
    omega
  · intro c hc
    simp only [List.mem_map] at hc
    obtain ⟨n, ⟨d, hd, rfl⟩, rfl⟩ := hc
    have h1 := IntText.digits_lt hr d hd
    exact ⟨_, rfl, digitChar_word d (by omega)⟩

/-- The numeral of a number other than zero does not start with the digit zero. -/
theorem numeral_head {radix : Nat} (hr : 2 ≤ radix) (hr2 : radix ≤ 36) {v : Int} (hv : v ≠ 0) : (Spec.numeral radix v).head? ≠ some '0' := by
  unfold Spec.numeral IntText.Spec.numeral
  by_cases h : v < 0
  · rw [if_pos h]
    simp
  · rw [if_neg h]
    have hn : v.natAbs ≠ 0 := by omega
    have hne : Nat.digits radix v.natAbs ≠ [] := Nat.digits_ne_nil_iff_ne_zero.mpr hn
    have hlast := Nat.getLast_digit_ne_zero radix hn
    have hlen : 1 ≤ (Nat.digits radix v.natAbs).length := List.length_pos_iff.mpr hne
    have hlt := Nat.digits_lt_base (b := radix) (m := v.natAbs) (by omega) (List.getLast_mem hne)
    unfold IntText.Spec.digits
    rw [show 1 - (Nat.digits radix v.natAbs).length = 0 by omega]
    simp only [List.replicate_zero, List.nil_append, List.map_reverse, List.head?_reverse, List.getLast?_map, List.getLast?_eq_some_getLast hne, Option.map_some]
    intro hc
    have hc := Option.some.inj hc
    have key : ∀ d < 36, d ≠ 0 → Char.ofNat (IntText.Spec.digitChar false d) ≠ '0' := by decide +kernel
    exact key _ (by omega) hlast hc

/-! ### Stream input -/

/-- The characters that may follow the sign. -/
def word (loc : Locale) (c : Char) : Bool := loc.alnum c || c == '_'

theorem inner_eq (loc : Locale) : ∀ (fuel : Nat) (ch : Char) (r : List Char) (e : Bool) (b : List Char), r.length < fuel →
    inner loc fuel ch ⟨ch :: r, e, b⟩ =
      ⟨(ch :: r).dropWhile (word loc), e || ((ch :: r).dropWhile (word loc)).isEmpty, b ++ (ch :: r).takeWhile (word loc)⟩ := by
  intro fuel
  induction fuel with
  | zero => intro ch r e b h; omega
  | succ fuel ih =>
    intro ch r e b h
    unfold inner
    have hw : (!loc.alnum ch && ch != '_') = !word loc ch := by
      unfold word; cases loc.alnum ch <;> simp [bne]
    rw [hw]
    cases hc : word loc ch with
    | false => simp [hc]
    | true =>
      rw [if_neg (by simp)]
      cases r with
      | nil => simp [Helper.next, hc]
      | cons c r =>
        have := ih c r e (b ++ [ch]) (by simpa using h)
        simp only [Helper.next, List.drop_succ_cons, List.drop_zero]
        rw [this]
        rw [List.dropWhile_cons_of_pos hc, List.takeWhile_cons_of_pos hc]
        simp

/-- What is read. -/
def token (loc : Locale) (d : List Char) : List Char :=
  match d with
  | '-' :: r => '-' :: r.takeWhile (word loc)
  | d => d.takeWhile (word loc)

/-- What remains. -/
def remainder (loc : Locale) (d : List Char) : List Char :=
  match d with
  | '-' :: r => r.dropWhile (word loc)
  | d => d.dropWhile (word loc)

theorem outer_eq (loc : Locale) (d : List Char) : outer loc ⟨d, false, []⟩ = ⟨remainder loc d, (remainder loc d).isEmpty, token loc d⟩ := by
  unfold outer
  cases d with
  | nil => simp [Helper.peek, remainder, token]
  | cons c r =>
    by_cases hc : c = '-'
    · subst hc
      cases r with
      | nil => simp [Helper.peek, Helper.next, remainder, token]
      | cons c r =>
        simp only [Helper.peek, Helper.next, List.drop_succ_cons, List.drop_zero, if_pos, List.nil_append]
        rw [inner_eq loc _ c r false ['-'] (by simp)]
        simp [remainder, token]
    · simp only [Helper.peek, if_neg hc]
      rw [inner_eq loc _ c r false [] (by simp)]
      have h1 : remainder loc (c :: r) = (c :: r).dropWhile (word loc) := by
        unfold remainder; split
        · rename_i h; exact absurd (List.cons.inj h).1 hc
        · rfl
      have h2 : token loc (c :: r) = (c :: r).takeWhile (word loc) := by
        unfold token; split
        · rename_i h; exact absurd (List.cons.inj h).1 hc
        · rfl
      rw [h1, h2]; simp

theorem word_iff {loc : Locale} {c : Char} : word loc c = true ↔ loc.alnum c = true ∨ c = '_' := by simp [word]

theorem prefix_le {p : Char → Bool} : ∀ (d w r : List Char), d = w ++ r → (∀ c ∈ w, p c = true) → w.length ≤ (d.takeWhile p).length := by
  intro d w r h hw
  subst h
  rw [List.takeWhile_append_of_pos hw]
  simp

/-- What is read is the longest token, provided that a minus sign is not a letter or digit. -/
theorem token_longest (loc : Locale) (hd : loc.alnum '-' = false) (d : List Char) : IsLongest loc.alnum d (token loc d) (remainder loc d) := by
  have hdash : word loc '-' = false := by simp [word, hd]
  have htw : ∀ l : List Char, ∀ c ∈ l.takeWhile (word loc), loc.alnum c = true ∨ c = '_' := fun l c hc => word_iff.mp (List.mem_takeWhile_imp hc)
  by_cases h : ∃ r, d = '-' :: r
  · obtain ⟨r, rfl⟩ := h
    refine ⟨?_, ⟨['-'], _, rfl, Or.inr rfl, htw r⟩, ?_⟩
    · simp [token, remainder]
    · rintro t' r' h ⟨sign, w, rfl, hs, hw⟩
      simp only [token]
      rcases hs with rfl | rfl
      · cases w with
        | nil => simp
        | cons c w =>
          simp only [List.nil_append, List.cons_append, List.cons.injEq] at h
          have := word_iff.mpr (hw c (by simp))
          rw [← h.1, hdash] at this
          cases this
      · simp only [List.cons_append, List.nil_append, List.cons.injEq, true_and] at h
        have := prefix_le r w r' h (fun c hc => word_iff.mpr (hw c hc))
        simpa using this
  · have h1 : remainder loc d = d.dropWhile (word loc) := by
      unfold remainder; split
      · exact absurd ⟨_, rfl⟩ h
      · rfl
    have h2 : token loc d = d.takeWhile (word loc) := by
      unfold token; split
      · exact absurd ⟨_, rfl⟩ h
      · rfl
    rw [h1, h2]
    refine ⟨(List.takeWhile_append_dropWhile).symm, ⟨[], _, rfl, Or.inl rfl, htw d⟩, ?_⟩
    rintro t' r' h3 ⟨sign, w, rfl, hs, hw⟩
    rcases hs with rfl | rfl
    · exact prefix_le d w r' h3 (fun c hc => word_iff.mpr (hw c hc))
    · exact absurd ⟨w ++ r', h3⟩ h

theorem longest_unique {alnum : Char → Bool} {d t r t' r' : List Char} (h : IsLongest alnum d t r) (h' : IsLongest alnum d t' r') : t = t' ∧ r = r' := by
  have hl : t.length = t'.length := by
    have h1 := h.2.2 t' r' h'.1 h'.2.1
    have h2 := h'.2.2 t r h.1 h.2.1
    omega
  exact List.append_inj (h.1.symm.trans h'.1) hl

end Verif.AsInt
