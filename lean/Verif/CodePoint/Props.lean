import Verif.CodePoint.Model
import Verif.CodePoint.Spec
import Verif.AsInt.Props
/-!
Properties C222 and C223: code points, and ranges of code points, of fonts.
-/
namespace Verif.CodePoint
open Verif.Integer Verif.PixelSize Spec

theorem pow_half {W : Nat} (hW : 1 ≤ W) : (2 : Int) ^ W = 2 * 2 ^ (W - 1) := by
  obtain ⟨k, rfl⟩ : ∃ k, W = k + 1 := ⟨W - 1, by omega⟩
  simp [Int.pow_succ]
  omega

/-! ### C222: Code points -/

/-- C222: an integer is accepted precisely if it is a code point. Otherwise, the object is unchanged. -/
theorem C222_from_int (W : Nat) (hW : 1 ≤ W) (cp v : Int) (h0 : 0 ≤ v) (h1 : v < 2 ^ W) :
    (Valid W v → tryFromInt W cp v = (true, v)) ∧ (¬ Valid W v → tryFromInt W cp v = (false, cp)) := by
  have hp := pow_half hW
  have he : toIntType W (toCharType W v) = v := by
    unfold toIntType toCharType
    by_cases h : v < 2 ^ (W - 1)
    · rw [if_pos h, if_neg (by omega)]
    · rw [if_neg h, if_pos (by omega)]; omega
  unfold tryFromInt Valid eof
  simp only [he]
  constructor
  · intro h
    rw [if_pos ⟨by omega, trivial, by omega⟩]
  · intro h
    rw [if_neg (fun hc => h ⟨h0, by omega⟩)]

/-- C222: every character, other than the one that coincides with the end-of-file indicator, is accepted, and is recovered from the code point,
which is a valid one. -/
theorem C222_from_char (W : Nat) (hW : 1 ≤ W) (cp ch : Int) (h0 : -(2 ^ (W - 1)) ≤ ch) (h1 : ch < 2 ^ (W - 1)) :
    (ch ≠ -1 → ∃ v, tryFromChar W cp ch = (true, v) ∧ Valid W v ∧ toChar W v = ch ∧ (0 ≤ ch → v = ch)) ∧
    (ch = -1 → tryFromChar W cp ch = (false, cp)) := by
  have hp := pow_half hW
  unfold tryFromChar toChar toCharType toIntType eof Valid
  by_cases h : ch < 0
  · simp only [if_pos h]
    constructor
    · intro hn
      refine ⟨ch + 2 ^ W, ?_, ⟨by omega, by omega⟩, ?_, by omega⟩
      · rw [if_pos (by omega)]
      · rw [if_neg (by omega)]; omega
    · intro hn
      rw [if_neg (by omega)]
  · simp only [if_neg h]
    constructor
    · intro hn
      refine ⟨ch, ?_, ⟨by omega, by omega⟩, ?_, fun _ => rfl⟩
      · rw [if_pos (by omega)]
      · rw [if_pos (by omega)]
    · intro hn
      omega

/-- C222: every code point is that of the character that it is converted to. -/
theorem C222_to_char (W : Nat) (hW : 1 ≤ W) (cp v : Int) (h : Valid W v) :
    -(2 ^ (W - 1)) ≤ toChar W v ∧ toChar W v < 2 ^ (W - 1) ∧ tryFromChar W cp (toChar W v) = (true, v) := by
  have hp := pow_half hW
  obtain ⟨h0, h1⟩ := h
  unfold tryFromChar toChar toCharType toIntType eof
  by_cases h : v < 2 ^ (W - 1)
  · have hn : ¬ v < 0 := by omega
    have hv : v ≠ 2 ^ W - 1 := by omega
    simp only [if_pos h, if_neg hn]
    rw [if_pos hv]
    exact ⟨by omega, h, rfl⟩
  · have hn : v - 2 ^ W < 0 := by omega
    have hv : v - 2 ^ W + 2 ^ W ≠ 2 ^ W - 1 := by omega
    simp only [if_neg h, if_pos hn]
    rw [if_pos hv]
    refine ⟨by omega, by omega, ?_⟩
    rw [Prod.mk.injEq]
    exact ⟨rfl, by omega⟩

theorem fits_iff {W : Nat} {v : Int} : Integer.Spec.Fits ⟨false, W⟩ v ↔ 0 ≤ v ∧ v < 2 ^ W := by
  unfold Integer.Spec.Fits
  simp

theorem valid_fits {W : Nat} {v : Int} (h : Valid W v) : Integer.Spec.Fits (intType W) v := by
  unfold intType
  rw [fits_iff]
  exact ⟨h.1, by have := h.2; omega⟩

/-- C222: parsing succeeds precisely if the text is a decimal numeral for a code point. Otherwise, the object is unchanged. -/
theorem C222_parse (I : Nat) (hI : 7 ≤ I) (W : Nat) (hW : 1 ≤ W) (s : List Char) (cp : Int) :
    (∀ v, parse I W s cp = some (true, v) ↔ IsCodePoint W s v) ∧
    ((∃ v, parse I W s cp = some (true, v)) ∨ parse I W s cp = some (false, cp)) := by
  obtain ⟨h1, h2⟩ := AsInt.parse_iff hI (intType W) (radix := 10) (by decide) (by decide) s 0
  rcases h2 with ⟨w, hw⟩ | hf
  · have hi := (h1 w).mp hw
    obtain ⟨f0, f1⟩ := fits_iff.mp hi.2
    have hu : ∀ v, AsInt.Spec.IsInt ⟨false, W⟩ 10 s v → v = w := by
      intro v hv
      have := (h1 v).mpr hv
      rw [hw] at this
      simpa using this.symm
    have he : parse I W s cp = some (tryFromInt W cp w) := by
      unfold parse
      rw [hw]
      rfl
    obtain ⟨g1, g2⟩ := C222_from_int W hW cp w f0 f1
    rw [he]
    by_cases hv : Valid W w
    · rw [g1 hv]
      refine ⟨fun v => ⟨fun h => ?_, fun h => ?_⟩, Or.inl ⟨w, rfl⟩⟩
      · have : w = v := by simpa using h
        subst this
        exact ⟨hi, hv⟩
      · rw [hu v h.1]
    · rw [g2 hv]
      refine ⟨fun v => ⟨fun h => by simp at h, fun h => ?_⟩, Or.inr rfl⟩
      rw [hu v h.1] at h
      exact absurd h.2 hv
  · have he : parse I W s cp = some (false, cp) := by
      unfold parse
      rw [hf]
      rfl
    rw [he]
    refine ⟨fun v => ⟨fun h => by simp at h, fun h => ?_⟩, Or.inr rfl⟩
    have := (h1 v).mpr h.1
    rw [hf] at this
    simp at this

theorem format_eq {I : Nat} (hI : 7 ≤ I) {W : Nat} (hT : W + 1 < 2 ^ I) {M : Nat} (hM : W + 2 ≤ M) {mem : List Char} (hm : mem.length ≤ M) {v : Int}
    (hv : Valid W v) : format I W M mem v = some (AsInt.Spec.numeral 10 v) :=
  AsInt.format_eq (T := intType W) hI hT hM (by decide) (by decide) hm (valid_fits hv)

theorem numeral_codePoint {W : Nat} {v : Int} (hv : Valid W v) : IsCodePoint W (AsInt.Spec.numeral 10 v) v :=
  ⟨AsInt.numeral_isInt (by decide) (by decide) (valid_fits hv), hv⟩

/-- C222: a code point is written as a decimal numeral, and is recovered when that is parsed. -/
theorem C222_round_trip (I : Nat) (hI : 7 ≤ I) (W : Nat) (hW : 1 ≤ W) (hT : W + 1 < 2 ^ I) (M : Nat) (hM : W + 2 ≤ M) (mem : List Char)
    (hm : mem.length ≤ M) (v cp : Int) (hv : Valid W v) :
    format I W M mem v = some (AsInt.Spec.numeral 10 v) ∧ parse I W (AsInt.Spec.numeral 10 v) cp = some (true, v) :=
  ⟨format_eq hI hT hM hm hv, ((C222_parse I hI W hW _ cp).1 v).mpr (numeral_codePoint hv)⟩

example : tryFromInt 32 7 65 = (true, 65) := by decide
example : tryFromInt 32 7 4294967294 = (true, 4294967294) := by decide
example : tryFromInt 32 7 4294967295 = (false, 7) := by decide
example : tryFromChar 32 7 (-2) = (true, 4294967294) := by decide
example : tryFromChar 32 7 (-1) = (false, 7) := by decide
example : toChar 32 4294967294 = -2 := by decide
example : parse 31 32 "8364".toList 7 = some (true, 8364) := by decide +kernel
example : parse 31 32 "4294967295".toList 7 = some (false, 7) := by decide +kernel
example : parse 31 32 "-1".toList 7 = some (false, 7) := by decide +kernel

/-! ### C223: Ranges of code points -/

/-- There is no dash in the numeral of a code point. -/
theorem no_dash {W : Nat} {s : List Char} {v : Int} (h : IsCodePoint W s v) : ∀ c ∈ s, c ≠ '-' := by
  obtain ⟨⟨⟨sign, neg, cs, ds, h1, h2, h3, h4, h5⟩, -⟩, -⟩ := h
  have hs : sign = [] := by
    cases h2 with
    | none => rfl
    | plus h => simp at h
    | minus h => simp at h
  subst hs
  have hall : ∀ c ∈ cs, ∃ d, IntText.Spec.IsDigit 10 c d := by
    intro c hc
    clear h1 h5 h3
    induction h4 with
    | nil => simp at hc
    | cons h _ ih =>
      rcases List.mem_cons.mp hc with hc | hc
      · rw [hc]; exact ⟨_, h⟩
      · exact ih hc
  rintro c hc rfl
  have hm : '-'.toNat ∈ s.map Char.toNat := List.mem_map_of_mem hc
  rw [h1] at hm
  obtain ⟨d, hd⟩ := hall _ (by simpa using hm)
  rw [IntText.isDigit_iff (by decide)] at hd
  simp [IntText.mapDigitR, IntText.mapDigit] at hd

theorem find_append {s : List Char} (h : ∀ c ∈ s, c ≠ '-') (t : List Char) : (s ++ '-' :: t).findIdx? (· == '-') = some s.length := by
  induction s with
  | nil => rw [List.nil_append, List.findIdx?_cons]; rfl
  | cons c s ih =>
    have hc : c ≠ '-' := h c (by simp)
    rw [List.cons_append, List.findIdx?_cons, ih (fun d hd => h d (List.mem_cons_of_mem _ hd))]
    simp [hc]

theorem find_none {s : List Char} (h : ∀ c ∈ s, c ≠ '-') : s.findIdx? (· == '-') = none := by
  rw [List.findIdx?_eq_none_iff]
  intro c hc
  simp [h c hc]

/-- Where the first dash is. -/
theorem find_some {s : List Char} {i : Nat} (h : s.findIdx? (· == '-') = some i) : s = s.take i ++ '-' :: s.drop (i + 1) := by
  rw [List.findIdx?_eq_some_iff_getElem] at h
  obtain ⟨hi, h1, -⟩ := h
  have h1 : s[i] = '-' := by simpa using h1
  have h2 := List.drop_eq_getElem_cons hi
  rw [h1] at h2
  rw [← h2, List.take_append_drop]

theorem parse_cases {I : Nat} (hI : 7 ≤ I) {W : Nat} (hW : 1 ≤ W) (s : List Char) :
    (∃ v, parse I W s 0 = some (true, v) ∧ IsCodePoint W s v ∧ ∀ w, IsCodePoint W s w → w = v) ∨
    (parse I W s 0 = some (false, 0) ∧ ∀ w, ¬ IsCodePoint W s w) := by
  obtain ⟨h1, h2⟩ := C222_parse I hI W hW s 0
  rcases h2 with ⟨v, hv⟩ | hf
  · refine Or.inl ⟨v, hv, (h1 v).mp hv, fun w hw => ?_⟩
    have := (h1 w).mpr hw
    rw [hv] at this
    simpa using this.symm
  · refine Or.inr ⟨hf, fun w hw => ?_⟩
    have := (h1 w).mpr hw
    rw [hf] at this
    simp at this

theorem isRange_pair {W : Nat} {s t : List Char} {r : Int × Int} (hs : (s ++ '-' :: t).findIdx? (· == '-') = some s.length)
    (h : IsRange W (s ++ '-' :: t) r) : IsCodePoint W s r.1 ∧ IsCodePoint W t r.2 ∧ r.1 ≤ r.2 := by
  generalize hu : s ++ '-' :: t = u at h hs
  cases h with
  | single _ v h =>
    rw [find_none (no_dash h)] at hs
    simp at hs
  | pair s' t' a b ha hb hab =>
    rw [find_append (no_dash ha)] at hs
    have hl : s'.length = s.length := by simpa using hs
    obtain ⟨e1, e2⟩ := List.append_inj hu hl.symm
    have e2 : t = t' := by simpa using e2
    subst e1 e2
    exact ⟨ha, hb, hab⟩

/-- C223: parsing succeeds precisely if the text is a code point, or two code points in order with a dash between them. Otherwise, the object is
unchanged. -/
theorem C223_parse (I : Nat) (hI : 7 ≤ I) (W : Nat) (hW : 1 ≤ W) (s : List Char) (range : Int × Int) :
    (∀ r, parseRange I W s range = some (true, r) ↔ IsRange W s r) ∧
    ((∃ r, parseRange I W s range = some (true, r)) ∨ parseRange I W s range = some (false, range)) := by
  cases hf : s.findIdx? (· == '-') with
  | none =>
    rcases parse_cases hI hW s with ⟨v, h1, h2, h3⟩ | ⟨h1, h2⟩
    · have he : parseRange I W s range = some (true, v, v) := by
        unfold parseRange
        rw [hf]
        simp [h1]
      rw [he]
      refine ⟨fun r => ⟨fun h => ?_, fun h => ?_⟩, Or.inl ⟨_, rfl⟩⟩
      · have : (v, v) = r := by simpa using h
        rw [← this]
        exact .single s v h2
      · cases h with
        | single _ w hw => rw [h3 w hw]
        | pair a b x y hx _ _ => rw [find_append (no_dash hx)] at hf; simp at hf
    · have he : parseRange I W s range = some (false, range) := by
        unfold parseRange
        rw [hf]
        simp [h1]
      rw [he]
      refine ⟨fun r => ⟨fun h => by simp at h, fun h => ?_⟩, Or.inr rfl⟩
      cases h with
      | single _ w hw => exact absurd hw (h2 w)
      | pair a b x y hx _ _ => rw [find_append (no_dash hx)] at hf; simp at hf
  | some i =>
    have hs := find_some hf
    have hl : (s.take i).length = i := by
      rw [List.findIdx?_eq_some_iff_getElem] at hf
      obtain ⟨hi, -⟩ := hf
      simp; omega
    have hin : ∀ r, IsRange W s r → IsCodePoint W (s.take i) r.1 ∧ IsCodePoint W (s.drop (i + 1)) r.2 ∧ r.1 ≤ r.2 := by
      intro r hr
      apply isRange_pair
      · rw [← hs, hl]; exact hf
      · rw [← hs]; exact hr
    rcases parse_cases hI hW (s.take i) with ⟨a, h1, h2, h3⟩ | ⟨h1, h2⟩
    · rcases parse_cases hI hW (s.drop (i + 1)) with ⟨b, k1, k2, k3⟩ | ⟨k1, k2⟩
      · by_cases hab : a ≤ b
        · have he : parseRange I W s range = some (true, a, b) := by
            unfold parseRange
            rw [hf]
            simp [h1, k1, hab]
          rw [he]
          refine ⟨fun r => ⟨fun h => ?_, fun h => ?_⟩, Or.inl ⟨_, rfl⟩⟩
          · have : (a, b) = r := by simpa using h
            rw [← this, hs]
            exact .pair _ _ a b h2 k2 hab
          · obtain ⟨g1, g2, -⟩ := hin r h
            rw [← h3 _ g1, ← k3 _ g2]
        · have he : parseRange I W s range = some (false, range) := by
            unfold parseRange
            rw [hf]
            simp [h1, k1, hab]
          rw [he]
          refine ⟨fun r => ⟨fun h => by simp at h, fun h => ?_⟩, Or.inr rfl⟩
          obtain ⟨g1, g2, g3⟩ := hin r h
          rw [h3 _ g1, k3 _ g2] at g3
          exact absurd g3 hab
      · have he : parseRange I W s range = some (false, range) := by
          unfold parseRange
          rw [hf]
          simp [h1, k1]
        rw [he]
        refine ⟨fun r => ⟨fun h => by simp at h, fun h => ?_⟩, Or.inr rfl⟩
        exact absurd (hin r h).2.1 (k2 _)
    · have he : parseRange I W s range = some (false, range) := by
        unfold parseRange
        rw [hf]
        simp [h1]
      rw [he]
      refine ⟨fun r => ⟨fun h => by simp at h, fun h => ?_⟩, Or.inr rfl⟩
      exact absurd (hin r h).1 (h2 _)

theorem formatted_pair (a b : List Char) : Format.formatted 0 "%s-%s".toList [a, b] = (a ++ '-' :: b, none) := by
  have h1 : Format.advance1 "%s-%s".toList = ([], .ok 2) := rfl
  have h2 : Format.advance1 ("%s-%s".toList.drop 2) = (['-'], .ok 3) := rfl
  have h3 : Format.advance2 (("%s-%s".toList.drop 2).drop 3) = ([], none) := rfl
  unfold Format.formatted
  rw [if_pos rfl, Format.format, h1]
  simp only
  rw [Format.format, h2]
  simp only
  rw [Format.format, h3]
  simp

/-- C223: a range is written as its first and last code points with a dash between them, or as its first code point if the last one is not
greater. -/
theorem C223_format (I : Nat) (hI : 7 ≤ I) (W : Nat) (hT : W + 1 < 2 ^ I) (M : Nat) (hM : W + 2 ≤ M) (mem : List Char)
    (hm : mem.length ≤ M) (a b : Int) (ha : Valid W a) (hb : Valid W b) :
    (a < b → formatRange I W M mem (a, b) = some (AsInt.Spec.numeral 10 a ++ '-' :: AsInt.Spec.numeral 10 b)) ∧
    (b ≤ a → formatRange I W M mem (a, b) = some (AsInt.Spec.numeral 10 a)) := by
  unfold formatRange
  constructor
  · intro h
    rw [if_pos h, format_eq hI hT hM hm ha, format_eq hI hT hM hm hb]
    simp only [Option.bind_eq_bind, Option.bind_some, formatted_pair]
  · intro h
    have hn : ¬ (a, b).2 > (a, b).1 := by simp only; omega
    rw [if_neg hn, format_eq hI hT hM hm ha]

/-- C223: a range, whose first code point is not greater than the last one, is recovered when that which is written for it is parsed. -/
theorem C223_round_trip (I : Nat) (hI : 7 ≤ I) (W : Nat) (hW : 1 ≤ W) (hT : W + 1 < 2 ^ I) (M : Nat) (hM : W + 2 ≤ M) (mem : List Char)
    (hm : mem.length ≤ M) (a b : Int) (ha : Valid W a) (hb : Valid W b) (hab : a ≤ b) (range : Int × Int) :
    ∃ text, formatRange I W M mem (a, b) = some text ∧ parseRange I W text range = some (true, a, b) := by
  obtain ⟨h1, h2⟩ := C223_format I hI W hT M hM mem hm a b ha hb
  by_cases h : a < b
  · exact ⟨_, h1 h, ((C223_parse I hI W hW _ range).1 _).mpr (.pair _ _ a b (numeral_codePoint ha) (numeral_codePoint hb) hab)⟩
  · have he : b = a := by omega
    subst he
    exact ⟨_, h2 hab, ((C223_parse I hI W hW _ range).1 _).mpr (.single _ b (numeral_codePoint hb))⟩

example : formatRange 31 32 40 [] (65, 90) = some "65-90".toList := by decide +kernel
example : formatRange 31 32 40 [] (65, 65) = some "65".toList := by decide +kernel
example : formatRange 31 32 40 [] (90, 65) = some "90".toList := by decide +kernel
example : parseRange 31 32 "65-90".toList (1, 2) = some (true, 65, 90) := by decide +kernel
example : parseRange 31 32 "065-65".toList (1, 2) = some (true, 65, 65) := by decide +kernel
example : parseRange 31 32 "90-65".toList (1, 2) = some (false, 1, 2) := by decide +kernel
example : parseRange 31 32 "65-".toList (1, 2) = some (false, 1, 2) := by decide +kernel
example : parseRange 31 32 "65--90".toList (1, 2) = some (false, 1, 2) := by decide +kernel

end Verif.CodePoint
