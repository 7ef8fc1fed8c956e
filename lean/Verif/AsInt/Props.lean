import Verif.AsInt.Lemmas
/-!
Properties of formatting and parsing of integers by way of `core::as_int()`, `core::as_flex_int()`, and `core::as_flex_int_h()`.
-/
namespace Verif.AsInt
open Verif.Integer Verif.PixelSize Spec

/-! ### C200: Flexible integers -/

/-- A decimal numeral, or a hexadecimal numeral after `0x`, is written. -/
theorem C200_format (I : Nat) (hI : 7 ≤ I) (T : Ty) (hT : T.bits + 1 < 2 ^ I) (M : Nat) (hM : T.bits + 2 ≤ M) (mem : List Char) (hm : mem.length ≤ M) (v : Int)
    (hv : Integer.Spec.Fits T v) :
    formatFlex I T M mem false v = some (Spec.numeral 10 v) ∧ formatFlex I T M mem true v = some (['0', 'x'] ++ Spec.numeral 16 v) := by
  unfold formatFlex
  rw [format_eq hI hT hM (by decide) (by decide) hm hv, format_eq hI hT hM (by decide) (by decide) hm hv]
  exact ⟨rfl, rfl⟩

/-- The first character of a numeral is a digit or a minus sign. -/
theorem isInt_digits {T : Ty} {radix : Nat} {text : List Char} {v : Int} (h : Spec.IsInt T radix text v) :
    text ≠ [] ∧ ∀ c ∈ text.tail, ∃ d, IntText.Spec.IsDigit radix c.toNat d := by
  obtain ⟨⟨sign, neg, cs, ds, h1, h2, h3, h4, h5⟩, -⟩ := h
  have hall : ∀ c ∈ cs, ∃ d, IntText.Spec.IsDigit radix c d := by
    intro c hc
    clear h1 h5 h3
    induction h4 with
    | nil => simp at hc
    | cons h _ ih =>
      rcases List.mem_cons.mp hc with hc | hc
      · rw [hc]; exact ⟨_, h⟩
      · exact ih hc
  constructor
  · rintro rfl
    have := congrArg List.length h1
    have h6 := List.length_pos_iff.mpr h3
    simp at this
    omega
  · intro c hc
    have hm : c.toNat ∈ (sign ++ cs).tail := by rw [← h1, ← List.map_tail]; exact List.mem_map_of_mem hc
    apply hall
    cases h2 with
    | none => exact List.mem_of_mem_tail (by simpa using hm)
    | plus _ => simpa using hm
    | minus _ => simpa using hm

theorem x_not_octal {x : Char} (hx : x = 'x' ∨ x = 'X') {d : Nat} : ¬ IntText.Spec.IsDigit 8 x.toNat d := by
  rw [IntText.isDigit_iff (by decide)]
  rcases hx with rfl | rfl <;> (intro h; simp [IntText.mapDigitR, IntText.mapDigit] at h)

/-- Parsing succeeds precisely if the text has one of the three forms. Otherwise, the integer is untouched. -/
theorem C200_parse (I : Nat) (hI : 7 ≤ I) (T : Ty) (s : List Char) (var : Int) :
    (∀ v, parseFlex I T s var = some (true, v) ↔ IsFlexInt T s v) ∧
    ((∃ v, parseFlex I T s var = some (true, v)) ∨ parseFlex I T s var = some (false, var)) := by
  by_cases h1 : s.head? = some '0'
  · obtain ⟨t, rfl⟩ : ∃ t, s = '0' :: t := by
      cases s with
      | nil => simp at h1
      | cons c t => simp at h1; exact ⟨t, by rw [h1]⟩
    by_cases h2 : t.head? = some 'x' ∨ t.head? = some 'X'
    · obtain ⟨x, u, rfl, hx⟩ : ∃ x u, t = x :: u ∧ (x = 'x' ∨ x = 'X') := by
        cases t with
        | nil => simp at h2
        | cons c u => simp at h2; exact ⟨c, u, rfl, h2⟩
      have he : parseFlex I T ('0' :: x :: u) var = parse I T 16 u var := by
        unfold parseFlex
        rcases hx with rfl | rfl <;> simp
      rw [he]
      obtain ⟨h3, h4⟩ := parse_iff hI T (radix := 16) (by decide) (by decide) u var
      refine ⟨fun v => ?_, h4⟩
      rw [h3]
      constructor
      · exact .hex x u v hx
      · intro h
        cases h with
        | hex _ _ _ _ h => exact h
        | oct _ _ h =>
          obtain ⟨d, hd⟩ := (isInt_digits h).2 x (by simp)
          exact absurd hd (x_not_octal hx)
        | dec _ _ h _ => simp at h
    · have he : parseFlex I T ('0' :: t) var = parse I T 8 ('0' :: t) var := by
        unfold parseFlex
        cases t with
        | nil => simp
        | cons c u =>
          simp at h2
          simp [h2]
      rw [he]
      obtain ⟨h3, h4⟩ := parse_iff hI T (radix := 8) (by decide) (by decide) ('0' :: t) var
      refine ⟨fun v => ?_, h4⟩
      rw [h3]
      constructor
      · exact .oct t v
      · intro h
        cases h with
        | hex x _ _ hx _ => simp at h2; rcases hx with rfl | rfl <;> simp at h2
        | oct _ _ h => exact h
        | dec _ _ h _ => simp at h
  · have he : parseFlex I T s var = parse I T 10 s var := by
      unfold parseFlex
      cases s with
      | nil => simp
      | cons c u => simp at h1; simp [h1]
    rw [he]
    obtain ⟨h3, h4⟩ := parse_iff hI T (radix := 10) (by decide) (by decide) s var
    refine ⟨fun v => ?_, h4⟩
    rw [h3]
    constructor
    · exact .dec s v h1
    · intro h
      cases h with
      | hex => simp at h1
      | oct => simp at h1
      | dec _ _ _ h => exact h

/-- What is written can be parsed, and the result is the original integer, negative or not. -/
theorem C200_round_trip (I : Nat) (hI : 7 ≤ I) (T : Ty) (hT : T.bits + 1 < 2 ^ I) (M : Nat) (hM : T.bits + 2 ≤ M) (mem : List Char) (hm : mem.length ≤ M)
    (asHex : Bool) (v var : Int) (hv : Integer.Spec.Fits T v) :
    ∃ text, formatFlex I T M mem asHex v = some text ∧ parseFlex I T text var = some (true, v) := by
  obtain ⟨h1, h2⟩ := C200_format I hI T hT M hM mem hm v hv
  cases asHex with
  | true =>
    refine ⟨_, h2, ((C200_parse I hI T _ var).1 v).mpr ?_⟩
    exact .hex 'x' _ v (Or.inl rfl) (numeral_isInt (by decide) (by decide) hv)
  | false =>
    refine ⟨_, h1, ((C200_parse I hI T _ var).1 v).mpr ?_⟩
    by_cases h0 : v = 0
    · subst h0
      have e10 : Spec.numeral 10 0 = ['0'] := by simp [Spec.numeral, IntText.Spec.numeral, IntText.Spec.digits]; decide
      have e8 : Spec.numeral 8 0 = ['0'] := by simp [Spec.numeral, IntText.Spec.numeral, IntText.Spec.digits]; decide
      have := numeral_isInt (T := T) (radix := 8) (by decide) (by decide) hv
      rw [e8] at this
      rw [e10]
      exact .oct [] 0 this
    · exact .dec _ v (numeral_head (by decide) (by decide) h0) (numeral_isInt (by decide) (by decide) hv)

/-- Text denotes no more than one integer. -/
theorem C200_unique (T : Ty) (s : List Char) (v w : Int) (hv : IsFlexInt T s v) (hw : IsFlexInt T s w) : v = w := by
  have h1 := ((C200_parse 31 (by decide) T s 0).1 v).mpr hv
  have h2 := ((C200_parse 31 (by decide) T s 0).1 w).mpr hw
  rw [h1] at h2
  simpa using h2

example : parseFlex 31 (intTy 31) "0x1F".toList 7 = some (true, 31) := by decide +kernel
example : parseFlex 31 (intTy 31) "0X1f".toList 7 = some (true, 31) := by decide +kernel
example : parseFlex 31 (intTy 31) "017".toList 7 = some (true, 15) := by decide +kernel
example : parseFlex 31 (intTy 31) "018".toList 7 = some (false, 7) := by decide +kernel
example : parseFlex 31 (intTy 31) "0".toList 7 = some (true, 0) := by decide +kernel
example : parseFlex 31 (intTy 31) "0x-1F".toList 7 = some (true, -31) := by decide +kernel
example : parseFlex 31 (intTy 31) "-0x1F".toList 7 = some (false, 7) := by decide +kernel
example : parseFlex 31 (intTy 31) "-017".toList 7 = some (true, -17) := by decide +kernel

/-! ### C201: Reading from a stream -/

/-- Reading from a stream that is in a failed state, or whose end has been reached, has no effect other than to set the fail bit. -/
theorem C201_not_good (I : Nat) (T : Ty) (radix : Nat) (loc : Locale) (s : Stream) (var : Int) (h : s.eof = true ∨ s.fail = true) :
    extract I T radix loc s var = some ({ s with fail := true }, var) := by
  unfold extract sentry
  rcases h with h | h <;> simp [h]

/-- Reading when there is nothing but white space, and white space is to be skipped. -/
theorem C201_blank (I : Nat) (T : Ty) (radix : Nat) (loc : Locale) (data : List Char) (var : Int) (h : ∀ c ∈ data, loc.space c = true) :
    extract I T radix loc ⟨data, true, false, false⟩ var = some (⟨[], true, true, true⟩, var) := by
  unfold extract sentry
  have : data.dropWhile loc.space = [] := List.dropWhile_eq_nil_iff.mpr h
  simp [this]

theorem extract_good (I : Nat) (T : Ty) (radix : Nat) (loc : Locale) (skipws : Bool) (blank data : List Char) (var : Int)
    (hb : ∀ c ∈ blank, loc.space c = true) (hn : skipws = false → blank = []) (hs : skipws = true → data ≠ [] ∧ ∀ c ∈ data.head?, loc.space c = false) :
    extract I T radix loc ⟨blank ++ data, skipws, false, false⟩ var =
      (parse I T radix (token loc data) var).map fun (success, v) => (⟨remainder loc data, skipws, (remainder loc data).isEmpty, !success⟩, v) := by
  have hsen : sentry loc ⟨blank ++ data, skipws, false, false⟩ = (true, ⟨data, skipws, false, false⟩) := by
    unfold sentry
    cases skipws with
    | false => simp [hn rfl]
    | true =>
      obtain ⟨h1, h2⟩ := hs rfl
      have : (blank ++ data).dropWhile loc.space = data := by
        rw [List.dropWhile_append_of_pos hb]
        cases data with
        | nil => rfl
        | cons c r => rw [List.dropWhile_cons_of_neg]; simp [h2 c (by simp)]
      simp [this, h1]
  unfold extract
  rw [hsen]
  simp only [outer_eq]
  cases parse I T radix (token loc data) var with
  | none => rfl
  | some r => simp

/-- Reading from a good stream: After white space, if it is to be skipped, the longest sequence of letters, digits, and underscores,
possibly after a minus sign, is removed from the stream. If it is a numeral for a value of the type, the integer is set to that value, and the
fail bit is not set. Otherwise, the integer is untouched, and the fail bit is set. The end bit is set precisely if there is nothing left. -/
theorem C201_extract (I : Nat) (hI : 7 ≤ I) (T : Ty) (radix : Nat) (hr : 2 ≤ radix) (hr2 : radix ≤ 36) (loc : Locale) (hd : loc.alnum '-' = false)
    (skipws : Bool) (blank data : List Char) (var : Int) (hb : ∀ c ∈ blank, loc.space c = true) (hn : skipws = false → blank = [])
    (hs : skipws = true → data ≠ [] ∧ ∀ c ∈ data.head?, loc.space c = false) :
    ∃ token rest, IsLongest loc.alnum data token rest ∧
      ((∃ v, Spec.IsInt T radix token v ∧
          extract I T radix loc ⟨blank ++ data, skipws, false, false⟩ var = some (⟨rest, skipws, decide (rest = []), false⟩, v)) ∨
       ((¬ ∃ v, Spec.IsInt T radix token v) ∧
          extract I T radix loc ⟨blank ++ data, skipws, false, false⟩ var = some (⟨rest, skipws, decide (rest = []), true⟩, var))) := by
  refine ⟨token loc data, remainder loc data, token_longest loc hd data, ?_⟩
  rw [extract_good I T radix loc skipws blank data var hb hn hs]
  have he : (remainder loc data).isEmpty = decide (remainder loc data = []) := by
    cases remainder loc data <;> simp
  obtain ⟨h1, h2⟩ := parse_iff hI T hr hr2 (token loc data) var
  rcases h2 with ⟨v, h2⟩ | h2
  · left
    exact ⟨v, (h1 v).mp h2, by rw [h2, he]; rfl⟩
  · right
    refine ⟨?_, by rw [h2, he]; rfl⟩
    rintro ⟨v, hv⟩
    have := (h1 v).mpr hv
    rw [h2] at this
    simp at this

/-- What is removed from the stream is uniquely determined. -/
theorem C201_unique (alnum : Char → Bool) (data token rest token' rest' : List Char) (h : IsLongest alnum data token rest)
    (h' : IsLongest alnum data token' rest') : token = token' ∧ rest = rest' := longest_unique h h'

/-- The "C" locale. -/
def classic : Locale := ⟨fun c => c = ' ' ∨ (9 ≤ c.toNat ∧ c.toNat ≤ 13), fun c => c.isAlphanum⟩

example : extract 31 (intTy 31) 10 classic ⟨"  -12, 7".toList, true, false, false⟩ 5 = some (⟨", 7".toList, true, false, false⟩, -12) := by decide +kernel
example : extract 31 (intTy 31) 10 classic ⟨"12x 7".toList, true, false, false⟩ 5 = some (⟨" 7".toList, true, false, true⟩, 5) := by decide +kernel
example : extract 31 (intTy 31) 10 classic ⟨" 12".toList, false, false, false⟩ 5 = some (⟨" 12".toList, false, false, true⟩, 5) := by decide +kernel
example : extract 31 (intTy 31) 16 classic ⟨"fF".toList, true, false, false⟩ 5 = some (⟨[], true, true, false⟩, 255) := by decide +kernel
example : extract 31 (intTy 31) 10 classic ⟨"2147483648".toList, true, false, false⟩ 5 = some (⟨[], true, true, true⟩, 5) := by decide +kernel

/-! ### C202: Reading what was written -/

/-- Locales in which digits and letters are classified as such, and in which they, and the minus sign, are not white space. -/
structure Ordinary (loc : Locale) : Prop where
  alnum : ∀ n, (48 ≤ n ∧ n ≤ 57) ∨ (65 ≤ n ∧ n ≤ 90) → loc.alnum (Char.ofNat n) = true ∧ loc.space (Char.ofNat n) = false
  dash : loc.alnum '-' = false ∧ loc.space '-' = false

theorem numeral_longest (loc : Locale) (ho : Ordinary loc) {radix : Nat} (hr : 2 ≤ radix) (hr2 : radix ≤ 36) (v : Int) (rest : List Char)
    (hrest : ∀ c ∈ rest.head?, loc.alnum c = false ∧ c ≠ '_') :
    token loc (Spec.numeral radix v ++ rest) = Spec.numeral radix v ∧ remainder loc (Spec.numeral radix v ++ rest) = rest := by
  obtain ⟨sign, w, he, hs, hne, hw⟩ := numeral_shape hr hr2 v
  have hword : ∀ c ∈ w, word loc c = true := by
    intro c hc
    obtain ⟨n, rfl, hn⟩ := hw c hc
    exact word_iff.mpr (Or.inl (ho.alnum n hn).1)
  have hstop : rest.takeWhile (word loc) = [] ∧ rest.dropWhile (word loc) = rest := by
    cases rest with
    | nil => simp
    | cons c r =>
      have := hrest c (by simp)
      have hc : word loc c = false := by simp [word, this.1, this.2]
      simp [hc]
  have ht : (w ++ rest).takeWhile (word loc) = w ∧ (w ++ rest).dropWhile (word loc) = rest := by
    rw [List.takeWhile_append_of_pos hword, List.dropWhile_append_of_pos hword, hstop.1, hstop.2]
    simp
  rw [he]
  rcases hs with rfl | rfl
  · obtain ⟨c, w', rfl⟩ := List.exists_cons_of_ne_nil hne
    have hc : c ≠ '-' := by
      rintro rfl
      have := hword '-' (by simp)
      rw [word_iff, ho.dash.1] at this
      simp at this
    constructor
    · unfold token; split
      · rename_i h; exact absurd (List.cons.inj h).1 hc
      · exact ht.1
    · unfold remainder; split
      · rename_i h; exact absurd (List.cons.inj h).1 hc
      · exact ht.2
  · simp [token, remainder, ht.1, ht.2]

theorem numeral_front (loc : Locale) (ho : Ordinary loc) {radix : Nat} (hr : 2 ≤ radix) (hr2 : radix ≤ 36) (v : Int) (rest : List Char) :
    Spec.numeral radix v ++ rest ≠ [] ∧ ∀ c ∈ (Spec.numeral radix v ++ rest).head?, loc.space c = false := by
  obtain ⟨sign, w, he, hs, hne, hw⟩ := numeral_shape hr hr2 v
  obtain ⟨c, w', rfl⟩ := List.exists_cons_of_ne_nil hne
  rw [he]
  rcases hs with rfl | rfl
  · obtain ⟨n, hn, hn2⟩ := hw c (by simp)
    simp [hn, (ho.alnum n hn2).2]
  · simp [ho.dash.2]

/-- An integer that is written to a stream, and is followed by something that is not a letter, a digit, or an underscore, can be read back. What
follows it is left in the stream. -/
theorem C202_round_trip (I : Nat) (hI : 7 ≤ I) (T : Ty) (hT : T.bits + 1 < 2 ^ I) (M : Nat) (hM : T.bits + 2 ≤ M) (mem : List Char) (hm : mem.length ≤ M)
    (radix : Nat) (hr : 2 ≤ radix) (hr2 : radix ≤ 36) (loc : Locale) (ho : Ordinary loc) (skipws : Bool) (blank rest : List Char) (v var : Int)
    (hv : Integer.Spec.Fits T v) (hb : ∀ c ∈ blank, loc.space c = true) (hn : skipws = false → blank = [])
    (hrest : ∀ c ∈ rest.head?, loc.alnum c = false ∧ c ≠ '_') :
    ∃ text, format I T M radix 1 mem v = some text ∧
      extract I T radix loc ⟨blank ++ (text ++ rest), skipws, false, false⟩ var = some (⟨rest, skipws, decide (rest = []), false⟩, v) := by
  refine ⟨_, format_eq hI hT hM hr hr2 hm hv, ?_⟩
  rw [extract_good I T radix loc skipws blank _ var hb hn (fun _ => numeral_front loc ho hr hr2 v rest)]
  obtain ⟨h1, h2⟩ := numeral_longest loc ho hr hr2 v rest hrest
  rw [h1, h2, ((parse_iff hI T hr hr2 _ var).1 v).mpr (numeral_isInt hr hr2 hv)]
  cases rest <;> simp

theorem mapM_length {α β : Type} {f : α → Option β} : ∀ (l : List α) {r : List β}, l.mapM f = some r → r.length = l.length := by
  intro l
  induction l with
  | nil => intro r h; simp at h; simp [h]
  | cons a l ih =>
    intro r h
    rw [List.mapM_cons] at h
    cases h1 : f a with
    | none => simp [h1] at h
    | some b =>
      cases h2 : l.mapM f with
      | none => simp [h1, h2] at h
      | some t =>
        simp [h1, h2] at h
        rw [← h]
        simp [ih h2]

/-- Integers that are written to a stream, each one after one or more white space characters, can be read back. -/
theorem C202_sequence (I : Nat) (hI : 7 ≤ I) (T : Ty) (hT : T.bits + 1 < 2 ^ I) (M : Nat) (hM : T.bits + 2 ≤ M) (mem : List Char) (hm : mem.length ≤ M)
    (radix : Nat) (hr : 2 ≤ radix) (hr2 : radix ≤ 36) (loc : Locale) (ho : Ordinary loc) (blank rest : List Char) (hb : ∀ c ∈ blank, loc.space c = true)
    (hb2 : blank ≠ []) (hb3 : ∀ c ∈ blank, loc.alnum c = false ∧ c ≠ '_') (hrest : ∀ c ∈ rest.head?, loc.alnum c = false ∧ c ≠ '_') (var : Int)
    (vs : List Int) (hvs : ∀ v ∈ vs, Integer.Spec.Fits T v) :
    ∃ texts, vs.mapM (format I T M radix 1 mem) = some texts ∧
      extractAll I T radix loc vs.length var ⟨texts.flatMap (blank ++ ·) ++ rest, true, false, false⟩ =
        some (⟨rest, true, decide (vs ≠ [] ∧ rest = []), false⟩, vs) := by
  induction vs with
  | nil => exact ⟨[], rfl, by simp [extractAll]⟩
  | cons v vs ih =>
    obtain ⟨texts, h1, h2⟩ := ih (fun w hw => hvs w (by simp [hw]))
    have hnext : ∀ c ∈ (texts.flatMap (blank ++ ·) ++ rest).head?, loc.alnum c = false ∧ c ≠ '_' := by
      obtain ⟨b, bs, rfl⟩ := List.exists_cons_of_ne_nil hb2
      cases texts with
      | nil => simpa using hrest
      | cons t ts =>
        intro c hc
        simp at hc
        rw [← hc]
        exact hb3 b (by simp)
    obtain ⟨text, h3, h4⟩ := C202_round_trip I hI T hT M hM mem hm radix hr hr2 loc ho true blank _ v var (hvs v (by simp)) hb (by simp) hnext
    refine ⟨text :: texts, ?_, ?_⟩
    · simp [List.mapM_cons, h1, h3]
    · have hlen : texts.length = vs.length := by
        exact mapM_length _ h1
      have hdata : (text :: texts).flatMap (blank ++ ·) ++ rest = blank ++ (text ++ (texts.flatMap (blank ++ ·) ++ rest)) := by simp
      rw [hdata]
      simp only [List.length_cons, extractAll]
      rw [h4]
      cases vs with
      | nil =>
        have : texts = [] := by cases texts <;> simp_all
        subst this
        simp [extractAll]
      | cons w ws =>
        have hne : decide (texts.flatMap (blank ++ ·) ++ rest = []) = false := by
          obtain ⟨b, bs, rfl⟩ := List.exists_cons_of_ne_nil hb2
          cases texts with
          | nil => simp at hlen
          | cons t ts => simp
        rw [hne]
        simp only [Option.bind_eq_bind, Option.bind_some]
        rw [h2]
        simp

example : extractAll 31 (intTy 31) 10 classic 3 0 ⟨" 12 -7 0;".toList, true, false, false⟩ = some (⟨";".toList, true, false, false⟩, [12, -7, 0]) := by
  decide +kernel
example : extractAll 31 (intTy 31) 10 classic 2 5 ⟨"12".toList, true, false, false⟩ = some (⟨[], true, true, true⟩, [12, 5]) := by decide +kernel

theorem classic_ordinary : Ordinary classic := by
  constructor
  · have key : ∀ n < 91, (48 ≤ n ∧ n ≤ 57) ∨ (65 ≤ n ∧ n ≤ 90) → classic.alnum (Char.ofNat n) = true ∧ classic.space (Char.ofNat n) = false := by decide +kernel
    intro n hn
    exact key n (by omega) hn
  · decide +kernel

end Verif.AsInt
