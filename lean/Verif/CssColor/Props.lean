import Verif.CssColor.Main

/-!
# Properties of colors and of CSS colors (C107, C108, C109, C110)
-/

namespace Verif.CssColor

open Spec

variable {F : Type}

/-! ### Example setup

There are two numbers: zero and one. -/

namespace Ex

def env : Env Bool where
  I := 31
  W := 32
  M := 100
  mem := List.replicate 10 ' '
  num := fun s => if s = ['0'] then some false else if s = ['1'] then some true else none
  text := fun b => if b then ['1'] else ['0']
  geOne := fun b => b
  one := true

theorem ok : env.Ok := ⟨by decide, by decide, by decide, by decide, by decide, rfl⟩

theorem textOk : TextOk env := by
  constructor <;> intro x <;> cases x <;> decide

end Ex

/-! ### Named colors (C107) -/

theorem table_eq : named.map (fun x => (x.name, x.color.quad)) = keywords.dropLast.map fun k => (k.1.toList, k.2) := by
  decide +kernel

theorem keywords_last : keywords = keywords.dropLast ++ [("yellowgreen", 154, 205, 50, 255)] := by decide +kernel

theorem first_is_smallest : ((named.map fun x => (x.name, x.trgb)).Pairwise fun x y =>
    x.2 = y.2 → x.1.map Char.toNat < y.1.map Char.toNat) := by decide +kernel

theorem trgb_small : ∀ x ∈ named, x.trgb < 2 ^ 32 := by decide +kernel

attribute [local irreducible] named

theorem quad_inj {c d : Color} (h : c.quad = d.quad) : c = d := by
  obtain ⟨r, g, b, a⟩ := c
  obtain ⟨r', g', b', a'⟩ := d
  simpa [Color.quad] using h

theorem table_mem (s : String) (q : Rgba) (hs : s ≠ "yellowgreen") :
    (s, q) ∈ keywords ↔ ∃ i c : _, (named.map Named.name)[(i : Nat)]? = some s.toList ∧
      (named.map Named.color)[i]? = some c ∧ c.quad = q := by
  have h1 : (s, q) ∈ keywords ↔ (s, q) ∈ keywords.dropLast := by
    constructor
    · intro h
      rw [keywords_last, List.mem_append, List.mem_singleton] at h
      rcases h with h | h
      · exact h
      · exact absurd (congrArg Prod.fst h) hs
    · intro h
      rw [keywords_last]
      exact List.mem_append_left _ h
  have h2 : (s, q) ∈ keywords.dropLast ↔ (s.toList, q) ∈ keywords.dropLast.map fun k => (k.1.toList, k.2) := by
    rw [List.mem_map]
    constructor
    · intro h
      exact ⟨_, h, rfl⟩
    · rintro ⟨⟨s', q'⟩, h, h3⟩
      simp only [Prod.mk.injEq] at h3
      obtain ⟨h4, rfl⟩ := h3
      rw [String.toList_inj] at h4
      rw [← h4]
      exact h
  rw [h1, h2, ← table_eq, List.mem_iff_getElem?]
  simp only [List.getElem?_map]
  constructor
  · rintro ⟨i, h⟩
    refine ⟨i, ?_⟩
    generalize named[i]? = o at h
    cases o with
    | none => cases h
    | some x =>
      simp only [Option.map_some, Option.some.injEq, Prod.mk.injEq] at h
      exact ⟨x.color, by simp [h.1], rfl, h.2⟩
  · rintro ⟨i, c, h3, h4, h5⟩
    refine ⟨i, ?_⟩
    generalize named[i]? = o at h3 h4
    cases o with
    | none => cases h3
    | some x =>
      simp only [Option.map_some, Option.some.injEq] at h3 h4 ⊢
      rw [h3, h4, h5]

/-- Looking up a keyword of CSS Color Module Level 3 gives the color of that keyword. Not proved for `yellowgreen`, since that
keyword is missing (see `C107_missing`). -/
theorem C107_keyword_partial (s : String) (q : Rgba) (h : (s, q) ∈ keywords) (hs : s ≠ "yellowgreen") :
    ∃ i c, findByName s.toList = some (some i) ∧ getNamedColor i = some c ∧ c.quad = q := by
  obtain ⟨i, c, h1, h2, h3⟩ := (table_mem s q hs).mp h
  obtain ⟨r, h4, h5⟩ := findByName_spec s.toList
  refine ⟨i, c, ?_, getNamedColor_of h2, h3⟩
  rw [h4, (h5 i).mpr ⟨h1, fun j hj hc => ?_⟩]
  obtain ⟨l1, e1⟩ := List.getElem?_eq_some_iff.mp h1
  obtain ⟨l2, e2⟩ := List.getElem?_eq_some_iff.mp hc
  have := (List.Nodup.getElem_inj_iff names_nodup).mp (e1.trans e2.symm)
  omega

example : ∃ i c, findByName "cornflowerblue".toList = some (some i) ∧ getNamedColor i = some c ∧
    c.quad = (100, 149, 237, 255) := C107_keyword_partial "cornflowerblue" _ (by decide +kernel) (by decide)

/-- Only keywords are found, and each of them at one position only. -/
theorem C107_only (s : Str) : ∃ r, findByName s = some r ∧ ∀ i, r = some i ↔
    (named.map Named.name)[i]? = some s ∧ ∃ k ∈ keywords, k.1.toList = s ∧
      ∃ c, getNamedColor i = some c ∧ c.quad = k.2 := by
  obtain ⟨r, h1, h2⟩ := findByName_spec s
  refine ⟨r, h1, fun i => ?_⟩
  rw [h2]
  constructor
  · rintro ⟨h3, -⟩
    refine ⟨h3, ?_⟩
    have hlen := (List.getElem?_eq_some_iff.mp h3).1
    rw [List.length_map, ← List.length_map (f := Named.color)] at hlen
    have hc := List.getElem?_eq_getElem hlen
    generalize (named.map Named.color)[i] = c at hc
    have hs : String.ofList s ≠ "yellowgreen" := by
      intro hc
      have : s = "yellowgreen".toList := by rw [← hc, String.toList_ofList]
      rw [this] at h3
      have hmem := List.mem_of_getElem? h3
      revert hmem
      unfold named
      decide +kernel
    have hk := (table_mem (String.ofList s) c.quad hs).mpr ⟨i, c, by rw [String.toList_ofList]; exact h3, hc, rfl⟩
    exact ⟨_, hk, String.toList_ofList, c, getNamedColor_of hc, rfl⟩
  · rintro ⟨h3, -⟩
    refine ⟨h3, fun j hj hc => ?_⟩
    obtain ⟨l1, e1⟩ := List.getElem?_eq_some_iff.mp h3
    obtain ⟨l2, e2⟩ := List.getElem?_eq_some_iff.mp hc
    have := (List.Nodup.getElem_inj_iff names_nodup).mp (e1.trans e2.symm)
    omega

theorem C107_missing : ("yellowgreen", 154, 205, 50, 255) ∈ keywords ∧ findByName "yellowgreen".toList = some none := by
  constructor
  · decide +kernel
  · obtain ⟨r, h1, h2⟩ := findByName_spec "yellowgreen".toList
    rw [h1]
    cases r with
    | none => rfl
    | some i =>
      exfalso
      have hmem := List.mem_of_getElem? ((h2 i).mp rfl).1
      revert hmem
      unfold named
      decide +kernel

/-- Looking up a color by its value finds the name that comes first, in lexicographic order, among the
names for that color. If nothing is found, there is no name for the color. -/
theorem C107_by_value {c : Color} (hc : c.Valid) : ∃ r, findByValue c = some r ∧
    (∀ i, r = some i → getNamedColor i = some c ∧ ∃ s, formatName i = .ok s ∧
      ∀ j t, getNamedColor j = some c → formatName j = .ok t → j = i ∨ s.map Char.toNat < t.map Char.toNat) ∧
    (r = none → ∀ j, getNamedColor j ≠ some c) := by
  obtain ⟨r, h1, h2⟩ := findByValue_spec hc
  have hback : ∀ j, getNamedColor j = some c → (named.map Named.color)[j]? = some c := by
    intro j hj
    unfold getNamedColor at hj
    rw [List.getElem?_map]
    exact hj
  refine ⟨r, h1, ?_, ?_⟩
  · rintro i rfl
    obtain ⟨h3, h4⟩ := (h2 i).mp rfl
    have hlen := (List.getElem?_eq_some_iff.mp h3).1
    rw [List.length_map] at hlen
    obtain ⟨s, hs⟩ := name_exists hlen
    refine ⟨getNamedColor_of h3, s, formatName_of hs, ?_⟩
    intro j t hj ht
    have hj' := hback j hj
    have hji : i ≤ j := by
      by_contra hlt
      exact h4 j (by omega) hj'
    rcases Nat.eq_or_lt_of_le hji with h | hlt
    · exact Or.inl h.symm
    · right
      have hjlen := (List.getElem?_eq_some_iff.mp hj').1
      rw [List.length_map] at hjlen
      have hp := List.pairwise_iff_getElem.mp first_is_smallest i j (by rw [List.length_map]; exact hlen)
        (by rw [List.length_map]; exact hjlen) hlt
      simp only [List.getElem_map] at hp
      rw [List.getElem?_map, List.getElem?_eq_getElem hlen] at hs h3
      rw [List.getElem?_map, List.getElem?_eq_getElem hjlen] at hj'
      unfold formatName at ht
      rw [List.getElem?_eq_getElem hjlen] at ht
      have m1 := trgb_small _ (List.getElem_mem hlen)
      have m2 := trgb_small _ (List.getElem_mem hjlen)
      generalize named[i] = x at *
      generalize named[j] = y at *
      simp only [Option.map_some, Option.some.injEq, Except.ok.injEq] at hs h3 hj' ht
      rw [← hs, ← ht]
      apply hp
      have hxy : x.color = y.color := h3.trans hj'.symm
      unfold Named.color Color.fromTrgb at hxy
      simp only [Color.mk.injEq, byte_mask] at hxy
      omega
  · rintro rfl j hj
    have hex : ∃ j : Nat, (named.map Named.color)[j]? = some c := ⟨j, hback j hj⟩
    have := (h2 (Nat.find hex)).mpr ⟨Nat.find_spec hex, fun j hj => Nat.find_min hex hj⟩
    cases this

example : (⟨0, 255, 255, 255⟩ : Color).Valid ∧ getNamedColor 3 = some ⟨0, 255, 255, 255⟩ ∧
    getNamedColor 21 = some ⟨0, 255, 255, 255⟩ := by unfold getNamedColor named; decide +kernel

/-! ### Text (C108) -/

/-- Text that was produced by formatting can be parsed, and gives the same color of the same form. An alpha component that is
greater than one becomes equal to one. -/
theorem C108_round_trip {e : Env F} (he : e.Ok) (ht : TextOk e) (css : Css F) (hv : css.Valid) (disableShort : Bool) :
    ∃ s, format e css disableShort = .ok s ∧ parse e s = some (some (clampAlpha e css)) :=
  round_trip he ht css hv disableShort

example : ∃ s, format Ex.env (.hsl true false true false) false = .ok s ∧
    parse Ex.env s = some (some (.hsl true false true false)) :=
  C108_round_trip Ex.ok Ex.textOk (.hsl true false true false) trivial false

example : formatHsl Ex.env true false true false = "hsla(1, 0%, 1%, 0)".toList := by decide

/-- The text of the hex form. There is no alpha component if the color is opaque. There is only one digit for each component if
that is possible, unless the short form is disabled. -/
theorem C108_hex {e : Env F} (he : e.Ok) {c : Color} (hc : c.Valid) (disableShort : Bool) :
    ∃ t, format e (.hex c) disableShort = .ok ('#' :: t) ∧
      t.length = (if c.a = 255 then 3 else 4) *
        (if disableShort = false ∧ ∀ v ∈ [c.r, c.g, c.b, c.a], v % 17 = 0 then 1 else 2) ∧
      HexNotation t c.quad ∧ ∀ ch ∈ t, ch ∈ "0123456789ABCDEF".toList := by
  obtain ⟨t, h1, h2⟩ := hexText_notation hc disableShort
  obtain ⟨k1, k2, k3, k4⟩ := hc
  have hcoll : (∀ v ∈ [c.r, c.g, c.b, c.a], v % 17 = 0) ↔ Collapsible c := by
    have h17 : ∀ v ≤ 255, v % 17 = 0 ↔ v / 16 = v % 16 := by
      intro v hv
      omega
    simp only [List.mem_cons, List.not_mem_nil, or_false, forall_eq_or_imp, forall_eq]
    rw [h17 _ k1, h17 _ k2, h17 _ k3, h17 _ k4]
    rfl
  have hch : ∀ d < 16, hexChar d ∈ "0123456789ABCDEF".toList := by decide +kernel
  refine ⟨t, ?_, ?_, h2, ?_⟩
  · rw [← h1]
    exact formatHex_spec he ⟨k1, k2, k3, k4⟩ disableShort
  · have hlen : (hexText c disableShort).length = t.length + 1 := by rw [h1]; rfl
    simp only [hcoll]
    unfold hexText at hlen
    rw [hexPair_eq (show c.r < 256 by omega), hexPair_eq (show c.g < 256 by omega),
      hexPair_eq (show c.b < 256 by omega), hexPair_eq (show c.a < 256 by omega)] at hlen
    by_cases hs : disableShort = false ∧ Collapsible c
    · rw [if_pos hs] at hlen ⊢
      by_cases ha : c.a = 255
      · rw [if_pos ha] at hlen ⊢
        simp at hlen
        omega
      · rw [if_neg ha] at hlen ⊢
        simp at hlen
        omega
    · rw [if_neg hs] at hlen ⊢
      by_cases ha : c.a = 255
      · rw [if_pos ha] at hlen ⊢
        simp at hlen
        omega
      · rw [if_neg ha] at hlen ⊢
        simp at hlen
        omega
  · intro ch hmem
    have hin : ch ∈ (hexText c disableShort).tail := by rw [h1]; exact hmem
    unfold hexText at hin
    rw [hexPair_eq (show c.r < 256 by omega), hexPair_eq (show c.g < 256 by omega),
      hexPair_eq (show c.b < 256 by omega), hexPair_eq (show c.a < 256 by omega)] at hin
    split at hin
    · simp only [List.tail_cons, List.mem_cons] at hin
      rcases hin with rfl | rfl | rfl | h
      · exact hch _ (by omega)
      · exact hch _ (by omega)
      · exact hch _ (by omega)
      · split at h
        · simp at h
        · rw [List.mem_singleton] at h
          subst h
          exact hch _ (by omega)
    · simp only [List.tail_cons, List.mem_append, List.mem_cons, List.not_mem_nil, or_false] at hin
      rcases hin with (((rfl | rfl) | rfl | rfl) | rfl | rfl) | h
      · exact hch _ (by omega)
      · exact hch _ (by omega)
      · exact hch _ (by omega)
      · exact hch _ (by omega)
      · exact hch _ (by omega)
      · exact hch _ (by omega)
      · split at h
        · simp at h
        · simp only [List.mem_cons, List.not_mem_nil, or_false] at h
          rcases h with rfl | rfl
          · exact hch _ (by omega)
          · exact hch _ (by omega)

example : HexNotation "A3F0".toList (170, 51, 255, 0) :=
  .shortAlpha (x := 10) (y := 3) (z := 15) (w := 0) (hexDigit_hexChar (by decide)) (hexDigit_hexChar (by decide))
    (hexDigit_hexChar (by decide)) (hexDigit_hexChar (by decide))

/-- The text that is written for a color: the name of the color if it has one (the one that is found by `C107_by_value`),
otherwise two digits for each component, where the alpha component is omitted if the color is opaque. -/
theorem C108_output {C : Type} {e : Env F} (he : e.Ok) (widen : Char → C) {c : Color} (hc : c.Valid) :
    ∃ s, output e widen c = .ok (s.map widen) ∧
      (∀ i, findByValue c = some (some i) → formatName i = .ok s) ∧
      ((∀ i, getNamedColor i ≠ some c) →
        s = '#' :: (hexPair c.r ++ hexPair c.g ++ hexPair c.b ++ if c.a = 255 then [] else hexPair c.a)) := by
  obtain ⟨s, h1, -, h2, h3, -⟩ := output_spec he widen hc
  refine ⟨s, h1, ?_, ?_⟩
  · intro i hi
    obtain ⟨r, h4, h5⟩ := findByValue_spec hc
    have : r = some i := by rw [hi] at h4; simpa using h4.symm
    obtain ⟨h6, h7⟩ := (h5 i).mp this
    exact formatName_of (h2 i h6 h7)
  · intro hno
    apply h3
    intro hmem
    obtain ⟨i, hi⟩ := List.mem_iff_getElem?.mp hmem
    exact hno i (getNamedColor_of hi)

example : hexPair 10 = ['0', 'A'] := by rw [hexPair_eq (by decide)]; decide

/-- Writing a color, and then parsing the text, gives the same color. -/
theorem C108_output_parse {C : Type} {e : Env F} (he : e.Ok) (toHex : Css F → Color) (widen : Char → C) (narrow : C → Char)
    (hw : ∀ ch, ch.toNat < 128 → narrow (widen ch) = ch) {c : Color} (hc : c.Valid) :
    ∃ s, output e widen c = .ok s ∧ parseValue e toHex narrow s = some (some c) :=
  output_parse he toHex widen narrow hw hc

example : ∃ s, output Ex.env Char.toNat ⟨1, 2, 3, 4⟩ = .ok s ∧
    parseValue Ex.env (fun _ => ⟨0, 0, 0, 0⟩) Char.ofNat s = some (some ⟨1, 2, 3, 4⟩) :=
  C108_output_parse Ex.ok _ _ _ (fun ch _ => by simp) (by decide)

/-! ### Syntax (C109) -/

/-- Parsing succeeds exactly for the strings that are in hexadecimal notation or in functional notation, and for the names of
the named colors, and gives what the notation denotes. Nothing goes out of range. -/
theorem C109_parse {e : Env F} (he : e.Ok) (s : Str) : ∃ r, parse e s = some r ∧ ∀ css, r = some css ↔
    (∃ t c, s = '#' :: t ∧ HexNotation t c.quad ∧ css = .hex c) ∨
    (∃ t f, s = t ++ [')'] ∧ FuncNotation e.num e.one t f ∧ css = ofFunc f) ∨
    (∃ i, formatName i = .ok s ∧ css = .name i) := by
  obtain ⟨r, h1, h2⟩ := parse_spec he s
  refine ⟨r, h1, fun css => ?_⟩
  rw [h2]
  have hn : ∀ i : Nat, (named.map Named.name)[i]? = some s ↔ formatName i = .ok s := by
    intro i
    constructor
    · exact formatName_of
    · intro h
      unfold formatName at h
      rw [List.getElem?_map]
      generalize named[i]? = o at h
      cases o with
      | none => cases h
      | some x =>
        simp only [Except.ok.injEq] at h
        rw [Option.map_some, h]
  simp only [hn]

example : parse Ex.env "rgb(1,  0,1)".toList = some (some (.rgb true false true true)) := by
  obtain ⟨r, h1, h2⟩ := C109_parse Ex.ok "rgb(1,  0,1)".toList
  have := (h2 (.rgb true false true true)).mpr (Or.inr (Or.inl ⟨"rgb(1,  0,1".toList, .rgb true false true true, rfl,
    .rgb (args := "1,  0,1".toList) ⟨['1'], ",  ".toList, ['0'], [','], ['1'], rfl, ⟨2, rfl⟩, ⟨0, rfl⟩,
      Ex.textOk.arg true true, Ex.textOk.arg false false, Ex.textOk.arg false true⟩, rfl⟩))
  rw [h1, this]

/-- The hexadecimal notation is accepted in both lower case and upper case. -/
example (e : Env F) (he : e.Ok) : parse e "#fA0".toList = some (some (.hex ⟨255, 170, 0, 255⟩)) := by
  obtain ⟨r, h1, h2⟩ := C109_parse he "#fA0".toList
  rw [h1, (h2 (.hex ⟨255, 170, 0, 255⟩)).mpr (Or.inl ⟨"fA0".toList, ⟨255, 170, 0, 255⟩, rfl,
    .short (c1 := 'f') (c2 := 'A') (c3 := '0') (x := 15) (y := 10) (z := 0) (Or.inr ⟨by decide, by decide⟩) (hexDigit_hexChar (by decide))
      (hexDigit_hexChar (by decide)), rfl⟩)]

/-- Names of functions are recognized in lower case only, and so are the names of colors. -/
theorem C109_case (e : Env F) (he : e.Ok) : parse e "RGB(0,0,0)".toList = some none ∧ parse e "Red".toList = some none := by
  constructor
  · obtain ⟨r, h1, h2⟩ := parse_spec he "RGB(0,0,0)".toList
    rw [h1]
    cases r with
    | none => rfl
    | some css =>
      exfalso
      rcases (h2 css).mp rfl with ⟨t, c, h, -⟩ | ⟨t, f, h, h3, -⟩ | ⟨i, h, -⟩
      · have := congrArg List.head? h
        simp at this
      · cases h3 <;> simp at h
      · have hmem := List.mem_of_getElem? h
        revert hmem
        unfold named
        decide +kernel
  · obtain ⟨r, h1, h2⟩ := parse_spec he "Red".toList
    rw [h1]
    cases r with
    | none => rfl
    | some css =>
      exfalso
      rcases (h2 css).mp rfl with ⟨t, c, h, -⟩ | ⟨t, f, h, h3, -⟩ | ⟨i, h, -⟩
      · have := congrArg List.head? h
        simp at this
      · have := congrArg List.getLast? h
        simp at this
      · have hmem := List.mem_of_getElem? h
        revert hmem
        unfold named
        decide +kernel

/-- The colors that parsing results in are valid. -/
theorem C109_valid {e : Env F} (he : e.Ok) (s : Str) (css : Css F) (h : parse e s = some (some css)) : css.Valid := by
  obtain ⟨r, h1, h2⟩ := C109_parse he s
  rw [h, Option.some.injEq] at h1
  subst h1
  rcases (h2 css).mp rfl with ⟨t, c, -, h3, rfl⟩ | ⟨t, f, -, -, rfl⟩ | ⟨i, h3, rfl⟩
  · obtain ⟨r, g, b, a⟩ := c
    simp only [Color.quad] at h3
    cases h3 with
    | short a1 a2 a3 =>
      have := hexDigit_lt a1; have := hexDigit_lt a2; have := hexDigit_lt a3
      exact ⟨by simp only; omega, by simp only; omega, by simp only; omega, by simp only; omega⟩
    | shortAlpha a1 a2 a3 a4 =>
      have := hexDigit_lt a1; have := hexDigit_lt a2; have := hexDigit_lt a3; have := hexDigit_lt a4
      exact ⟨by simp only; omega, by simp only; omega, by simp only; omega, by simp only; omega⟩
    | long a1 a2 a3 a4 a5 a6 =>
      have := hexDigit_lt a1; have := hexDigit_lt a2; have := hexDigit_lt a3; have := hexDigit_lt a4
      have := hexDigit_lt a5; have := hexDigit_lt a6
      exact ⟨by simp only; omega, by simp only; omega, by simp only; omega, by simp only; omega⟩
    | longAlpha a1 a2 a3 a4 a5 a6 a7 a8 =>
      have := hexDigit_lt a1; have := hexDigit_lt a2; have := hexDigit_lt a3; have := hexDigit_lt a4
      have := hexDigit_lt a5; have := hexDigit_lt a6; have := hexDigit_lt a7; have := hexDigit_lt a8
      exact ⟨by simp only; omega, by simp only; omega, by simp only; omega, by simp only; omega⟩
  · cases f <;> trivial
  · unfold formatName at h3
    show i < named.length
    by_contra hge
    rw [List.getElem?_eq_none (by omega)] at h3
    cases h3

/-! ### Packing of colors (C110) -/

/-- The packed form has red in the most significant byte, then green, blue, and alpha. -/
theorem C110_rgba (c : Color) (hc : c.Valid) :
    c.toRgba = ((c.r * 256 + c.g) * 256 + c.b) * 256 + c.a ∧ c.toRgba < 2 ^ 32 ∧ Color.fromRgba c.toRgba = c := by
  obtain ⟨r, g, b, a⟩ := c
  unfold Color.Valid at hc
  simp only at hc
  have h : Color.toRgba ⟨r, g, b, a⟩ = ((r * 256 + g) * 256 + b) * 256 + a := by
    unfold Color.toRgba
    simp only
    rw [pack4 (by omega) (by omega) (by omega)]
    omega
  refine ⟨h, by rw [h]; omega, ?_⟩
  rw [h]
  unfold Color.fromRgba
  simp only [byte_mask, Color.mk.injEq]
  omega

example : Color.toRgba ⟨1, 2, 3, 4⟩ = 0x01020304 := by decide

/-- The packed form has the complement of alpha in the most significant byte, then red, green, and blue. -/
theorem C110_trgb (c : Color) (hc : c.Valid) :
    c.toTrgb = (((255 - c.a) * 256 + c.r) * 256 + c.g) * 256 + c.b ∧ c.toTrgb < 2 ^ 32 ∧ Color.fromTrgb c.toTrgb = c := by
  obtain ⟨r, g, b, a⟩ := c
  unfold Color.Valid at hc
  simp only at hc
  have h : Color.toTrgb ⟨r, g, b, a⟩ = (((255 - a) * 256 + r) * 256 + g) * 256 + b := by
    unfold Color.toTrgb
    simp only
    rw [pack4 (by omega) (by omega) (by omega)]
    omega
  refine ⟨h, by rw [h]; omega, ?_⟩
  rw [h]
  unfold Color.fromTrgb
  simp only [byte_mask, Color.mk.injEq]
  omega

example : Color.toTrgb ⟨1, 2, 3, 4⟩ = 0xFB010203 := by decide

/-- Every packed value is the packed form of a color. -/
theorem C110_unpack (v : Nat) (hv : v < 2 ^ 32) :
    (Color.fromRgba v).Valid ∧ (Color.fromRgba v).toRgba = v ∧ (Color.fromTrgb v).Valid ∧ (Color.fromTrgb v).toTrgb = v := by
  have h1 : (Color.fromRgba v).Valid := by
    unfold Color.fromRgba Color.Valid
    simp only [byte_mask]
    omega
  have h2 := fromTrgb_valid v
  refine ⟨h1, ?_, h2, ?_⟩
  · rw [(C110_rgba _ h1).1]
    unfold Color.fromRgba
    simp only [byte_mask]
    omega
  · rw [(C110_trgb _ h2).1]
    unfold Color.fromTrgb
    simp only [byte_mask]
    omega

/-- A color is opaque if, and only if its packed form is less than 2^24. -/
theorem C110_opaque (c : Color) (hc : c.Valid) : (c.isOpaque = true ↔ c.a = 255) ∧ (c.isOpaque = true ↔ c.toTrgb < 2 ^ 24) ∧
    (c.isGray = true ↔ c.r = c.g ∧ c.g = c.b) := by
  refine ⟨by simp [Color.isOpaque], ?_, ?_⟩
  · rw [(C110_trgb c hc).1]
    obtain ⟨h1, h2, h3, h4⟩ := hc
    simp only [Color.isOpaque, beq_iff_eq]
    omega
  · simp only [Color.isGray, Bool.and_eq_true, beq_iff_eq]
    constructor
    · rintro ⟨h1, h2⟩
      exact ⟨h1, h1.symm.trans h2⟩
    · rintro ⟨h1, h2⟩
      exact ⟨h1, h1.trans h2⟩

example : Color.isOpaque ⟨7, 7, 7, 255⟩ = true ∧ Color.isGray ⟨7, 7, 8, 255⟩ = false := by decide

end Verif.CssColor
