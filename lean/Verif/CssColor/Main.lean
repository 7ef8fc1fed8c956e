import Verif.CssColor.Grammar

/-!
# Parsing and formatting of CSS colors
-/

namespace Verif.CssColor

open Spec

variable {F : Type}

/-! ### Facts about the table -/

theorem names_nodup : (named.map Named.name).Nodup := by decide +kernel

theorem names_plain : ∀ s ∈ named.map Named.name, s.head? ≠ some '#' ∧ s.getLast? ≠ some ')' ∧
    ∀ ch ∈ s, ch.toNat < 128 := by decide +kernel

attribute [local irreducible] named

theorem named_valid : ∀ c ∈ named.map Named.color, c.Valid := by
  intro c hc
  obtain ⟨e, -, rfl⟩ := List.mem_map.mp hc
  exact fromTrgb_valid _

theorem formatName_of {i : Nat} {s : Str} (h : (named.map Named.name)[i]? = some s) : formatName i = .ok s := by
  unfold formatName
  rw [List.getElem?_map] at h
  generalize named[i]? = o at h
  cases o with
  | none => cases h
  | some x =>
    rw [Option.map_some, Option.some.injEq] at h
    rw [← h]

theorem getNamedColor_of {i : Nat} {c : Color} (h : (named.map Named.color)[i]? = some c) : getNamedColor i = some c := by
  unfold getNamedColor
  rw [List.getElem?_map] at h
  generalize named[i]? = o at h
  cases o with
  | none => cases h
  | some x => exact h

theorem name_exists {i : Nat} (h : i < named.length) : ∃ s, (named.map Named.name)[i]? = some s := by
  rw [← List.length_map (f := Named.name)] at h
  exact ⟨_, List.getElem?_eq_getElem h⟩

theorem parseName_spec (s : Str) : ∃ r, parseName (F := F) s = some r ∧
    ∀ css, r = some css ↔ ∃ i, css = .name i ∧ (named.map Named.name)[i]? = some s := by
  obtain ⟨r, h1, h2⟩ := findByName_spec s
  unfold parseName
  rw [h1]
  simp only [Option.bind_eq_bind, Option.bind_some]
  cases r with
  | none =>
    refine ⟨_, rfl, fun css => ⟨fun h => (by cases h), ?_⟩⟩
    rintro ⟨i, -, h⟩
    -- the first position of the name
    exfalso
    have hex : ∃ i : Nat, (named.map Named.name)[i]? = some s := ⟨i, h⟩
    classical
    have := (h2 (Nat.find hex)).mpr ⟨Nat.find_spec hex, fun j hj => Nat.find_min hex hj⟩
    cases this
  | some i =>
    refine ⟨_, rfl, fun css => ?_⟩
    have hi := ((h2 i).mp rfl).1
    constructor
    · intro h
      rw [Option.some.injEq] at h
      exact ⟨i, h.symm, hi⟩
    · rintro ⟨j, rfl, hj⟩
      have : i = j := by
        obtain ⟨l1, e1⟩ := List.getElem?_eq_some_iff.mp hi
        obtain ⟨l2, e2⟩ := List.getElem?_eq_some_iff.mp hj
        exact (List.Nodup.getElem_inj_iff names_nodup).mp (e1.trans e2.symm)
      rw [this]

/-- The syntax: hexadecimal notation, functional notation, or the name of a color. -/
theorem parse_spec {e : Env F} (he : e.Ok) (s : Str) : ∃ r, parse e s = some r ∧ ∀ css, r = some css ↔
    (∃ t c, s = '#' :: t ∧ HexNotation t c.quad ∧ css = .hex c) ∨
    (∃ t f, s = t ++ [')'] ∧ FuncNotation e.num e.one t f ∧ css = ofFunc f) ∨
    (∃ i, (named.map Named.name)[i]? = some s ∧ css = .name i) := by
  have hnm : ∀ i : Nat, (named.map Named.name)[i]? = some s → s.head? ≠ some '#' ∧ s.getLast? ≠ some ')' := by
    intro i hi
    obtain ⟨h1, h2, -⟩ := names_plain s (List.mem_of_getElem? hi)
    exact ⟨h1, h2⟩
  have hfn : ∀ t f, FuncNotation e.num e.one t f → t.head? ≠ some '#' ∧ t ≠ [] := by
    intro t f h
    cases h <;> exact ⟨by simp, by simp⟩
  cases s with
  | nil =>
    obtain ⟨r, h1, h2⟩ := parseName_spec (F := F) []
    refine ⟨r, h1, fun css => ?_⟩
    rw [h2]
    constructor
    · rintro ⟨i, h3, h4⟩
      exact Or.inr (Or.inr ⟨i, h4, h3⟩)
    · rintro (⟨t, c, h, -⟩ | ⟨t, f, h, -⟩ | ⟨i, h3, h4⟩)
      · cases h
      · simp at h
      · exact ⟨i, h4, h3⟩
  | cons ch rest =>
    unfold parse
    simp only
    by_cases hch : ch = '#'
    · subst hch
      rw [if_pos rfl]
      obtain ⟨r, h1, h2⟩ := parseHex_spec he rest
      refine ⟨r, h1, fun css => ?_⟩
      rw [h2]
      constructor
      · rintro ⟨c, h3, h4⟩
        exact Or.inl ⟨rest, c, rfl, h4, h3⟩
      · rintro (⟨t, c, h, h3, h4⟩ | ⟨t, f, h, h3, -⟩ | ⟨i, h3, -⟩)
        · rw [List.cons.injEq] at h
          obtain ⟨-, rfl⟩ := h
          exact ⟨c, h4, h3⟩
        · obtain ⟨h5, h6⟩ := hfn t f h3
          cases t with
          | nil => exact absurd rfl h6
          | cons a b =>
            rw [List.cons_append, List.cons.injEq] at h
            rw [← h.1] at h5
            simp at h5
        · have := (hnm i h3).1
          simp at this
    · rw [if_neg hch]
      by_cases hl : (ch :: rest).getLast? = some ')'
      · rw [if_pos hl]
        refine ⟨_, rfl, fun css => ?_⟩
        rw [parseFunc_iff he]
        have hsplit : ch :: rest = (ch :: rest).dropLast ++ [')'] := by
          have := List.dropLast_append_getLast (show ch :: rest ≠ [] by simp)
          rw [List.getLast?_eq_getLast_of_ne_nil (by simp), Option.some.injEq] at hl
          rw [hl] at this
          exact this.symm
        constructor
        · rintro ⟨f, h1, h2⟩
          exact Or.inr (Or.inl ⟨_, f, hsplit, h1, h2⟩)
        · rintro (⟨t, c, h, -, -⟩ | ⟨t, f, h, h3, h4⟩ | ⟨i, h3, -⟩)
          · rw [List.cons.injEq] at h
            exact absurd h.1 hch
          · rw [h, List.dropLast_concat]
            exact ⟨f, h3, h4⟩
          · exact absurd hl (hnm i h3).2
      · rw [if_neg hl]
        obtain ⟨r, h1, h2⟩ := parseName_spec (F := F) (ch :: rest)
        refine ⟨r, h1, fun css => ?_⟩
        rw [h2]
        constructor
        · rintro ⟨i, h3, h4⟩
          exact Or.inr (Or.inr ⟨i, h4, h3⟩)
        · rintro (⟨t, c, h, -⟩ | ⟨t, f, h, -⟩ | ⟨i, h3, h4⟩)
          · rw [List.cons.injEq] at h
            exact absurd h.1 hch
          · rw [h] at hl
            simp at hl
          · exact ⟨i, h4, h3⟩

theorem parse_of {e : Env F} (he : e.Ok) {s : Str} {css : Css F}
    (h : (∃ t c, s = '#' :: t ∧ HexNotation t c.quad ∧ css = .hex c) ∨
      (∃ t f, s = t ++ [')'] ∧ FuncNotation e.num e.one t f ∧ css = ofFunc f) ∨
      (∃ i, (named.map Named.name)[i]? = some s ∧ css = .name i)) : parse e s = some (some css) := by
  obtain ⟨r, h1, h2⟩ := parse_spec he s
  rw [h1, (h2 css).mpr h]

/-- Numbers are formatted as text that can be parsed. -/
structure TextOk (e : Env F) : Prop where
  num : ∀ x, e.num (e.text x) = some x
  comma : ∀ x, ',' ∉ e.text x
  percent : ∀ x, '%' ∉ e.text x
  space : ∀ x, (e.text x).head? ≠ some ' '

theorem TextOk.arg {e : Env F} (ht : TextOk e) (first : Bool) (x : F) : Arg e.num first (e.text x) x false :=
  .plain (ht.num x) (ht.comma x) (ht.percent x) (fun _ => ht.space x)

theorem TextOk.argP {e : Env F} (ht : TextOk e) (first : Bool) (x : F) : Arg e.num first (e.text x ++ ['%']) x true :=
  .percent (ht.num x) (ht.comma x) (ht.percent x) (fun _ => ht.space x)

theorem sep_one : IsSep ", ".toList := ⟨1, rfl⟩

/-- What is left of a color after formatting: an alpha component that is greater than one becomes equal to one. -/
def clampAlpha (e : Env F) : Css F → Css F
  | .hex c => .hex c
  | .name i => .name i
  | .rgb r g b a => .rgb r g b (if e.geOne a then e.one else a)
  | .rgbP r g b a => .rgbP r g b (if e.geOne a then e.one else a)
  | .hsl h s l a => .hsl h s l (if e.geOne a then e.one else a)

/-- The components of hex colors are valid, and the names exist. -/
def Css.Valid : Css F → Prop
  | .hex c => c.Valid
  | .name i => i < named.length
  | _ => True

theorem args3_text {e : Env F} (ht : TextOk e) (x y z : F) :
    Args3 e.num (e.text x ++ ", ".toList ++ e.text y ++ ", ".toList ++ e.text z) (x, false) (y, false) (z, false) :=
  ⟨_, _, _, _, _, rfl, sep_one, sep_one, ht.arg _ x, ht.arg _ y, ht.arg _ z⟩

theorem args3_textP {e : Env F} (ht : TextOk e) (x y z : F) :
    Args3 e.num ((e.text x ++ ['%']) ++ ", ".toList ++ (e.text y ++ ['%']) ++ ", ".toList ++ (e.text z ++ ['%']))
      (x, true) (y, true) (z, true) :=
  ⟨_, _, _, _, _, rfl, sep_one, sep_one, ht.argP _ x, ht.argP _ y, ht.argP _ z⟩

theorem args3_textH {e : Env F} (ht : TextOk e) (x y z : F) :
    Args3 e.num (e.text x ++ ", ".toList ++ (e.text y ++ ['%']) ++ ", ".toList ++ (e.text z ++ ['%']))
      (x, false) (y, true) (z, true) :=
  ⟨_, _, _, _, _, rfl, sep_one, sep_one, ht.arg _ x, ht.argP _ y, ht.argP _ z⟩

theorem round_trip {e : Env F} (he : e.Ok) (ht : TextOk e) (css : Css F) (hv : css.Valid) (disableShort : Bool) :
    ∃ s, format e css disableShort = .ok s ∧ parse e s = some (some (clampAlpha e css)) := by
  have h4 : ∀ (s0 : Str) (a : F) (x y z : F × Bool), Args3 e.num s0 x y z →
      Args4 e.num (s0 ++ ", ".toList ++ e.text a) x y z (a, false) :=
    fun s0 a x y z h => ⟨s0, _, _, rfl, h, sep_one, ht.arg _ a⟩
  cases css with
  | hex c =>
    obtain ⟨t, h1, h2⟩ := hexText_notation hv disableShort
    exact ⟨_, formatHex_spec he hv disableShort, parse_of he (Or.inl ⟨t, c, h1, h2, rfl⟩)⟩
  | name i =>
    obtain ⟨s, hs⟩ := name_exists hv
    exact ⟨s, formatName_of hs, parse_of he (Or.inr (Or.inr ⟨i, hs, rfl⟩))⟩
  | rgb r g b a =>
    refine ⟨_, rfl, parse_of he (Or.inr (Or.inl ?_))⟩
    simp only [formatRgb, clampAlpha]
    by_cases ha : e.geOne a = true
    · rw [if_pos ha, if_pos ha]
      exact ⟨_, .rgb r g b e.one, by simp, .rgb (args3_text ht r g b), rfl⟩
    · rw [if_neg ha, if_neg ha]
      exact ⟨_, .rgb r g b a, by simp, .rgba (h4 _ a _ _ _ (args3_text ht r g b)), rfl⟩
  | rgbP r g b a =>
    refine ⟨_, rfl, parse_of he (Or.inr (Or.inl ?_))⟩
    simp only [formatRgb, clampAlpha]
    by_cases ha : e.geOne a = true
    · rw [if_pos ha, if_pos ha]
      exact ⟨_, .rgbPercent r g b e.one, by simp, .rgbP (args3_textP ht r g b), rfl⟩
    · rw [if_neg ha, if_neg ha]
      exact ⟨_, .rgbPercent r g b a, by simp, .rgbaP (h4 _ a _ _ _ (args3_textP ht r g b)), rfl⟩
  | hsl h s l a =>
    refine ⟨_, rfl, parse_of he (Or.inr (Or.inl ?_))⟩
    simp only [formatHsl, clampAlpha]
    by_cases ha : e.geOne a = true
    · rw [if_pos ha, if_pos ha]
      exact ⟨_, .hsl h s l e.one, by simp, .hsl (args3_textH ht h s l), rfl⟩
    · rw [if_neg ha, if_neg ha]
      exact ⟨_, .hsl h s l a, by simp, .hsla (h4 _ a _ _ _ (args3_textH ht h s l)), rfl⟩

/-! ### Colors -/

theorem hexPair_ascii : ∀ v < 256, ∀ ch ∈ hexPair v, ch.toNat < 128 := by
  intro v hv ch hch
  rw [hexPair_eq hv] at hch
  have key : ∀ d < 16, (hexChar d).toNat < 128 := by decide +kernel
  simp only [List.mem_cons, List.not_mem_nil, or_false] at hch
  rcases hch with rfl | rfl
  · exact key _ (by omega)
  · exact key _ (by omega)

theorem output_name {C : Type} {e : Env F} {widen : Char → C} {c : Color} {i : Nat} {s : Str}
    (h : findByValue c = some (some i)) (hs : formatName i = .ok s) : output e widen c = .ok (s.map widen) := by
  rw [output, h]
  simp only [outputFound, format, hs]
  rfl

theorem output_hex {C : Type} {e : Env F} {widen : Char → C} {c : Color} {s : Str}
    (h : findByValue c = some none) (hs : formatHex e c true false = .ok s) : output e widen c = .ok (s.map widen) := by
  rw [output, h]
  simp only [outputFound, format, hs]
  rfl

/-- The text that is written for a color. -/
theorem output_spec {C : Type} {e : Env F} (he : e.Ok) (widen : Char → C) {c : Color} (hc : c.Valid) :
    ∃ s, output e widen c = .ok (s.map widen) ∧ (∀ ch ∈ s, ch.toNat < 128) ∧
      (∀ i : Nat, (named.map Named.color)[i]? = some c → (∀ j < i, (named.map Named.color)[j]? ≠ some c) →
        (named.map Named.name)[i]? = some s) ∧
      (c ∉ named.map Named.color →
        s = '#' :: (hexPair c.r ++ hexPair c.g ++ hexPair c.b ++ if c.a = 255 then [] else hexPair c.a)) ∧
      ∃ css, parse e s = some (some css) ∧ ∀ toHex, getAsHex toHex css = some c := by
  obtain ⟨r, h1, h2⟩ := findByValue_spec hc
  cases r with
  | none =>
    have hnot : c ∉ named.map Named.color := by
      intro hmem
      obtain ⟨i, hi⟩ := List.mem_iff_getElem?.mp hmem
      have hex : ∃ i : Nat, (named.map Named.color)[i]? = some c := ⟨i, hi⟩
      have := (h2 (Nat.find hex)).mpr ⟨Nat.find_spec hex, fun j hj => Nat.find_min hex hj⟩
      cases this
    refine ⟨hexText c true, ?_, ?_, ?_, ?_, ?_⟩
    · exact output_hex h1 (formatHex_spec he hc true)
    · intro ch hch
      obtain ⟨k1, k2, k3, k4⟩ := hc
      simp only [hexText, Bool.true_eq_false, false_and, if_false, List.mem_cons, List.mem_append] at hch
      rcases hch with rfl | ((h | h) | h) | h
      · decide
      · exact hexPair_ascii _ (by omega) _ h
      · exact hexPair_ascii _ (by omega) _ h
      · exact hexPair_ascii _ (by omega) _ h
      · split at h
        · simp at h
        · exact hexPair_ascii _ (by omega) _ h
    · intro i hi _
      exact absurd (List.mem_of_getElem? hi) hnot
    · intro _
      simp [hexText]
    · obtain ⟨t, h3, h4⟩ := hexText_notation hc true
      exact ⟨.hex c, parse_of he (Or.inl ⟨t, c, h3, h4, rfl⟩), fun _ => rfl⟩
  | some i =>
    obtain ⟨h3, h4⟩ := (h2 i).mp rfl
    have hi : i < named.length := by
      obtain ⟨h, -⟩ := List.getElem?_eq_some_iff.mp h3
      rwa [List.length_map] at h
    obtain ⟨s, hnm⟩ := name_exists hi
    refine ⟨s, ?_, ?_, ?_, ?_, ?_⟩
    · exact output_name h1 (formatName_of hnm)
    · exact (names_plain _ (List.mem_of_getElem? hnm)).2.2
    · intro j hj hmin
      have : some i = some j := (h2 j).mpr ⟨hj, hmin⟩
      rw [Option.some.injEq] at this
      rw [← this]
      exact hnm
    · intro hnot
      exact absurd (List.mem_of_getElem? h3) hnot
    · refine ⟨.name i, parse_of he (Or.inr (Or.inr ⟨i, hnm, rfl⟩)), fun _ => ?_⟩
      exact getNamedColor_of h3

theorem output_parse {C : Type} {e : Env F} (he : e.Ok) (toHex : Css F → Color) (widen : Char → C) (narrow : C → Char)
    (hw : ∀ ch, ch.toNat < 128 → narrow (widen ch) = ch) {c : Color} (hc : c.Valid) :
    ∃ s, output e widen c = .ok s ∧ parseValue e toHex narrow s = some (some c) := by
  obtain ⟨s, h1, h2, -, -, css, h3, h4⟩ := output_spec he widen hc
  refine ⟨_, h1, ?_⟩
  unfold parseValue
  have : (s.map widen).map narrow = s := by
    rw [List.map_map]
    conv_rhs => rw [← List.map_id s]
    exact List.map_congr_left fun ch hch => hw ch (h2 ch hch)
  rw [this, h3]
  simp only [h4]

end Verif.CssColor
