import Verif.CssColor.Lookup
import Verif.IntText.Props

/-!
# Formatting and parsing of the forms
-/

namespace Verif.CssColor

open Spec
open IntText.Spec (digits digitChar numeral)

variable {F : Type}

/-- The platform can represent the numbers and the text that are involved, and an empty string is not a number. -/
structure Env.Ok (e : Env F) : Prop where
  hI : 7 ≤ e.I
  hW : 32 ≤ e.W
  hWI : e.W + 1 < 2 ^ e.I
  hM : e.W + 2 ≤ e.M
  hmem : e.mem.length ≤ e.M
  hnum : e.num [] = none

/-! ### Digits -/

theorem digits_snoc (x y n : Nat) (hy : y < 16) : digits 16 (x * 16 + y) (n + 1) = digits 16 x n ++ [y] := by
  unfold digits
  by_cases h : x * 16 + y = 0
  · have hx : x = 0 := by omega
    have hy : y = 0 := by omega
    subst hx hy
    simp [List.replicate_succ']
  · rw [Nat.digits_def' (by decide) (by omega), show (x * 16 + y) % 16 = y by omega,
      show (x * 16 + y) / 16 = x by omega]
    simp [List.append_assoc]

theorem digits_byte (x y n : Nat) (hy : y < 256) : digits 16 (x * 256 + y) (n + 2) = digits 16 x n ++ digits 16 y 2 := by
  have e1 : x * 256 + y = (x * 16 + y / 16) * 16 + y % 16 := by omega
  have e2 : y = (0 * 16 + y / 16) * 16 + y % 16 := by omega
  rw [e1, digits_snoc _ _ _ (by omega), digits_snoc _ _ _ (by omega)]
  conv_rhs => rw [e2]
  rw [digits_snoc _ _ _ (by omega), digits_snoc _ _ _ (by omega)]
  simp [digits]

/-- The character of a hexadecimal digit. -/
def hexChar (d : Nat) : Char := Char.ofNat (digitChar false d)

theorem hexPair_eq {v : Nat} (hv : v < 256) : hexPair v = [hexChar (v / 16), hexChar (v % 16)] := by
  have e2 : v = (0 * 16 + v / 16) * 16 + v % 16 := by omega
  unfold hexPair
  conv_lhs => rw [e2]
  rw [digits_snoc _ _ _ (by omega), digits_snoc _ _ _ (by omega)]
  simp [digits, hexChar]

theorem digits_one {v : Nat} (hv : v < 16) : digits 16 v 1 = [v] := by
  have := digits_snoc 0 v 0 hv
  simpa [digits] using this

theorem numeral_nat' (n k : Nat) : numeral false 16 k (n : Int) = (digits 16 n k).map (digitChar false) := by
  unfold numeral
  rw [if_neg (by omega)]
  simp

theorem format_value {e : Env F} (he : e.Ok) (v n : Nat) (hv : v < 2 ^ 32) (hn : n ≤ 8) :
    ∃ mem', IntText.format e.I ⟨false, e.W⟩ e.M ' ' Char.ofNat false 16 n v e.mem =
      .ok (mem', (digits 16 v n).map hexChar) := by
  have hI2 : (128 : Int) ≤ 2 ^ e.I := Integer.p_le (a := 7) he.hI
  have hW := he.hW
  have hM := he.hM
  obtain ⟨n', mem', h1, -, -, h3⟩ := IntText.C26_format e.I he.hI ⟨false, e.W⟩ e.M ' ' Char.ofNat false 16
    (by decide) (by decide) n (by omega) v (by
      rw [Integer.fits_iff, Integer.In_u]
      have : (2 ^ 32 : Nat) ≤ 2 ^ e.W := Nat.pow_le_pow_right (by decide) he.hW
      have e1 : ((2 ^ e.W : Nat) : Int) = 2 ^ e.W := by push_cast; rfl
      constructor <;> omega) e.mem he.hmem he.hWI (by
      simp only [Int.toNat_natCast]; omega)
  have : n' = n := by have := h1 (by omega); omega
  subst this
  refine ⟨mem', ?_⟩
  rw [show (16 : Int) = ((16 : Nat) : Int) from rfl, h3, numeral_nat', List.map_map]
  rfl

theorem low_mask (v : Nat) : v &&& 0x0F = v % 16 := Nat.and_two_pow_sub_one_eq_mod v 4

theorem pack4' {r g b a : Nat} (hg : g < 16) (hb : b < 16) (ha : a < 16) :
    (r <<< 12) ||| (g <<< 8) ||| (b <<< 4) ||| (a <<< 0) = r * 4096 + g * 256 + b * 16 + a := by
  simp only [Nat.shiftLeft_eq]
  have h1 : r * 2 ^ 12 ||| g * 2 ^ 8 = r * 2 ^ 12 + g * 2 ^ 8 := or_eq_add r 12 rfl (by omega)
  have h2 : r * 2 ^ 12 + g * 2 ^ 8 ||| b * 2 ^ 4 = r * 2 ^ 12 + g * 2 ^ 8 + b * 2 ^ 4 :=
    or_eq_add (r * 16 + g) 8 (by omega) (by omega)
  have h3 : r * 2 ^ 12 + g * 2 ^ 8 + b * 2 ^ 4 ||| a * 2 ^ 0 = r * 2 ^ 12 + g * 2 ^ 8 + b * 2 ^ 4 + a * 2 ^ 0 :=
    or_eq_add (r * 256 + g * 16 + b) 4 (by omega) (by omega)
  rw [h1, h2, h3]
  omega

theorem pack3' {r g b : Nat} (hg : g < 16) (hb : b < 16) :
    (r <<< 8) ||| (g <<< 4) ||| (b <<< 0) = r * 256 + g * 16 + b := by
  simp only [Nat.shiftLeft_eq]
  have h1 : r * 2 ^ 8 ||| g * 2 ^ 4 = r * 2 ^ 8 + g * 2 ^ 4 := or_eq_add r 8 rfl (by omega)
  have h2 : r * 2 ^ 8 + g * 2 ^ 4 ||| b * 2 ^ 0 = r * 2 ^ 8 + g * 2 ^ 4 + b * 2 ^ 0 :=
    or_eq_add (r * 16 + g) 4 (by omega) (by omega)
  rw [h1, h2]
  omega

theorem pack3 {r g b : Nat} (hg : g < 256) (hb : b < 256) :
    (r <<< 16) ||| (g <<< 8) ||| (b <<< 0) = r * 65536 + g * 256 + b := by
  simp only [Nat.shiftLeft_eq]
  have h1 : r * 2 ^ 16 ||| g * 2 ^ 8 = r * 2 ^ 16 + g * 2 ^ 8 := or_eq_add r 16 rfl (by omega)
  have h2 : r * 2 ^ 16 + g * 2 ^ 8 ||| b * 2 ^ 0 = r * 2 ^ 16 + g * 2 ^ 8 + b * 2 ^ 0 :=
    or_eq_add (r * 256 + g) 8 (by omega) (by omega)
  rw [h1, h2]
  omega

/-- Both digits of each of the components are equal. -/
def Collapsible (c : Color) : Prop := c.r / 16 = c.r % 16 ∧ c.g / 16 = c.g % 16 ∧ c.b / 16 = c.b % 16 ∧ c.a / 16 = c.a % 16

instance (c : Color) : Decidable (Collapsible c) := by unfold Collapsible; infer_instance

/-- The text of the hex form. -/
def hexText (c : Color) (disableShort : Bool) : Str :=
  if disableShort = false ∧ Collapsible c then
    '#' :: hexChar (c.r % 16) :: hexChar (c.g % 16) :: hexChar (c.b % 16) ::
      (if c.a = 255 then [] else [hexChar (c.a % 16)])
  else '#' :: (hexPair c.r ++ hexPair c.g ++ hexPair c.b ++ (if c.a = 255 then [] else hexPair c.a))

theorem digits_zero_zero : digits 16 0 0 = [] := by decide

theorem formatHex_spec {e : Env F} (he : e.Ok) {c : Color} (hc : c.Valid) (disableShort : Bool) :
    formatHex e c disableShort false = .ok (hexText c disableShort) := by
  obtain ⟨h1, h2, h3, h4⟩ := hc
  have hsh : ∀ v : Nat, v >>> 4 = v / 16 := fun v => Nat.shiftRight_eq_div_pow v 4
  unfold formatHex
  simp only [low_mask, hsh]
  have hcoll : (!disableShort && decide (c.r / 16 = c.r % 16) && decide (c.g / 16 = c.g % 16) &&
      decide (c.b / 16 = c.b % 16) && decide (c.a / 16 = c.a % 16)) =
      decide (disableShort = false ∧ Collapsible c) := by
    unfold Collapsible
    cases disableShort <;> simp [Bool.and_assoc]
  rw [hcoll]
  have hop : decide (c.a ≥ 255) = decide (c.a = 255) := by
    congr 1
    apply propext
    omega
  rw [hop]
  unfold hexText
  by_cases hs : disableShort = false ∧ Collapsible c
  · rw [if_pos hs, if_pos (by simpa using hs)]
    by_cases ha : c.a = 255
    · rw [if_pos ha, if_pos (by simp [ha])]
      rw [pack3' (by omega) (by omega)]
      obtain ⟨mem', hf⟩ := format_value he (c.r % 16 * 256 + c.g % 16 * 16 + c.b % 16) 3 (by omega) (by omega)
      simp only
      rw [show ((3 : Nat) : Int) = 3 from rfl] at hf
      rw [hf]
      have : digits 16 (c.r % 16 * 256 + c.g % 16 * 16 + c.b % 16) 3 = [c.r % 16, c.g % 16, c.b % 16] := by
        rw [show c.r % 16 * 256 + c.g % 16 * 16 + c.b % 16 = ((0 * 16 + c.r % 16) * 16 + c.g % 16) * 16 + c.b % 16 by omega,
          digits_snoc _ _ 2 (by omega), digits_snoc _ _ 1 (by omega), digits_snoc _ _ 0 (by omega), digits_zero_zero]
        rfl
      rw [this]
      rfl
    · rw [if_neg ha, if_neg (by simp [ha])]
      rw [pack4' (by omega) (by omega) (by omega)]
      obtain ⟨mem', hf⟩ := format_value he (c.r % 16 * 4096 + c.g % 16 * 256 + c.b % 16 * 16 + c.a % 16) 4 (by omega)
        (by omega)
      simp only
      rw [show ((4 : Nat) : Int) = 4 from rfl] at hf
      rw [hf]
      have : digits 16 (c.r % 16 * 4096 + c.g % 16 * 256 + c.b % 16 * 16 + c.a % 16) 4 =
          [c.r % 16, c.g % 16, c.b % 16, c.a % 16] := by
        rw [show c.r % 16 * 4096 + c.g % 16 * 256 + c.b % 16 * 16 + c.a % 16 =
          (((0 * 16 + c.r % 16) * 16 + c.g % 16) * 16 + c.b % 16) * 16 + c.a % 16 by omega,
          digits_snoc _ _ 3 (by omega), digits_snoc _ _ 2 (by omega), digits_snoc _ _ 1 (by omega),
          digits_snoc _ _ 0 (by omega), digits_zero_zero]
        rfl
      rw [this]
      rfl
  · rw [if_neg hs, if_neg (by simpa using hs)]
    have hp : ∀ v, hexPair v = (digits 16 v 2).map hexChar := fun _ => rfl
    by_cases ha : c.a = 255
    · rw [if_pos ha, if_pos (by simp [ha])]
      rw [pack3 (by omega) (by omega)]
      obtain ⟨mem', hf⟩ := format_value he (c.r * 65536 + c.g * 256 + c.b) 6 (by omega) (by omega)
      simp only
      rw [show ((6 : Nat) : Int) = 6 from rfl] at hf
      rw [hf]
      have : digits 16 (c.r * 65536 + c.g * 256 + c.b) 6 = digits 16 c.r 2 ++ digits 16 c.g 2 ++ digits 16 c.b 2 := by
        rw [show c.r * 65536 + c.g * 256 + c.b = (c.r * 256 + c.g) * 256 + c.b by omega,
          digits_byte _ _ 4 (by omega), digits_byte _ _ 2 (by omega)]
      rw [this, hp, hp, hp, List.append_nil, List.map_append, List.map_append]
      rfl
    · rw [if_neg ha, if_neg (by simp [ha])]
      rw [pack4 (by omega) (by omega) (by omega)]
      obtain ⟨mem', hf⟩ := format_value he (c.r * 16777216 + c.g * 65536 + c.b * 256 + c.a) 8 (by omega) (by omega)
      simp only
      rw [show ((8 : Nat) : Int) = 8 from rfl] at hf
      rw [hf]
      have : digits 16 (c.r * 16777216 + c.g * 65536 + c.b * 256 + c.a) 8 =
          digits 16 c.r 2 ++ digits 16 c.g 2 ++ digits 16 c.b 2 ++ digits 16 c.a 2 := by
        rw [show c.r * 16777216 + c.g * 65536 + c.b * 256 + c.a = ((c.r * 256 + c.g) * 256 + c.b) * 256 + c.a by omega,
          digits_byte _ _ 6 (by omega), digits_byte _ _ 4 (by omega), digits_byte _ _ 2 (by omega)]
      rw [this, hp, hp, hp, hp, List.map_append, List.map_append, List.map_append]
      rfl

/-! ### Parsing of the hex form -/

theorem hexDigit_lt {c : Char} {v : Nat} (h : IsHexDigit c v) : v < 16 := by
  rcases h with h | h <;> exact h.1

theorem hexDigit_hexChar {v : Nat} (hv : v < 16) : IsHexDigit (hexChar v) v := by
  have : ∀ v < 16, v < 16 ∧ (IntText.Spec.upper.map Char.toNat)[v]? = some (hexChar v).toNat := by decide +kernel
  exact Or.inl (this v hv)

theorem hexDigit_F {v : Nat} : IsHexDigit 'F' v ↔ v = 15 := by
  constructor
  · intro h
    have hv := hexDigit_lt h
    have : ∀ v < 16, (v < 16 ∧ (IntText.Spec.upper.map Char.toNat)[v]? = some ('F').toNat ∨
        v < 16 ∧ (IntText.Spec.lower.map Char.toNat)[v]? = some ('F').toNat) → v = 15 := by decide +kernel
    exact this v hv h
  · rintro rfl
    exact hexDigit_hexChar (by decide)

theorem parse8 {e : Env F} (he : e.Ok) (cs : Str) (h8 : cs.length = 8) :
    (∃ ds, List.Forall₂ IsHexDigit cs ds ∧ IntText.parse e.I ⟨false, e.W⟩ Char.toNat 16 .reject cs 0 =
      some (true, ((Nat.ofDigits 16 ds.reverse : Nat) : Int))) ∨
    ((¬ ∃ ds, List.Forall₂ IsHexDigit cs ds) ∧
      IntText.parse e.I ⟨false, e.W⟩ Char.toNat 16 .reject cs 0 = some (false, 0)) := by
  obtain ⟨h1, h2⟩ := IntText.C25_parse e.I he.hI ⟨false, e.W⟩ Char.toNat 16 (by decide) (by decide) .reject cs 0
  have hmap : ∀ ds, List.Forall₂ (IntText.Spec.IsDigit 16) (cs.map Char.toNat) ds ↔ List.Forall₂ IsHexDigit cs ds := by
    intro ds
    rw [List.forall₂_map_left_iff]
    rfl
  by_cases hd : ∃ ds, List.Forall₂ IsHexDigit cs ds
  · left
    obtain ⟨ds, hds⟩ := hd
    refine ⟨ds, hds, (h1 _).mpr ⟨?_, ?_⟩⟩
    · refine ⟨[], false, cs.map Char.toNat, ds, rfl, .none, ?_, (hmap ds).mpr hds, by simp⟩
      intro hc
      have := congrArg List.length hc
      rw [List.length_map] at this
      simp at this
      subst this
      simp at h8
    · rw [Integer.fits_iff, Integer.In_u]
      have hlt : Nat.ofDigits 16 ds.reverse < 16 ^ ds.reverse.length := by
        apply Nat.ofDigits_lt_base_pow_length (by decide)
        intro x hx
        rw [List.mem_reverse] at hx
        obtain ⟨i, hi, rfl⟩ := List.getElem_of_mem hx
        exact hexDigit_lt (List.forall₂_iff_get.mp hds |>.2 i (by rw [hds.length_eq]; exact hi) hi)
      have hl : ds.reverse.length = 8 := by rw [List.length_reverse, ← hds.length_eq, h8]
      rw [hl] at hlt
      have : (2 ^ 32 : Nat) ≤ 2 ^ e.W := Nat.pow_le_pow_right (by decide) he.hW
      have e1 : ((2 ^ e.W : Nat) : Int) = 2 ^ e.W := by push_cast; rfl
      constructor
      · positivity
      · have : (16 ^ 8 : Nat) = 2 ^ 32 := by decide
        omega
  · right
    refine ⟨hd, ?_⟩
    rcases h2 with ⟨v, hv⟩ | hf
    · exfalso
      obtain ⟨sign, neg, cs', ds, h3, h4, h5, h6, h7⟩ := ((h1 v).mp hv).1
      cases h4 with
      | none =>
        rw [List.nil_append] at h3
        subst h3
        exact hd ⟨ds, (hmap ds).mp h6⟩
      | plus h => simp [IntText.plusOk] at h
      | minus h => simp [IntText.minusOk] at h
    · exact hf

theorem parse8_explicit {e : Env F} (he : e.Ok) (c1 c2 c3 c4 c5 c6 c7 c8 : Char) :
    (∃ x x' y y' z z' w w', IsHexDigit c1 x ∧ IsHexDigit c2 x' ∧ IsHexDigit c3 y ∧ IsHexDigit c4 y' ∧ IsHexDigit c5 z ∧
      IsHexDigit c6 z' ∧ IsHexDigit c7 w ∧ IsHexDigit c8 w' ∧
      IntText.parse e.I ⟨false, e.W⟩ Char.toNat 16 .reject [c1, c2, c3, c4, c5, c6, c7, c8] 0 =
        some (true, (((16 * x + x') * 16777216 + (16 * y + y') * 65536 + (16 * z + z') * 256 + (16 * w + w') : Nat) : Int))) ∨
    ((¬ ∃ x x' y y' z z' w w', IsHexDigit c1 x ∧ IsHexDigit c2 x' ∧ IsHexDigit c3 y ∧ IsHexDigit c4 y' ∧
      IsHexDigit c5 z ∧ IsHexDigit c6 z' ∧ IsHexDigit c7 w ∧ IsHexDigit c8 w') ∧
      IntText.parse e.I ⟨false, e.W⟩ Char.toNat 16 .reject [c1, c2, c3, c4, c5, c6, c7, c8] 0 = some (false, 0)) := by
  rcases parse8 he [c1, c2, c3, c4, c5, c6, c7, c8] rfl with ⟨ds, h1, h2⟩ | ⟨h1, h2⟩
  · left
    cases h1 with | cons a1 h1 => cases h1 with | cons a2 h1 => cases h1 with | cons a3 h1 => cases h1 with | cons a4 h1 =>
    cases h1 with | cons a5 h1 => cases h1 with | cons a6 h1 => cases h1 with | cons a7 h1 => cases h1 with | cons a8 h1 =>
    cases h1
    refine ⟨_, _, _, _, _, _, _, _, a1, a2, a3, a4, a5, a6, a7, a8, ?_⟩
    rw [h2]
    congr 3
    simp only [List.reverse_cons, List.reverse_nil, List.nil_append, List.cons_append, Nat.ofDigits_cons, Nat.ofDigits_nil]
    ring
  · right
    refine ⟨?_, h2⟩
    rintro ⟨x, x', y, y', z, z', w, w', a1, a2, a3, a4, a5, a6, a7, a8⟩
    exact h1 ⟨[x, x', y, y', z, z', w, w'], by simp [*]⟩

/-- The quadruple of a color. -/
def Color.quad (c : Color) : Rgba := (c.r, c.g, c.b, c.a)

theorem hexDigit_unique {c : Char} {v w : Nat} (hv : IsHexDigit c v) (hw : IsHexDigit c w) : v = w := by
  have h1 : IntText.Spec.Denotes 16 false false [c.toNat] v :=
    ⟨[], false, [c.toNat], [v], rfl, .none, by simp, List.Forall₂.cons hv .nil, by simp⟩
  have h2 : IntText.Spec.Denotes 16 false false [c.toNat] w :=
    ⟨[], false, [c.toNat], [w], rfl, .none, by simp, List.Forall₂.cons hw .nil, by simp⟩
  have := IntText.C25_unique 16 (by decide) false false [c.toNat] v w h1 h2
  omega

theorem unpack (x x' y y' z z' w w' : Nat) (h1 : x < 16) (h2 : x' < 16) (h3 : y < 16) (h4 : y' < 16) (h5 : z < 16)
    (h6 : z' < 16) (h7 : w < 16) (h8 : w' < 16) (v : Nat)
    (hv : v = (16 * x + x') * 16777216 + (16 * y + y') * 65536 + (16 * z + z') * 256 + (16 * w + w')) :
    (v >>> (3 * 8)) &&& 0xFF = 16 * x + x' ∧ (v >>> (2 * 8)) &&& 0xFF = 16 * y + y' ∧
    (v >>> (1 * 8)) &&& 0xFF = 16 * z + z' ∧ (v >>> (0 * 8)) &&& 0xFF = 16 * w + w' := by
  simp only [byte_mask]
  subst hv
  refine ⟨?_, ?_, ?_, ?_⟩ <;> omega

/-- The result for a buffer with eight characters. -/
theorem parseHex_buffer {e : Env F} (he : e.Ok) {s : Str} {c1 c2 c3 c4 c5 c6 c7 c8 : Char}
    (hb : hexBuffer s = some [c1, c2, c3, c4, c5, c6, c7, c8]) :
    ∃ r, parseHex e s = some r ∧ ∀ css, r = some css ↔ ∃ x x' y y' z z' w w', IsHexDigit c1 x ∧ IsHexDigit c2 x' ∧
      IsHexDigit c3 y ∧ IsHexDigit c4 y' ∧ IsHexDigit c5 z ∧ IsHexDigit c6 z' ∧ IsHexDigit c7 w ∧ IsHexDigit c8 w' ∧
      css = .hex ⟨16 * x + x', 16 * y + y', 16 * z + z', 16 * w + w'⟩ := by
  unfold parseHex
  rw [hb]
  simp only
  rcases parse8_explicit he c1 c2 c3 c4 c5 c6 c7 c8 with ⟨x, x', y, y', z, z', w, w', a1, a2, a3, a4, a5, a6, a7, a8, h⟩ | ⟨h1, h2⟩
  · rw [h]
    simp only [Int.toNat_natCast]
    obtain ⟨u1, u2, u3, u4⟩ := unpack x x' y y' z z' w w' (hexDigit_lt a1) (hexDigit_lt a2) (hexDigit_lt a3)
      (hexDigit_lt a4) (hexDigit_lt a5) (hexDigit_lt a6) (hexDigit_lt a7) (hexDigit_lt a8) _ rfl
    rw [u1, u2, u3, u4]
    refine ⟨_, rfl, fun css => ?_⟩
    constructor
    · intro h
      rw [Option.some.injEq] at h
      exact ⟨x, x', y, y', z, z', w, w', a1, a2, a3, a4, a5, a6, a7, a8, h.symm⟩
    · rintro ⟨_, _, _, _, _, _, _, _, b1, b2, b3, b4, b5, b6, b7, b8, rfl⟩
      rw [hexDigit_unique a1 b1, hexDigit_unique a2 b2, hexDigit_unique a3 b3, hexDigit_unique a4 b4,
        hexDigit_unique a5 b5, hexDigit_unique a6 b6, hexDigit_unique a7 b7, hexDigit_unique a8 b8]
  · rw [h2]
    refine ⟨_, rfl, fun css => ?_⟩
    constructor
    · intro h; cases h
    · rintro ⟨x, x', y, y', z, z', w, w', b1, b2, b3, b4, b5, b6, b7, b8, -⟩
      exact absurd ⟨x, x', y, y', z, z', w, w', b1, b2, b3, b4, b5, b6, b7, b8⟩ h1

theorem parseHex_spec {e : Env F} (he : e.Ok) (s : Str) :
    ∃ r, parseHex e s = some r ∧ ∀ css, r = some css ↔ ∃ c : Color, css = .hex c ∧ HexNotation s c.quad := by
  cases hb : hexBuffer s with
  | none =>
    refine ⟨none, by unfold parseHex; rw [hb], fun css => ?_⟩
    constructor
    · intro h; cases h
    · rintro ⟨c, -, h⟩
      generalize c.quad = q at h
      cases h <;> simp [hexBuffer] at hb
  | some buf =>
    unfold hexBuffer at hb
    split at hb
    · rename_i k1 k3 k5
      obtain ⟨r, h1, h2⟩ := parseHex_buffer he (s := [k1, k3, k5]) rfl
      refine ⟨r, h1, fun css => ?_⟩
      rw [h2]
      constructor
      · rintro ⟨x, x', y, y', z, z', w, w', b1, b2, b3, b4, b5, b6, b7, b8, rfl⟩
        rw [hexDigit_F] at b7 b8
        subst b7 b8
        rw [← hexDigit_unique b1 b2, ← hexDigit_unique b3 b4, ← hexDigit_unique b5 b6]
        exact ⟨_, rfl, .short b1 b3 b5⟩
      · rintro ⟨c, rfl, h⟩
        obtain ⟨r, g, b, a⟩ := c
        simp only [Color.quad] at h
        cases h with
        | short b1 b3 b5 =>
          exact ⟨_, _, _, _, _, _, 15, 15, b1, b1, b3, b3, b5, b5, hexDigit_F.mpr rfl, hexDigit_F.mpr rfl, rfl⟩
    · rename_i k1 k3 k5 k7
      obtain ⟨r, h1, h2⟩ := parseHex_buffer he (s := [k1, k3, k5, k7]) rfl
      refine ⟨r, h1, fun css => ?_⟩
      rw [h2]
      constructor
      · rintro ⟨x, x', y, y', z, z', w, w', b1, b2, b3, b4, b5, b6, b7, b8, rfl⟩
        rw [← hexDigit_unique b1 b2, ← hexDigit_unique b3 b4, ← hexDigit_unique b5 b6, ← hexDigit_unique b7 b8]
        exact ⟨_, rfl, .shortAlpha b1 b3 b5 b7⟩
      · rintro ⟨c, rfl, h⟩
        obtain ⟨r, g, b, a⟩ := c
        simp only [Color.quad] at h
        cases h with
        | shortAlpha b1 b3 b5 b7 =>
          exact ⟨_, _, _, _, _, _, _, _, b1, b1, b3, b3, b5, b5, b7, b7, rfl⟩
    · rename_i k1 k2 k3 k4 k5 k6
      obtain ⟨r, h1, h2⟩ := parseHex_buffer he (s := [k1, k2, k3, k4, k5, k6]) rfl
      refine ⟨r, h1, fun css => ?_⟩
      rw [h2]
      constructor
      · rintro ⟨x, x', y, y', z, z', w, w', b1, b2, b3, b4, b5, b6, b7, b8, rfl⟩
        rw [hexDigit_F] at b7 b8
        subst b7 b8
        exact ⟨_, rfl, .long b1 b2 b3 b4 b5 b6⟩
      · rintro ⟨c, rfl, h⟩
        obtain ⟨r, g, b, a⟩ := c
        simp only [Color.quad] at h
        cases h with
        | long b1 b2 b3 b4 b5 b6 =>
          exact ⟨_, _, _, _, _, _, 15, 15, b1, b2, b3, b4, b5, b6, hexDigit_F.mpr rfl, hexDigit_F.mpr rfl, rfl⟩
    · rename_i k1 k2 k3 k4 k5 k6 k7 k8
      obtain ⟨r, h1, h2⟩ := parseHex_buffer he (s := [k1, k2, k3, k4, k5, k6, k7, k8]) rfl
      refine ⟨r, h1, fun css => ?_⟩
      rw [h2]
      constructor
      · rintro ⟨x, x', y, y', z, z', w, w', b1, b2, b3, b4, b5, b6, b7, b8, rfl⟩
        exact ⟨_, rfl, .longAlpha b1 b2 b3 b4 b5 b6 b7 b8⟩
      · rintro ⟨c, rfl, h⟩
        obtain ⟨r, g, b, a⟩ := c
        simp only [Color.quad] at h
        cases h with
        | longAlpha b1 b2 b3 b4 b5 b6 b7 b8 =>
          exact ⟨_, _, _, _, _, _, _, _, b1, b2, b3, b4, b5, b6, b7, b8, rfl⟩
    · cases hb

/-- What the text of the hex form denotes. -/
theorem hexText_notation {c : Color} (hc : c.Valid) (disableShort : Bool) :
    ∃ t, hexText c disableShort = '#' :: t ∧ HexNotation t c.quad := by
  obtain ⟨h1, h2, h3, h4⟩ := hc
  obtain ⟨r, g, b, a⟩ := c
  simp only at h1 h2 h3 h4
  have hd : ∀ v < 256, IsHexDigit (hexChar (v / 16)) (v / 16) ∧ IsHexDigit (hexChar (v % 16)) (v % 16) := by
    intro v hv
    exact ⟨hexDigit_hexChar (by omega), hexDigit_hexChar (by omega)⟩
  have hv : ∀ v, 16 * (v / 16) + v % 16 = v := fun v => by omega
  unfold hexText
  simp only
  split
  · rename_i hs
    obtain ⟨k1, k2, k3, k4⟩ := hs.2
    simp only at k1 k2 k3 k4
    have e1 : ∀ v, v / 16 = v % 16 → 16 * (v % 16) + v % 16 = v := fun v h => by omega
    refine ⟨_, rfl, ?_⟩
    by_cases ha : a = 255
    · rw [if_pos ha]
      have := HexNotation.short (hd r (by omega)).2 (hd g (by omega)).2 (hd b (by omega)).2
      rw [e1 r k1, e1 g k2, e1 b k3] at this
      rw [ha]; exact this
    · rw [if_neg ha]
      have := HexNotation.shortAlpha (hd r (by omega)).2 (hd g (by omega)).2 (hd b (by omega)).2 (hd a (by omega)).2
      rw [e1 r k1, e1 g k2, e1 b k3, e1 a k4] at this
      exact this
  · refine ⟨_, rfl, ?_⟩
    rw [hexPair_eq (show r < 256 by omega), hexPair_eq (show g < 256 by omega), hexPair_eq (show b < 256 by omega)]
    by_cases ha : a = 255
    · rw [if_pos ha]
      have := HexNotation.long (hd r (by omega)).1 (hd r (by omega)).2 (hd g (by omega)).1 (hd g (by omega)).2
        (hd b (by omega)).1 (hd b (by omega)).2
      rw [hv, hv, hv] at this
      rw [ha]; exact this
    · rw [if_neg ha, hexPair_eq (show a < 256 by omega)]
      have := HexNotation.longAlpha (hd r (by omega)).1 (hd r (by omega)).2 (hd g (by omega)).1 (hd g (by omega)).2
        (hd b (by omega)).1 (hd b (by omega)).2 (hd a (by omega)).1 (hd a (by omega)).2
      rw [hv, hv, hv, hv] at this
      exact this

end Verif.CssColor
