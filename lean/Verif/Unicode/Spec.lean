/-
Specification of UTF-8 and UTF-16, independent of the code (RFC 3629, RFC 2781), with the notion of a valid code
point of /repo/src/archon/core/unicode.hpp (documentation of `encode_utf8_incr()`).
-/
namespace Verif.Unicode.Spec

/-- Valid code points: U+0000 to U+10FFFF, but not surrogates, and not U+FFFE and U+FFFF. -/
def Valid (v : Nat) : Prop :=
  v ≤ 0x10FFFF ∧ ¬ (0xD800 ≤ v ∧ v ≤ 0xDFFF) ∧ v ≠ 0xFFFE ∧ v ≠ 0xFFFF

instance (v : Nat) : Decidable (Valid v) := by unfold Valid; infer_instance

/-- `bs` is the UTF-8 form of the code point `v`. The payload bits (`a`, `b`, `c`, `d`, most significant first) are
stored after a fixed prefix in each byte, in the smallest number of bytes. -/
inductive Utf8Char : Nat → List Nat → Prop
  | one (a : Nat) : a < 2 ^ 7 → Utf8Char a [a]
  | two (a b : Nat) : a < 2 ^ 5 → b < 2 ^ 6 → 2 ^ 7 ≤ a * 2 ^ 6 + b →
      Utf8Char (a * 2 ^ 6 + b) [0b11000000 + a, 0b10000000 + b]
  | three (a b c : Nat) : a < 2 ^ 4 → b < 2 ^ 6 → c < 2 ^ 6 → 2 ^ 11 ≤ a * 2 ^ 12 + b * 2 ^ 6 + c →
      Utf8Char (a * 2 ^ 12 + b * 2 ^ 6 + c) [0b11100000 + a, 0b10000000 + b, 0b10000000 + c]
  | four (a b c d : Nat) : a < 2 ^ 3 → b < 2 ^ 6 → c < 2 ^ 6 → d < 2 ^ 6 →
      2 ^ 16 ≤ a * 2 ^ 18 + b * 2 ^ 12 + c * 2 ^ 6 + d →
      Utf8Char (a * 2 ^ 18 + b * 2 ^ 12 + c * 2 ^ 6 + d)
        [0b11110000 + a, 0b10000000 + b, 0b10000000 + c, 0b10000000 + d]

/-- `us` is the UTF-16 form of the code point `v`. -/
inductive Utf16Char : Nat → List Nat → Prop
  | one (a : Nat) : a < 2 ^ 16 → Utf16Char a [a]
  | two (a b : Nat) : a < 2 ^ 10 → b < 2 ^ 10 →
      Utf16Char (2 ^ 16 + a * 2 ^ 10 + b) [0xD800 + a, 0xDC00 + b]

/-- `us` is the concatenation of the forms of the characters `vs`, all of which satisfy `P`. -/
inductive Text (form : Nat → List Nat → Prop) (P : Nat → Prop) : List Nat → List Nat → Prop
  | nil : Text form P [] []
  | cons {v : Nat} {us : List Nat} {vs ts : List Nat} :
      P v → form v us → Text form P vs ts → Text form P (v :: vs) (us ++ ts)

/-- Well-formed UTF-8 text with the code points `vs`. -/
abbrev Utf8 := Text Utf8Char Valid
/-- Well-formed UTF-16 text with the code points `vs`. -/
abbrev Utf16 := Text Utf16Char Valid
/-- Valid code points that fit a 16-bit character type. -/
def ValidBmp (v : Nat) : Prop := Valid v ∧ v < 2 ^ 16

/-- No character starts at the beginning of `ts`. -/
def NoChar (form : Nat → List Nat → Prop) (P : Nat → Prop) (ts : List Nat) : Prop :=
  ∀ v us more, P v → form v us → ts ≠ us ++ more

/-- `os` is a reading of a text that may have ill-formed parts: its characters in order, and `none` for each ill-formed
part. No character starts inside an ill-formed part. -/
inductive Lenient (form : Nat → List Nat → Prop) (P : Nat → Prop) : List Nat → List (Option Nat) → Prop
  | nil : Lenient form P [] []
  | char {v us ts os} : P v → form v us → Lenient form P ts os → Lenient form P (us ++ ts) (some v :: os)
  | bad {junk ts os} : junk ≠ [] → (∀ i < junk.length, NoChar form P ((junk ++ ts).drop i)) →
      Lenient form P ts os → Lenient form P (junk ++ ts) (none :: os)

/-- The output that a lenient conversion ought to have for a reading of the input: the form `e v` of each character,
and a replacement for each ill-formed part. -/
def lenientOutput (e : Nat → List Nat) (replacement : List Nat) (os : List (Option Nat)) : List Nat :=
  os.flatMap fun o => match o with
    | some v => e v
    | none => replacement

/-- Well-formed byte sequences of UTF-8 as in Table 3-7 of the Unicode Standard. -/
inductive Table37 : List Nat → Prop
  | r1 (a : Nat) : a ≤ 0x7F → Table37 [a]
  | r2 (a b : Nat) : 0xC2 ≤ a → a ≤ 0xDF → 0x80 ≤ b → b ≤ 0xBF → Table37 [a, b]
  | r3 (b c : Nat) : 0xA0 ≤ b → b ≤ 0xBF → 0x80 ≤ c → c ≤ 0xBF → Table37 [0xE0, b, c]
  | r4 (a b c : Nat) : 0xE1 ≤ a → a ≤ 0xEC → 0x80 ≤ b → b ≤ 0xBF → 0x80 ≤ c → c ≤ 0xBF → Table37 [a, b, c]
  | r5 (b c : Nat) : 0x80 ≤ b → b ≤ 0x9F → 0x80 ≤ c → c ≤ 0xBF → Table37 [0xED, b, c]
  | r6 (a b c : Nat) : 0xEE ≤ a → a ≤ 0xEF → 0x80 ≤ b → b ≤ 0xBF → 0x80 ≤ c → c ≤ 0xBF → Table37 [a, b, c]
  | r7 (b c d : Nat) : 0x90 ≤ b → b ≤ 0xBF → 0x80 ≤ c → c ≤ 0xBF → 0x80 ≤ d → d ≤ 0xBF → Table37 [0xF0, b, c, d]
  | r8 (a b c d : Nat) : 0xF1 ≤ a → a ≤ 0xF3 → 0x80 ≤ b → b ≤ 0xBF → 0x80 ≤ c → c ≤ 0xBF → 0x80 ≤ d → d ≤ 0xBF →
      Table37 [a, b, c, d]
  | r9 (b c d : Nat) : 0x80 ≤ b → b ≤ 0x8F → 0x80 ≤ c → c ≤ 0xBF → 0x80 ≤ d → d ≤ 0xBF → Table37 [0xF4, b, c, d]

end Verif.Unicode.Spec
