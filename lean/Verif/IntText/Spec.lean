import Verif.Integer.Spec
import Mathlib.Data.Nat.Digits.Defs
/-
Specification of numerals, independent of the model: strings are lists of character codes.
-/
namespace Verif.IntText.Spec

/-- The digits: position in one of these tables is the value of the digit. -/
def upper : List Char := "0123456789ABCDEFGHIJKLMNOPQRSTUVWXYZ".toList
def lower : List Char := "0123456789abcdefghijklmnopqrstuvwxyz".toList

/-- The character with code `c` is a digit with value `v`. -/
def IsDigit (radix : Nat) (c v : Nat) : Prop :=
  v < radix ∧ (upper.map Char.toNat)[v]? = some c ∨ v < radix ∧ (lower.map Char.toNat)[v]? = some c

/-- A sign that is permitted, and whether it means negation. -/
inductive SignPart (plus minus : Bool) : List Nat → Bool → Prop
  | none : SignPart plus minus [] false
  | plus : plus = true → SignPart plus minus ['+'.toNat] false
  | minus : minus = true → SignPart plus minus ['-'.toNat] true

/-- The string is a numeral that denotes the number `v`: an optional sign followed by one or more digits. -/
def Denotes (radix : Nat) (plus minus : Bool) (s : List Nat) (v : Int) : Prop :=
  ∃ sign neg cs ds, s = sign ++ cs ∧ SignPart plus minus sign neg ∧ cs ≠ [] ∧ List.Forall₂ (IsDigit radix) cs ds ∧
    v = (if neg then -1 else 1) * (Nat.ofDigits radix ds.reverse : Nat)

/-- The digits of a number, most significant first, padded with zeros to the minimum length. -/
def digits (radix n minLen : Nat) : List Nat :=
  List.replicate (minLen - (Nat.digits radix n).length) 0 ++ (Nat.digits radix n).reverse

/-- The character of a digit. -/
def digitChar (lowercase : Bool) (d : Nat) : Nat := (((if lowercase then lower else upper)[d]?).getD ' ').toNat

/-- The numeral of a number. -/
def numeral (lowercase : Bool) (radix minLen : Nat) (v : Int) : List Nat :=
  (if v < 0 then ['-'.toNat] else []) ++ (digits radix v.natAbs minLen).map (digitChar lowercase)

end Verif.IntText.Spec
