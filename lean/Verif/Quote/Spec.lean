import Mathlib.Order.Defs.LinearOrder
/-!
Quoted strings: how a literal is read, and the forms that are documented.
-/
namespace Verif.Quote.Spec

/-! ### Reading of literals according to the rules of C -/

/-- Where in a literal we are: in between characters, after a backslash, in an octal escape sequence with a number of digits seen, after
the beginning of a hexadecimal escape sequence, or among its digits. -/
inductive At where
  | normal
  | backslash
  | octal (count val : Nat)
  | hexStart
  | hex (val : Nat)

/-- The value of an octal digit. -/
def octDigit (c : Nat) : Option Nat := if '0'.toNat ≤ c ∧ c ≤ '7'.toNat then some (c - '0'.toNat) else none

/-- The value of a hexadecimal digit. -/
def hexDigit (c : Nat) : Option Nat :=
  if '0'.toNat ≤ c ∧ c ≤ '9'.toNat then some (c - '0'.toNat)
  else if 'a'.toNat ≤ c ∧ c ≤ 'f'.toNat then some (c - 'a'.toNat + 10)
  else if 'A'.toNat ≤ c ∧ c ≤ 'F'.toNat then some (c - 'A'.toNat + 10)
  else none

/-- Simple escape sequences. -/
def simple (c : Nat) : Option Nat :=
  ([('a', 7), ('b', 8), ('t', 9), ('n', 10), ('v', 11), ('f', 12), ('r', 13), ('"', 34), ('\'', 39), ('\\', 92)].find?
    fun p => p.1.toNat = c).map (·.2)

/-- A character in between characters: what it adds to the string, and where we are then; `none` if the literal ends. -/
def between (quote c : Nat) : List Nat × Option At :=
  if c = quote then ([], none) else if c = '\\'.toNat then ([], some .backslash) else ([c], some .normal)

/-- The next character of a literal. -/
def next (quote : Nat) : At → Nat → Option (List Nat × Option At)
  | .normal, c => some (between quote c)
  | .backslash, c => match simple c with
    | some v => some ([v], some .normal)
    | none => match octDigit c with
      | some d => some ([], some (.octal 1 d))
      | none => if c = 'x'.toNat then some ([], some .hexStart) else none
  | .octal k v, c => match octDigit c with
    | some d => if k < 3 then some ([], some (.octal (k + 1) (8 * v + d))) else some (v :: (between quote c).1, (between quote c).2)
    | none => some (v :: (between quote c).1, (between quote c).2)
  | .hexStart, c => match hexDigit c with
    | some d => some ([], some (.hex d))
    | none => none
  | .hex v, c => match hexDigit c with
    | some d => some ([], some (.hex (16 * v + d)))
    | none => some (v :: (between quote c).1, (between quote c).2)

/-- The rest of a literal. -/
def rest (quote : Nat) : At → List Nat → Option (List Nat)
  | _, [] => none
  | p, c :: cs => match next quote p c with
    | none => none
    | some (text, none) => if cs = [] then some text else none
    | some (text, some p) => (rest quote p cs).map (text ++ ·)

/-- The string that is denoted by a literal. -/
def literal (quote : Nat) : List Nat → Option (List Nat)
  | [] => none
  | c :: cs => if c = quote then rest quote .normal cs else none

/-! ### The documented forms

Here, the string is given as the list of the (escaped) texts of its characters. -/

/-- The quoted form of a string, when the size limit is `max`: everything, if that fits (the limit is at least 5). Otherwise, the
longest prefix that fits when followed by an ellipsis. `n` is the number of characters that it includes. -/
def QuotedForm (quote max : Nat) (texts : List (List Nat)) (n : Nat) (out : List Nat) : Prop :=
  let size := fun n => (texts.take n).flatten.length
  if size texts.length + 2 ≤ Max.max max 5 then n = texts.length ∧ out = [quote] ++ texts.flatten ++ [quote]
  else n ≤ texts.length ∧ size n + 5 ≤ Max.max max 5 ∧ (∀ m, m ≤ texts.length → size m + 5 ≤ Max.max max 5 → m ≤ n) ∧
    out = [quote] ++ (texts.take n).flatten ++ "...".toList.map Char.toNat ++ [quote]

/-- The unquoted form of a string, when the size limit is `max`: everything, if that fits (the limit is at least 3) and everything is
plain. Otherwise, the longest plain prefix that fits when followed by an ellipsis. -/
def UnquotedForm (plain : Nat → Prop) (max : Nat) (s : List Nat) (n : Nat) (out : List Nat) : Prop :=
  ((s.length ≤ Max.max max 3 ∧ ∀ c ∈ s, plain c) → n = s.length ∧ out = s) ∧
  (¬ (s.length ≤ Max.max max 3 ∧ ∀ c ∈ s, plain c) →
    n ≤ s.length ∧ n + 3 ≤ Max.max max 3 ∧ (∀ c ∈ s.take n, plain c) ∧
      (∀ m, m ≤ s.length → m + 3 ≤ Max.max max 3 → (∀ c ∈ s.take m, plain c) → m ≤ n) ∧
      out = s.take n ++ "...".toList.map Char.toNat)

/-- The unquoted form, of size `u`, including `nu` characters, is to be preferred to the quoted form, of size `q`, including `nq`
characters. -/
def PreferUnquoted (max u nu q nq : Nat) : Prop :=
  if u ≤ max ∧ q ≤ max then nq ≤ nu else u < q ∨ (u = q ∧ nq ≤ nu)

end Verif.Quote.Spec
