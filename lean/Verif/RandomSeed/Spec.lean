import Verif.RandomSeed.Model
/-!
The documented text form of a seed.
-/
namespace Verif.RandomSeed.Spec

/-- The digit characters: decimal digits, upper case letters, lower case letters. -/
def digitChar (d : Nat) : Nat := if d < 10 then 48 + d else if d < 36 then 65 + (d - 10) else 97 + (d - 36)

/-- A number in radix 62 with 11 digits. -/
def numeral (v : Nat) : List Nat := (List.range 11).map fun j => digitChar (v / 62 ^ (10 - j) % 62)

/-- Three pairs of words. -/
abbrev Block := (Nat × Nat) × (Nat × Nat) × (Nat × Nat)

/-- A block: three pairs of words. The first word of a pair contributes the least significant bits. -/
def block (b : Block) : List Nat :=
  numeral (b.1.1 + 2 ^ 32 * b.1.2) ++ numeral (b.2.1.1 + 2 ^ 32 * b.2.1.2) ++ numeral (b.2.2.1 + 2 ^ 32 * b.2.2.2)

/-- The words of a block. -/
def blockWords (b : Block) : List Nat :=
  [b.1.1, b.1.2, b.2.1.1, b.2.1.2, b.2.2.1, b.2.2.2]

/-- The pairs of a block. -/
def blockPairs (b : Block) : List (Nat × Nat) := [b.1, b.2.1, b.2.2]

/-- The words of a sequence of blocks. -/
def seed (bs : List Block) : List Nat := bs.flatMap blockWords

/-- Words have 32 bits. -/
def Valid (bs : List Block) : Prop := ∀ b ∈ bs, ∀ p ∈ blockPairs b, p.1 < 2 ^ 32 ∧ p.2 < 2 ^ 32

/-- No pair of words consists of ones only. -/
def NotAllOnes (bs : List Block) : Prop := ∀ b ∈ bs, (0xFFFFFFFF, 0xFFFFFFFF) ∉ blockPairs b

/-- The text form. Blocks are separated by dashes. The empty seed is a single dash. -/
def text (bs : List Block) : List Nat :=
  if bs = [] then [45] else List.intercalate [45] (bs.map block)

/-- What is assumed of the locale: digits and letters that occur in the text form are alphanumeric, and are preserved by
`widen` followed by `narrow`. The dash is not alphanumeric. No other alphanumeric character is narrowed to one that occurs in
the text form. -/
structure Good (L : Loc C) : Prop where
  digit : ∀ d < 62, L.narrow (L.widen (digitChar d)) = digitChar d ∧ L.alnum (L.widen (digitChar d)) = true
  dash : L.alnum (L.widen 45) = false
  only : ∀ ch, L.alnum ch = true → ∀ d < 62, L.narrow ch = digitChar d → ch = L.widen (digitChar d)

/-- What follows the text of a seed in the input. -/
def Ends (L : Loc C) (rest : List C) : Prop := ∀ ch ∈ rest.head?, L.alnum ch = false ∧ ch ≠ L.widen 45

end Verif.RandomSeed.Spec
