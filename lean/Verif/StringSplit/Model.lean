import Mathlib.Order.Defs.LinearOrder
/-!
Model of `BasicStringSplitter`, `for_each_word()` and `trim()`: /repo/src/archon/core/string.hpp.

A string is the list of its characters. A pointer into the string is an offset from its beginning. The delimiter has already been
widened.
-/
namespace Verif.StringSplit

variable {C : Type} [DecidableEq C]

/-- The members of `BasicStringSplitter` (string.hpp:176-178): what is between `m_cur` and `m_end`, and the offset of `m_cur`. -/
structure Splitter (C : Type) where
  rest : List C
  cur : Nat
deriving DecidableEq, Repr

/-- Constructor: string.hpp:292-298. -/
def Splitter.init (s : List C) : Splitter C := ⟨s, 0⟩

/-- The first loop of `next()`: string.hpp:303-312. The result is empty if the end is reached. -/
def skip (delim : C) : List C → Nat → Option (Splitter C)
  | [], _ => none
  | c :: cs, cur => if c = delim then skip delim cs (cur + 1) else some ⟨c :: cs, cur⟩

/-- The second loop of `next()`, after the first increment: string.hpp:314-315. -/
def scan (delim : C) : List C → Nat → Splitter C
  | [], cur => ⟨[], cur⟩
  | c :: cs, cur => if c ≠ delim then scan delim cs (cur + 1) else ⟨c :: cs, cur⟩

/-- `next()`: string.hpp:300-319. A word is identified by the offsets of its beginning and end. -/
def Splitter.next (delim : C) (sp : Splitter C) : Option ((Nat × Nat) × Splitter C) := do
  let sp ← skip delim sp.rest sp.cur
  match sp.rest with
  | [] => none
  | _ :: cs =>
    let sp' := scan delim cs (sp.cur + 1)
    some ((sp.cur, sp'.cur), sp')

/-- The loop of `for_each_word()`: string.hpp:274-281. The first argument bounds the number of turns (every turn consumes a
character). The result is the list of words for which the function is called. -/
def wordsLoop (delim : C) : Nat → Splitter C → List (Nat × Nat)
  | 0, _ => []
  | k + 1, sp => match sp.next delim with
    | none => []
    | some (word, sp) => word :: wordsLoop delim k sp

/-- `for_each_word()`: string.hpp:274-281. -/
def words (delim : C) (s : List C) : List (Nat × Nat) := wordsLoop delim (s.length + 1) (Splitter.init s)

/-- The string view with specified beginning and end. -/
def slice (s : List C) (w : Nat × Nat) : List C := (s.take w.2).drop w.1

/-- The first loop of `trim()`: string.hpp:266-267. -/
def trimFront (delim : C) (s : List C) : Nat → Nat → Nat
  | 0, b => b
  | k + 1, b => if s[b]? = some delim then trimFront delim s k (b + 1) else b

/-- The second loop of `trim()`: string.hpp:268-269. The first argument is `end - begin`. -/
def trimBack (delim : C) (s : List C) : Nat → Nat → Nat
  | 0, e => e
  | k + 1, e => if s[e - 1]? = some delim then trimBack delim s k (e - 1) else e

/-- `trim()`: string.hpp:261-271. The result is the offsets of the beginning and end. -/
def trim (delim : C) (s : List C) : Nat × Nat :=
  let b := trimFront delim s s.length 0
  (b, trimBack delim s (s.length - b) s.length)

end Verif.StringSplit
