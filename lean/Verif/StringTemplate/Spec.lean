/-!
# Specification of string templates

This file does not refer to the model. A template string is a sequence of characters and parameter
references. `Reads` relates a template string to the sequence of pieces that it consists of, and to
the faults that it contains.
-/

namespace Verif.StringTemplate.Spec

variable {α π : Type}

/-- Piece of template: a character, or a reference to a defined parameter. -/
inductive Piece (α π : Type) where
  | char (ch : α)
  | param (p : π)

/-- A fault in a template string. -/
inductive Fault (α : Type) where
  /-- Template ends with an unpaired `@`. -/
  | atEnd
  /-- A `@{`, at the specified offset, is not followed by a `}` anywhere. -/
  | unterminated (offset : Nat)
  /-- Reference, as specified, to parameter of specified name, which is not defined. -/
  | undefined (name : List α) (ref : List α)
  deriving DecidableEq

/-- `Reads at op cl P off t ps fs` means that the part `t` of a template string, starting at offset
`off`, reads as the pieces `ps` with the faults `fs` when `at`, `op`, and `cl` are the characters `@`,
`{`, and `}`, and `P` gives the meaning of parameter names. Faulty references read as themselves. -/
inductive Reads («at» op cl : α) (P : List α → Option π) :
    Nat → List α → List (Piece α π) → List (Fault α) → Prop where
  | nil {off} : Reads «at» op cl P off [] [] []
  | char {off c t ps fs} : c ≠ «at» → Reads «at» op cl P (off + 1) t ps fs →
      Reads «at» op cl P off (c :: t) (.char c :: ps) fs
  | escape {off t ps fs} : Reads «at» op cl P (off + 2) t ps fs →
      Reads «at» op cl P off («at» :: «at» :: t) (.char «at» :: ps) fs
  | short {off c p t ps fs} : c ≠ «at» → c ≠ op → P [c] = some p →
      Reads «at» op cl P (off + 2) t ps fs →
      Reads «at» op cl P off («at» :: c :: t) (.param p :: ps) fs
  | long {off name p t ps fs} : cl ∉ name → P name = some p →
      Reads «at» op cl P (off + (name.length + 3)) t ps fs →
      Reads «at» op cl P off («at» :: op :: (name ++ cl :: t)) (.param p :: ps) fs
  | atEnd {off} : Reads «at» op cl P off [«at»] [.char «at»] [.atEnd]
  | unterminated {off t ps fs} : cl ∉ t → Reads «at» op cl P (off + 2) t ps fs →
      Reads «at» op cl P off («at» :: op :: t) (.char «at» :: .char op :: ps) (.unterminated off :: fs)
  | shortUndefined {off c t ps fs} : c ≠ «at» → c ≠ op → P [c] = none →
      Reads «at» op cl P (off + 2) t ps fs →
      Reads «at» op cl P off («at» :: c :: t) (.char «at» :: .char c :: ps)
        (.undefined [c] [«at», c] :: fs)
  | longUndefined {off name t ps fs} : cl ∉ name → P name = none →
      Reads «at» op cl P (off + (name.length + 3)) t ps fs →
      Reads «at» op cl P off («at» :: op :: (name ++ cl :: t))
        (([«at», op] ++ name ++ [cl]).map .char ++ ps)
        (.undefined name ([«at», op] ++ name ++ [cl]) :: fs)

/-- The text that a sequence of pieces stands for when each parameter stands for the text given by
`value`. -/
def render (value : π → List α) : List (Piece α π) → List α
  | [] => []
  | .char c :: ps => c :: render value ps
  | .param p :: ps => value p ++ render value ps

/-- The string with every occurrence of `at` doubled. -/
def escape [DecidableEq α] («at» : α) (s : List α) : List α :=
  s.flatMap fun c => if c = «at» then [«at», «at»] else [c]

/-- Run through the pieces: append characters to the state by `put`, and evaluate parameters by
`eval`, where `reset` is applied after each evaluation. Stop when an evaluation fails. -/
def run {σ ε : Type} (put : σ → α → σ) (eval : π → σ → σ × Option ε) (reset : σ → σ) :
    List (Piece α π) → σ → σ × Option ε
  | [], s => (s, none)
  | .char c :: ps, s => run put eval reset ps (put s c)
  | .param p :: ps, s =>
    match eval p s with
    | (s, none) => run put eval reset ps (reset s)
    | (s, some e) => (reset s, some e)

/-- String padded to specified width, on the right or on the left. -/
def padded (left : Bool) (fill : α) (width : Nat) (s : List α) : List α :=
  let pad := List.replicate (width - s.length) fill
  if left then s ++ pad else pad ++ s

end Verif.StringTemplate.Spec
