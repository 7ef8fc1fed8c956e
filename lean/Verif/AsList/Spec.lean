import Verif.AsList.Model

/-!
# Specification of list syntax
-/

namespace Verif.AsList.Spec

/-- A text consists of items that are separated by the separator, each of them followed by any number of space characters if that is
allowed. -/
inductive Items (separator : Char) (allow : Bool) : List Char → List (List Char) → Prop
  | last (p : List Char) (h : separator ∉ p) : Items separator allow p [p]
  | cons (p sp rest : List Char) (ps : List (List Char)) (h : separator ∉ p) (hsp : ∀ x ∈ sp, x = ' ') (hno : allow = false → sp = [])
      (hmax : allow = true → rest.head? ≠ some ' ') (hrest : Items separator allow rest ps) :
      Items separator allow (p ++ separator :: (sp ++ rest)) (p :: ps)

/-- Whether space characters are accepted. -/
def accepting : Space → Bool
  | .none => false
  | _ => true

/-- The list syntax: items, in brackets if so specified, with space characters inside the brackets if that is allowed. -/
def Syntax (c : Config) (str : List Char) (items : List (List Char)) : Prop :=
  if c.bracketed then
    ∃ sp1 text sp2, str = c.openingBracket :: (sp1 ++ text ++ sp2 ++ [c.closingBracket]) ∧ (∀ x ∈ sp1 ++ sp2, x = ' ') ∧
      (accepting c.space = false → sp1 = [] ∧ sp2 = []) ∧ (accepting c.space = true → text.head? ≠ some ' ' ∧ text.getLast? ≠ some ' ') ∧
      Items c.separator (accepting c.space) text items
  else Items c.separator (accepting c.space) str items

/-- A text that can be used for an element: it has no separator in it, and, if space characters are accepted, it is not empty, and it has no
leading or trailing space. -/
def Suitable (c : Config) (text : List Char) : Prop :=
  c.separator ∉ text ∧ (accepting c.space = true → text ≠ [] ∧ text.head? ≠ some ' ' ∧ text.getLast? ≠ some ' ')

/-- The documented text between elements. -/
def glue (c : Config) : List Char := match c.space with
  | .auto => if c.separator = ' ' then [' '] else [c.separator, ' ']
  | .none | .allow => [c.separator]
  | .tight | .loose => [c.separator, ' ']

/-- The documented format. -/
def documented (c : Config) (texts : List (List Char)) : List Char :=
  let inner := List.intercalate (glue c) texts
  let pad := if c.space = .loose ∧ texts ≠ [] then [' '] else []
  if c.bracketed then [c.openingBracket] ++ pad ++ inner ++ pad ++ [c.closingBracket] else inner

end Verif.AsList.Spec
