/-!
The documented form of a parameterized string.
-/
namespace Verif.Format.Spec

/-- A parameterized string consists of characters, parameter substitution markers, and special substitution markers. -/
inductive Tok where
  | lit (c : Char)
  | marker
  | percent

/-- The percent sign is not among the characters that stand for themselves. -/
def Ok (toks : List Tok) : Prop := Tok.lit '%' ∉ toks

/-- The string. -/
def text : List Tok → List Char
  | [] => []
  | .lit c :: ts => c :: text ts
  | .marker :: ts => '%' :: 's' :: text ts
  | .percent :: ts => '%' :: '%' :: text ts

/-- The number of parameter substitution markers. -/
def markers : List Tok → Nat
  | [] => 0
  | .marker :: ts => markers ts + 1
  | _ :: ts => markers ts

/-- The result of substitution. -/
def subst : List Tok → List (List Char) → List Char
  | [], _ => []
  | .lit c :: ts, ps => c :: subst ts ps
  | .percent :: ts, ps => '%' :: subst ts ps
  | .marker :: ts, p :: ps => p ++ subst ts ps
  | .marker :: _, [] => []

/-- A string with each percent sign doubled. -/
def escape (s : List Char) : List Char := s.flatMap (fun c => if c = '%' then ['%', '%'] else [c])

end Verif.Format.Spec
