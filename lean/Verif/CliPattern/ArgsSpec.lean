import Verif.CliPattern.DescSpec
import Verif.CliPattern.Args
/-!
What the parameters of a pattern function must be like, and which values they get.
-/
namespace Verif.CliPattern

/-- Types that are not associated with a particular kind of construct. -/
def scalar : Ty → Prop
  | .optional _ | .vector _ | .variant _ => False
  | _ => True

/-- Lists of types. -/
def isList : Ty → Prop
  | .nil => True
  | .cons _ ts => isList ts
  | _ => False

/-- Lists occur in the right places only. -/
def TyOk : Ty → Prop
  | .bool | .size | .other => True
  | .optional τ | .vector τ => TyOk τ
  | .variant ts | .tuple ts => isList ts ∧ TyOk ts
  | .nil => True
  | .cons τ ts => TyOk τ ∧ isList ts ∧ TyOk ts

/-- `R` for the list of types when the type is a tuple, otherwise for the list that has that type as the only type. -/
def FitsTuple (R : Ty → Prop) : Ty → Prop
  | .tuple ts => R ts
  | τ => R (.cons τ .nil)

/-- The first parameter in the sequence is a repetition construct. -/
def repFirst : Pat → Prop
  | .cons e s => (params e = 0 ∧ repFirst s) ∨ ∃ q, e = .rep q
  | _ => False

/-- `Fits p ts`: The types `ts` go with the pattern. If `p` is an element, `ts` is the type of a parameter for that element. If `p` is a
sequence, `ts` has a type for each parameter in `p`. If `p` is a list of branches, `ts` has a type for each branch. -/
def Fits : Pat → Ty → Prop
  | .sym _, τ => scalar τ
  | .opt p, .optional τ => FitsTuple (Fits p) τ
  | .opt p, .bool => params p = 0
  | .opt p, .vector τ => params p = 1 ∧ repFirst p ∧ Fits p (.cons (.vector τ) .nil)
  | .opt p, .size => params p = 1 ∧ repFirst p ∧ Fits p (.cons .size .nil)
  | .rep p, .vector τ => FitsTuple (Fits p) τ
  | .rep p, .size => params p = 0
  | .alt p, .variant ts => Fits p ts
  | .alt p, .size => params p = 0
  | .nil, .nil => True
  | .cons e s, ts => (params e = 0 ∧ Fits s ts) ∨ (params e ≠ 0 ∧ ∃ τ ts', ts = .cons τ ts' ∧ Fits e τ ∧ Fits s ts')
  | .none, .nil => True
  | .or s r, .cons τ ts => FitsTuple (Fits s) τ ∧ Fits r ts
  | _, _ => False

/-- The type `std::size_t` is used for an alternatives construct without parameters. -/
def AltSize : Pat → Ty → Prop
  | .opt p, .optional τ => FitsTuple (AltSize p) τ
  | .opt p, .vector τ => AltSize p (.cons (.vector τ) .nil)
  | .opt p, .size => AltSize p (.cons .size .nil)
  | .rep p, .vector τ => FitsTuple (AltSize p) τ
  | .alt p, .variant ts => AltSize p ts
  | .alt _, .size => True
  | .cons e s, ts => (params e = 0 ∧ AltSize s ts) ∨ (params e ≠ 0 ∧ ∃ τ ts', ts = .cons τ ts' ∧ (AltSize e τ ∨ AltSize s ts'))
  | .or s r, .cons τ ts => FitsTuple (AltSize s) τ ∨ AltSize r ts
  | _, _ => False

/-- Values of lists of types are lists of values. -/
def listOf : List Val → Val
  | [] => .nil
  | v :: vs => .cons v (listOf vs)

/-- `R` for the lists of types and values when the type is a tuple, otherwise for the lists that have that type and that value only. -/
def TupleValue (R : Ty → Val → Prop) : Ty → Val → Prop
  | .tuple ts, v => ∃ vs, v = .tuple vs ∧ R ts vs
  | τ, v => R (.cons τ .nil) (.cons v .nil)

/-- `Value good p b ms ts vs`: `vs` is what a pattern function with parameter types `ts` must be passed when the arguments `ms` match the
pattern `p`, whose first symbol is at position `b`. As for `Fits`, if `p` is a sequence, `ts` and `vs` are lists with one entry for each
parameter. If `p` is a list of branches, `ts` has a type for each branch, and `vs` is the index of the branch together with a value. -/
def Value (good : Ty → Nat → Bool) : Pat → Nat → List MatchPos → Ty → Val → Prop
  | .sym _, b, ms, τ, v => ∃ a, ms = [⟨b, a⟩] ∧ v = if good τ a then .arg a else .bad a
  | .opt p, b, ms, .optional τ, v => (ms = [] ∧ v = .absent) ∨ ∃ w, v = .present w ∧ TupleValue (Value good p b ms) τ w
  | .opt p, b, ms, .bool, v => (ms = [] ∧ v = .bool false) ∨ (Path p b (ms.map MatchPos.pos) ∧ v = .bool true)
  | .opt p, b, ms, .vector τ, v => (ms = [] ∧ v = .vec .nil) ∨ Value good p b ms (.cons (.vector τ) .nil) (.cons v .nil)
  | .opt p, b, ms, .size, v => (ms = [] ∧ v = .size 0) ∨ Value good p b ms (.cons .size .nil) (.cons v .nil)
  | .rep p, b, ms, .vector τ, v => ∃ l : List (List MatchPos × Val), l ≠ [] ∧ (∀ x ∈ l, TupleValue (Value good p b x.1) τ x.2) ∧
      ms = (l.map Prod.fst).flatten ∧ v = .vec (listOf (l.map Prod.snd))
  | .rep p, b, ms, .size, v => ∃ l : List (List MatchPos), l ≠ [] ∧ (∀ x ∈ l, Path p b (x.map MatchPos.pos)) ∧ ms = l.flatten ∧
      v = .size l.length
  | .alt p, b, ms, .variant ts, v => Value good p b ms ts v
  | .nil, _, ms, .nil, v => ms = [] ∧ v = .nil
  | .cons e s, b, ms, ts, v =>
      (params e = 0 ∧ ∃ u w, ms = u ++ w ∧ Path e b (u.map MatchPos.pos) ∧ Value good s (b + size e) w ts v) ∨
      (params e ≠ 0 ∧ ∃ u w τ ts' x xs, ms = u ++ w ∧ ts = .cons τ ts' ∧ v = .cons x xs ∧ Value good e b u τ x ∧
        Value good s (b + size e) w ts' xs)
  | .or s r, b, ms, .cons τ ts, v => (∃ w, v = .variant 0 w ∧ TupleValue (Value good s b ms) τ w) ∨
      ∃ k w, v = .variant (k + 1) w ∧ Value good r (b + size s) ms ts (.variant k w)
  | _, _, _, _, _ => False

/-- The arguments that could not be parsed, from left to right. -/
def bads : Val → List Nat
  | .bad a => [a]
  | .present v | .vec v | .variant _ v | .tuple v => bads v
  | .cons v vs => bads v ++ bads vs
  | _ => []

end Verif.CliPattern
