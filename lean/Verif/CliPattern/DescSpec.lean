import Verif.CliPattern.Spec
/-!
The structure of a match of a pattern.
-/
namespace Verif.CliPattern

/-- An entry in the description of a match: The type of an element of the pattern, the position after it, whether it contains no
parameters, and its value. -/
structure Entry where
  type : ElemType
  endPos : Nat
  collapsible : Bool
  value : Nat
deriving DecidableEq, Repr

/-- `Deriv p b ms k ds`: The arguments `ms` are associated with symbols in a match of the pattern `p`, whose first symbol is at position
`b`, and the match is described by `ds`: Each value slot is described by the index of the argument, each optionality construct by whether its
sub-pattern was matched, each repetition construct by the number of repetitions, and each alternatives construct by the index of
the branch. If `p` is a list of branches, `k` is the index of the branch, otherwise it is zero. -/
def Deriv : Pat → Nat → List MatchPos → Nat → List Entry → Prop
  | .sym s, b, ms, k, ds => k = 0 ∧ ∃ a, ms = [⟨b, a⟩] ∧ ds = if s.type = .valueSlot then [⟨.sym, b + 1, false, a⟩] else []
  | .opt p, b, ms, k, ds => k = 0 ∧ ((ms = [] ∧ ds = [⟨.opt, b + size p, params p = 0, 0⟩]) ∨
      ∃ d, Deriv p b ms 0 d ∧ ds = ⟨.opt, b + size p, params p = 0, 1⟩ :: d)
  | .rep p, b, ms, k, ds => k = 0 ∧ ∃ l : List (List MatchPos × List Entry), l ≠ [] ∧ (∀ x ∈ l, Deriv p b x.1 0 x.2) ∧
      ms = (l.map Prod.fst).flatten ∧ ds = ⟨.rep, b + size p, params p = 0, l.length⟩ :: (l.map Prod.snd).flatten
  | .alt p, b, ms, k, ds => k = 0 ∧ ∃ i d, Deriv p b ms i d ∧ ds = ⟨.alt, b + size p, params p = 0, i⟩ :: d
  | .nil, _, ms, k, ds => k = 0 ∧ ms = [] ∧ ds = []
  | .cons e s, b, ms, k, ds => k = 0 ∧ ∃ u v d d', Deriv e b u 0 d ∧ Deriv s (b + size e) v 0 d' ∧ ms = u ++ v ∧ ds = d ++ d'
  | .none, _, _, _, _ => False
  | .or s r, b, ms, k, ds => (k = 0 ∧ Deriv s b ms 0 ds) ∨ (∃ j, k = j + 1 ∧ Deriv r (b + size s) ms j ds)

/-- Something nonempty and all repetitions of it are matched (`repeating_all`, `repeating_of_twice`). -/
def repeating : Pat → Bool
  | .sym _ | .nil | .none => false
  | .opt p | .alt p => repeating p
  | .rep p => true
  | .cons e s => (repeating e && nul s) || (nul e && repeating s)
  | .or s b => repeating s || repeating b

/-- The pattern has none of the forms that make it unclear how a match is to be described. -/
def Clear : Pat → Prop
  | .sym _ | .nil | .none => True
  | .opt p => nul p = false ∧ Clear p
  | .rep p => nul p = false ∧ repeating p = false ∧ Clear p
  | .alt p => Clear p
  | .cons e s => Clear e ∧ Clear s
  | .or s b => ¬ (nul s = true ∧ nul b = true) ∧ Clear s ∧ Clear b

end Verif.CliPattern
