import Verif.CliPattern.Format
/-!
What patterns mean, independently of the automata that are used for matching.
-/
namespace Verif.CliPattern

/-- The number of symbols in a pattern. -/
def size : Pat → Nat
  | .sym _ => 1
  | .opt p | .rep p | .alt p => size p
  | .nil | .none => 0
  | .cons e s => size e + size s
  | .or s b => size s + size b

/-- The symbols of a pattern, from left to right. -/
def symbols : Pat → List PatternSymbol
  | .sym s => [s]
  | .opt p | .rep p | .alt p => symbols p
  | .nil | .none => []
  | .cons e s => symbols e ++ symbols s
  | .or s b => symbols s ++ symbols b

/-- `Lang p w`: The pattern `p` matches the sequence of symbols `w`. -/
def Lang : Pat → List PatternSymbol → Prop
  | .sym s, w => w = [s]
  | .opt p, w => w = [] ∨ Lang p w
  | .rep p, w => ∃ ws : List (List PatternSymbol), ws ≠ [] ∧ (∀ v ∈ ws, Lang p v) ∧ w = ws.flatten
  | .alt p, w => Lang p w
  | .nil, w => w = []
  | .cons e s, w => ∃ u v, Lang e u ∧ Lang s v ∧ w = u ++ v
  | .none, _ => False
  | .or s b, w => Lang s w ∨ Lang b w

/-- `Path p b ps`: `ps` are the positions of the symbols that are visited by a match of the pattern `p`, when the first symbol of `p` is
at position `b`. -/
def Path : Pat → Nat → List Nat → Prop
  | .sym _, b, ps => ps = [b]
  | .opt p, b, ps => ps = [] ∨ Path p b ps
  | .rep p, b, ps => ∃ pss : List (List Nat), pss ≠ [] ∧ (∀ x ∈ pss, Path p b x) ∧ ps = pss.flatten
  | .alt p, b, ps => Path p b ps
  | .nil, _, ps => ps = []
  | .cons e s, b, ps => ∃ u v, Path e b u ∧ Path s (b + size e) v ∧ ps = u ++ v
  | .none, _, _ => False
  | .or s t, b, ps => Path s b ps ∨ Path t (b + size s) ps

/-- `Visits p ps w`: The symbols at the positions `ps` in the pattern `p` are `w`. -/
def Visits (p : Pat) (ps : List Nat) (w : List PatternSymbol) : Prop := ps.map (fun i => (symbols p)[i]?) = w.map some

/-- Two or more ways to associate the elements of a matching sequence with symbols of the pattern. -/
def PositionallyAmbiguous (p : Pat) : Prop :=
  ∃ w ps ps', ps ≠ ps' ∧ Path p 0 ps ∧ Path p 0 ps' ∧ Visits p ps w ∧ Visits p ps' w

/-- What a pattern is: An element, a sequence of elements, or a list of branches. -/
inductive Kind where
  | elem | seq | branches

/-- The pattern is well-formed: Elements, sequences, and branches are in the right places, and every alternatives construct has a
branch. -/
def Wf : Pat → Kind → Prop
  | .sym _, .elem => True
  | .opt p, .elem | .rep p, .elem => Wf p .seq
  | .alt p, .elem => Wf p .branches ∧ p ≠ .none
  | .nil, .seq | .none, .branches => True
  | .cons e s, .seq => Wf e .elem ∧ Wf s .seq
  | .or s b, .branches => Wf s .seq ∧ Wf b .branches
  | _, _ => False

/-- The pattern matches the empty sequence (`nul_lang`). -/
def nul : Pat → Bool
  | .sym _ => false
  | .opt _ => true
  | .rep p | .alt p => nul p
  | .nil => true
  | .none => false
  | .cons e s => nul e && nul s
  | .or s b => nul s || nul b

/-- Number of elements in a sequence, or branches in a list of branches. -/
def len : Pat → Nat
  | .cons _ s | .or _ s => len s + 1
  | _ => 0

/-- The index of the first branch that matches the empty sequence, or the number of branches if there is none. -/
def nullIndex : Pat → Nat
  | .or s b => if nul s then 0 else nullIndex b + 1
  | _ => 0

/-- Number of parameters. A value slot is a parameter, and so is every construct. -/
def params : Pat → Nat
  | .sym s => if s.type = .valueSlot then 1 else 0
  | .opt _ | .rep _ | .alt _ => 1
  | .nil | .none => 0
  | .cons e s => params e + params s
  | .or s b => params s + params b

/-- `Enc t p i b`: The tables `t` describe the pattern `p` whose first symbol is at position `b`. Here, `i` is the index of the element if
`p` is an element, of the first element if `p` is a sequence, and of the first branch if `p` is a list of branches. -/
def Enc (t : Tables) : Pat → Nat → Nat → Prop
  | .sym s, i, b => ∃ el, t.elems[i]? = some el ∧ el.type = .sym ∧ t.syms[el.index]? = some s ∧ el.endPos = b + 1 ∧
      (el.isParam = decide (s.type = .valueSlot) ∧ el.collapsible = false)
  | .opt p, i, b => ∃ el, t.elems[i]? = some el ∧ el.type = .opt ∧ el.endPos = b + size p ∧
      (el.isParam = true ∧ el.collapsible = decide (params p = 0)) ∧
      ∃ sq, t.seqs[el.index]? = some sq ∧ sq.numElems = len p ∧ sq.endPos = b + size p ∧ (sq.nullable = nul p ∧ sq.numParams = params p) ∧ Enc t p sq.elemsOffset b
  | .rep p, i, b => ∃ el, t.elems[i]? = some el ∧ el.type = .rep ∧ el.endPos = b + size p ∧
      (el.isParam = true ∧ el.collapsible = decide (params p = 0)) ∧
      ∃ sq, t.seqs[el.index]? = some sq ∧ sq.numElems = len p ∧ sq.endPos = b + size p ∧ (sq.nullable = nul p ∧ sq.numParams = params p) ∧ Enc t p sq.elemsOffset b
  | .alt p, i, b => ∃ el, t.elems[i]? = some el ∧ el.type = .alt ∧ el.endPos = b + size p ∧
      (el.isParam = true ∧ el.collapsible = decide (params p = 0)) ∧
      ∃ a, t.alts[el.index]? = some a ∧ a.numSeqs = len p ∧ a.nullableSeqIndex = nullIndex p ∧ Enc t p a.seqsOffset b
  | .nil, _, _ | .none, _, _ => True
  | .cons e s, i, b => Enc t e i b ∧ Enc t s (i + 1) (b + size e)
  | .or s r, i, b => (∃ sq, t.seqs[i]? = some sq ∧ sq.numElems = len s ∧ sq.endPos = b + size s ∧ (sq.nullable = nul s ∧ sq.numParams = params s) ∧
      Enc t s sq.elemsOffset b) ∧ Enc t r (i + 1) (b + size s)

/-- The tables describe a pattern whose sequence of elements is at the given index. -/
def EncRoot (t : Tables) (p : Pat) (seqIndex : Nat) : Prop :=
  Wf p .seq ∧ ∃ sq, t.seqs[seqIndex]? = some sq ∧ sq.numElems = len p ∧ sq.endPos = size p ∧ (sq.nullable = nul p ∧ sq.numParams = params p) ∧ Enc t p sq.elemsOffset 0

end Verif.CliPattern
