/-
Specification of finite maps and multimaps over keys with a strict weak order: lists of pairs in order
of insertion. Nothing here refers to sorting or searching.
-/
namespace Verif.FlatMap.Spec

variable {K V : Type}

/-- Strict weak order, as required of `operator<`. -/
structure SWO (lt : K → K → Bool) : Prop where
  irrefl : ∀ a, lt a a = false
  trans : ∀ a b c, lt a b = true → lt b c = true → lt a c = true
  /-- Incomparability is transitive. -/
  incomp : ∀ a b c, lt a b = false → lt b a = false → lt b c = false → lt c b = false →
    lt a c = false ∧ lt c a = false

/-- Equivalence of keys. -/
def eqv (lt : K → K → Bool) (a b : K) : Bool := !lt a b && !lt b a

def lookup (lt : K → K → Bool) (m : List (K × V)) (k : K) : Option V :=
  (m.find? (fun x => eqv lt x.1 k)).map (·.2)

/-- Insertion into a map: no effect if there already is an entry. -/
def insert (lt : K → K → Bool) (m : List (K × V)) (k : K) (v : V) : List (K × V) :=
  if (lookup lt m k).isSome then m else m ++ [(k, v)]

/-- Assignment: replace the value of an existing entry, or add a new one. -/
def assign (lt : K → K → Bool) (m : List (K × V)) (k : K) (v : V) : List (K × V) :=
  if (lookup lt m k).isSome then m.map (fun x => if eqv lt x.1 k then (x.1, v) else x)
  else m ++ [(k, v)]

def erase (lt : K → K → Bool) (m : List (K × V)) (k : K) : List (K × V) :=
  m.filter (fun x => !eqv lt x.1 k)

/-- The entries with key equivalent to `k`, oldest first. -/
def entries (lt : K → K → Bool) (m : List (K × V)) (k : K) : List (K × V) :=
  m.filter (fun x => eqv lt x.1 k)

end Verif.FlatMap.Spec
