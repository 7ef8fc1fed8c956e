/-!
# Specification of stable sorting
-/

namespace Verif.StableSort.Spec

variable {α : Type}

/-- Strict weak order. -/
structure IsOrder (lt : α → α → Bool) : Prop where
  irrefl : ∀ a, lt a a = false
  trans : ∀ a b c, lt a b = true → lt b c = true → lt a c = true
  /-- Incomparability is transitive. -/
  incomp : ∀ a b c, lt a b = false → lt b a = false → lt b c = false → lt c b = false →
    lt a c = false ∧ lt c a = false

/-- Neither of two elements comes before the other. -/
def Tied (lt : α → α → Bool) (a b : α) : Bool := !lt a b && !lt b a

/-- `m` is the result of sorting `l` in a stable fashion: it is a rearrangement of `l`, no element comes
before an earlier element according to the order, and, for every group of tied elements, the elements of the group occur in
`m` in the same order as in `l`. -/
structure IsStableSort (lt : α → α → Bool) (l m : List α) : Prop where
  perm : m.Perm l
  sorted : ∀ (i j : Nat) (a b : α), i < j → m[i]? = some a → m[j]? = some b → lt b a = false
  stable : ∀ x, m.filter (Tied lt x) = l.filter (Tied lt x)

end Verif.StableSort.Spec
