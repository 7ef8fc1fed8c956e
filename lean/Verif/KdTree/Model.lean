import Mathlib.Algebra.Ring.Defs
import Mathlib.Order.Defs.LinearOrder
/-!
Model of `kdtree_sort()` and `kdtree_find()`: /repo/src/archon/util/kdtree.hpp.

Coordinates are elements of a type with exact arithmetic. The sequence of points is a list, and iterators are offsets. `none` stands for
undefined behavior or failed assertion. The first argument of a loop bounds the number of turns.
-/
namespace Verif.KdTree

/-- What the class is instantiated with: number of dimensions, access to coordinates, and the value of `max_levels`:
kdtree.hpp:120-124. -/
structure Env (P R : Type) where
  k : Nat
  comp : P → Nat → R
  maxLevels : Nat

/-- `midpoint()`: kdtree.hpp:130-133. -/
def midpoint (a b : Nat) : Nat := a + (b - a - 1) / 2

/-- `next_dim()`: kdtree.hpp:135-138. -/
def nextDim {P R : Type} (env : Env P R) (dim : Nat) : Option Nat := if env.k = 0 then none else some ((dim + 1) % env.k)

/-- A range of points together with a dimension. It is used for `Range` in `sort()` (kdtree.hpp:151-155), where the dimension is that
of the parent, and for the variables `dim`, `a` and `b`. -/
structure Range where
  dim : Nat
  first : Nat
  last : Nat

section
variable {P R : Type}

/-- Submission of a pending range (kdtree.hpp:171-176, 245-250 and 262-267). The most recent one is first in the list. -/
def push {T : Type} (env : Env P R) (cond : Prop) [Decidable cond] (x : T) (pending : List T) : Option (List T) :=
  if cond then if pending.length < env.maxLevels then some (x :: pending) else none else some pending

/-- Application of `std::nth_element()` to a part of the sequence: kdtree.hpp:168. The function stands for what the standard library
does; it can be different for every call (first argument of the function). The second argument is the dimension, which determines the
ordering. -/
def nthElement (nth : Nat → Nat → Nat → List P → List P) (call dim : Nat) (arr : List P) (a c b : Nat) : List P :=
  arr.take a ++ nth call dim (c - a) ((arr.take b).drop a) ++ arr.drop b

/-- The loop of `sort()`: kdtree.hpp:165-192. -/
def sortLoop (env : Env P R) (nth : Nat → Nat → Nat → List P → List P) :
    Nat → Nat → List P → Range → List Range → Option (List P)
  | 0, _, _, _, _ => none
  | fuel + 1, call, arr, ⟨dim, a, b⟩, pending =>
    if a < b then do
      let c := midpoint a b
      let arr := nthElement nth call dim arr a c b
      let d := c + 1
      let pending ← push env (d < b) ⟨dim, d, b⟩ pending
      if a < c then sortLoop env nth fuel (call + 1) arr ⟨← nextDim env dim, a, c⟩ pending
      else match pending with
        | [] => some arr
        | r :: rs => sortLoop env nth fuel (call + 1) arr ⟨← nextDim env r.dim, r.first, r.last⟩ rs
    else none

/-- `sort()`: kdtree.hpp:142-194. -/
def sort (env : Env P R) (nth : Nat → Nat → Nat → List P → List P) (arr : List P) : Option (List P) :=
  if arr.length ≠ 0 then sortLoop env nth arr.length 0 arr ⟨0, 0, arr.length⟩ [] else some arr

/-- `Transrange`: kdtree.hpp:209-214. -/
structure Trans where
  dim : Nat
  mid : Nat
  first : Nat
  last : Nat

/-- The variables `sqdist`, which has no value unless `have_sqdist`, and `index`: kdtree.hpp:217-223. -/
structure Best (R : Type) where
  sqdist : Option R
  index : Option Nat

variable [CommRing R] [LinearOrder R]

/-- The loop over the dimensions: kdtree.hpp:232-234. -/
def sqdistTo (env : Env P R) (q : Nat → R) (p : P) : R :=
  (List.range env.k).foldl (fun s i => s + (env.comp p i - q i) * (env.comp p i - q i)) 0

/-- Dealing with the point of the current node: kdtree.hpp:235-239. -/
def consider (best : Best R) (sq : R) (c : Nat) : Best R :=
  match best.sqdist with
  | none => ⟨some sq, some c⟩
  | some sq0 => if sq < sq0 then ⟨some sq, some c⟩ else best

/-- What happens at `leave`: kdtree.hpp:278-295. The inner result is the next range to be entered, if any, and the pending ranges that
remain. -/
def leave (env : Env P R) (arr : List P) (q : Nat → R) (best : Best R) : List Trans → Option (Option (Range × List Trans))
  | [] => some none
  | t :: ts => do
    let p ← arr[t.mid]?
    let sq3 := (env.comp p t.dim - q t.dim) * (env.comp p t.dim - q t.dim)
    let sq ← best.sqdist
    if sq3 ≥ sq then leave env arr q best ts
    else some (some (⟨← nextDim env t.dim, t.first, t.last⟩, ts))

/-- The loop of `find()`: kdtree.hpp:227-295. -/
def findLoop (env : Env P R) (arr : List P) (q : Nat → R) : Nat → Range → List Trans → Best R → Option (Best R)
  | 0, _, _, _ => none
  | fuel + 1, ⟨dim, a, b⟩, pending, best =>
    if a < b then do
      let c := midpoint a b
      let p ← arr[c]?
      let best := consider best (sqdistTo env q p) c
      let d := c + 1
      let below : Bool := q dim ≤ env.comp p dim
      let pending ← if below then push env (d < b) ⟨dim, c, d, b⟩ pending else push env (a < c) ⟨dim, c, a, c⟩ pending
      if below ∧ a < c then findLoop env arr q fuel ⟨← nextDim env dim, a, c⟩ pending best
      else if ¬ below ∧ d < b then findLoop env arr q fuel ⟨← nextDim env dim, d, b⟩ pending best
      else match ← leave env arr q best pending with
        | none => some best
        | some (r, ts) => findLoop env arr q fuel r ts best
    else none

/-- `find()`: kdtree.hpp:197-306. The inner result is the point and the distance to it, if a point is found. -/
def find (env : Env P R) (sqrt : R → R) (arr : List P) (q : Nat → R) (maxDist : Option R) : Option (Option (P × R)) :=
  if arr.length ≠ 0 then do
    let best ← findLoop env arr q arr.length ⟨0, 0, arr.length⟩ [] ⟨maxDist.map (fun x => x * x), none⟩
    match best.index with
    | none => some none
    | some i => some (some (← arr[i]?, sqrt (← best.sqdist)))
  else some none

end

end Verif.KdTree
