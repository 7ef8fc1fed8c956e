/-
Model of /repo/src/archon/core/range_map.hpp.

The underlying `std::map<K, std::pair<K, T>>` is the list of its entries in iteration order. Keys are
integers; `lo` and `hi` are the smallest and largest value of the key type `K`. A computed key outside
`[lo, hi]` (wrap-around or signed overflow) is the outcome `none`, as is a failed assertion, and an
insertion with a hint that would not put the new entry right before the hint.
-/
namespace Verif.RangeMap

/-- An entry of the underlying map: `{ first, { last, val } }` (range_map.hpp:46-52). -/
structure Ent (T : Type) where
  first : Int
  last : Int
  val : T
deriving DecidableEq, Repr

variable {T : Type}

/-- Conversion of a computed value to the key type. -/
def toKey (lo hi x : Int) : Option Int := if lo ≤ x ∧ x ≤ hi then some x else none

/-- New entry for the gap before entry `i`, if there is one: range_map.hpp:172-177. -/
def gapBefore (lo hi : Int) (dflt : T) (f : T → T) (a iFirst : Int) : Option (List (Ent T)) :=
  if a < iFirst then do
    let last ← toKey lo hi (iFirst - 1)
    some [⟨a, last, f dflt⟩]
  else some []

/-- The loop of `RangeMap::update()` and what follows it: range_map.hpp:161-203. `a`, `b` are
`range_2.first` and `range_2.last`, the list is what the map holds from position `i` on, and the result
is what the map holds from that position on at the end. `dflt` is `T()`. -/
def updateLoop (lo hi : Int) (dflt : T) (f : T → T) (b : Int) : List (Ent T) → Int → Option (List (Ent T))
  | [], a => some [⟨a, b, f dflt⟩]
  | i :: rest, a =>
    if b < i.first then some (⟨a, b, f dflt⟩ :: i :: rest)
    else do
      -- gap before `i`
      let gap ← gapBefore lo hi dflt f a i.first
      if b < i.last then do
        let first ← toKey lo hi (b + 1)
        some (gap ++ ⟨i.first, b, f i.val⟩ :: ⟨first, i.last, i.val⟩ :: rest)
      else if b = i.last then some (gap ++ ⟨i.first, i.last, f i.val⟩ :: rest)
      else do
        let a' ← toKey lo hi (i.last + 1)
        let r ← updateLoop lo hi dflt f b rest a'
        some (gap ++ ⟨i.first, i.last, f i.val⟩ :: r)

/-- `RangeMap::update()`: range_map.hpp:137-204. `std::map::lower_bound()` is the position of the first
entry whose key is not less than the specified key. -/
def update (lo hi : Int) (dflt : T) (es : List (Ent T)) (a b : Int) (f : T → T) : Option (List (Ent T)) :=
  if a ≤ b then
    let before := es.takeWhile (fun e => e.first < a)
    let after := es.dropWhile (fun e => e.first < a)
    match before.getLast? with
    | none => do some (before ++ (← updateLoop lo hi dflt f b after a))
    | some j =>
      if a ≤ j.last then do
        let jlast ← toKey lo hi (a - 1)
        let r ← updateLoop lo hi dflt f b (⟨a, j.last, j.val⟩ :: after) a
        some (before.dropLast ++ ⟨j.first, jlast, j.val⟩ :: r)
      else do some (before ++ (← updateLoop lo hi dflt f b after a))
  else none

/-- `RangeMap::assign()`: range_map.hpp:116-127. -/
def assign (lo hi : Int) (dflt : T) (es : List (Ent T)) (a b : Int) (v : T) : Option (List (Ent T)) :=
  update lo hi dflt es a b (fun _ => v)

/-- The loop of `RangeMap::defrag()`: range_map.hpp:221-236. `i` is the current entry, the list is what
follows it. -/
def defragLoop (lo hi : Int) (eq : T → T → Bool) : List (Ent T) → Ent T → Option (List (Ent T))
  | [], i => some [i]
  | j :: rest, i => do
    let next ← toKey lo hi (i.last + 1)
    if j.first = next ∧ eq i.val j.val = true then defragLoop lo hi eq rest ⟨i.first, j.last, i.val⟩
    else some (i :: (← defragLoop lo hi eq rest j))

/-- `RangeMap::defrag()`: range_map.hpp:213-238. -/
def defrag (lo hi : Int) (eq : T → T → Bool) : List (Ent T) → Option (List (Ent T))
  | [] => some []
  | i :: rest => defragLoop lo hi eq rest i

end Verif.RangeMap
