/-
Model of /repo/src/archon/core/impl/flat_map_impl.hpp, flat_map.hpp, flat_multimap.hpp (flat_set.hpp is
the special case where the value type is trivial).

The vector of entries is a list. `core::Vector::emplace` and `erase` are modelled by their effect on
the sequence (the vector itself is modelled separately in `Verif.Vector`). `lt` is `operator<` of the
key type, assumed not to throw. An out of range access is the outcome `none`.
-/
namespace Verif.FlatMap

variable {K V : Type}

/-- The loops of `lower_bound()` (flat_map_impl.hpp:136-144) and `do_upper_bound()` (254-262);
`goRight` is the condition of the `if`. `begin`, `end` are indices instead of pointers. The first
argument bounds the number of iterations; running out of it is the outcome `none` (proved not to
happen). -/
def searchLoop (goRight : K × V → Bool) (es : List (K × V)) : Nat → Nat → Nat → Option Nat
  | 0, _, _ => none
  | fuel + 1, b, e =>
    if b ≠ e then
      let mid := b + (e - b) / 2
      match es[mid]? with
      | none => none
      | some x => if goRight x then searchLoop goRight es fuel (mid + 1) e
        else searchLoop goRight es fuel b mid
    else some b

/-- `lower_bound()`: flat_map_impl.hpp:130-146. -/
def lowerBound (lt : K → K → Bool) (es : List (K × V)) (key : K) : Option Nat :=
  searchLoop (fun x => lt x.1 key) es (es.length + 1) 0 es.length

/-- `do_upper_bound()`: flat_map_impl.hpp:248-264. -/
def doUpperBound (lt : K → K → Bool) (es : List (K × V)) (key : K) (i : Nat) : Option Nat :=
  searchLoop (fun x => !lt key x.1) es (es.length + 1) i es.length

/-- `upper_bound()`: flat_map_impl.hpp:150-154. -/
def upperBound (lt : K → K → Bool) (es : List (K × V)) (key : K) : Option Nat :=
  doUpperBound lt es key 0

/-- `equal_range()`: flat_map_impl.hpp:158-164. -/
def equalRange (lt : K → K → Bool) (es : List (K × V)) (key : K) : Option (Nat × Nat) := do
  let b ← lowerBound lt es key
  let e ← doUpperBound lt es key b
  some (b, e)

/-- `do_find()`: flat_map_impl.hpp:268-274. -/
def doFind (lt : K → K → Bool) (es : List (K × V)) (key : K) : Option (Bool × Nat) := do
  let i ← lowerBound lt es key
  if i < es.length then
    let x ← es[i]?
    some (!lt key x.1, i)
  else some (false, i)

/-- `find()`: flat_map_impl.hpp:119-126. -/
def find (lt : K → K → Bool) (es : List (K × V)) (key : K) : Option Nat := do
  let (found, i) ← doFind lt es key
  if found then some i else some es.length

/-- `insert()`: flat_map_impl.hpp:168-179. Result: new entries, index of the entry, whether inserted. -/
def insert (lt : K → K → Bool) (es : List (K × V)) (key : K) (v : V) :
    Option (List (K × V) × Nat × Bool) := do
  let (found, i) ← doFind lt es key
  if !found then some (es.take i ++ [(key, v)] ++ es.drop i, i, true)
  else some (es, i, false)

/-- `insert_multi()`: flat_map_impl.hpp:183-190. -/
def insertMulti (lt : K → K → Bool) (es : List (K × V)) (key : K) (v : V) :
    Option (List (K × V) × Nat) := do
  let i ← upperBound lt es key
  some (es.take i ++ [(key, v)] ++ es.drop i, i)

/-- `erase()`: flat_map_impl.hpp:194-202. A reversed range is undefined behaviour. -/
def erase (lt : K → K → Bool) (es : List (K × V)) (key : K) : Option (List (K × V) × Nat) := do
  let (b, e) ← equalRange lt es key
  if b ≤ e ∧ e ≤ es.length then some (es.take b ++ es.drop e, e - b) else none

/-- `FlatMap::operator[](key) = v`: flat_map.hpp:208-213 followed by an assignment through the returned
reference. `dflt` is the value of a default constructed `mapped_type`. -/
def assign (lt : K → K → Bool) (dflt : V) (es : List (K × V)) (key : K) (v : V) :
    Option (List (K × V)) := do
  let (es', i, _) ← insert lt es key dflt
  let x ← es'[i]?
  some (es'.set i (x.1, v))

/-- `FlatMap::contains()`: flat_map.hpp:391-396. -/
def contains (lt : K → K → Bool) (es : List (K × V)) (key : K) : Option Bool := do
  let i ← find lt es key
  some (decide (i ≠ es.length))

/-- `FlatMap::at()` const: flat_map.hpp:198-205. Inner `none` is `std::out_of_range`. Also the value
designated by `find()` (flat_map.hpp:408-421), where inner `none` is `end()`. -/
def at? (lt : K → K → Bool) (es : List (K × V)) (key : K) : Option (Option V) := do
  let i ← find lt es key
  if i ≠ es.length then
    let x ← es[i]?
    some (some x.2)
  else some none

/-- `FlatMultimap::count()`: flat_multimap.hpp:356-362. -/
def count (lt : K → K → Bool) (es : List (K × V)) (key : K) : Option Nat := do
  let (b, e) ← equalRange lt es key
  some (e - b)

end Verif.FlatMap
