/-
Model of /repo/src/archon/core/literal_hash_map.hpp.

`N` (number of entries) is the number of associations, `M` is the number of buckets. `h` is the hash
function. An access outside an array, a failed assertion and `% 0` are the outcome `none`.
-/
namespace Verif.LiteralHashMap

variable {K V : Type}

/-- `LiteralHashMap::hash()`: literal_hash_map.hpp:191-196. -/
def hash (h : K → Nat) (M : Nat) (key : K) : Option Nat := if M = 0 then none else some (h key % M)

/-- The inner loop of `init()`: literal_hash_map.hpp:139-148. Entries are written to consecutive
positions of the array of size `N`, so the array is represented by the part that was written, and
`offset` is its size. -/
def fillBucket (h : K → Nat) (N M i : Nat) : List (K × V) → List (K × V) → Option (List (K × V))
  | [], entries => some entries
  | (key, value) :: assocs, entries => do
    let bucketIndex ← hash h M key
    if bucketIndex ≠ i then fillBucket h N M i assocs entries
    else if entries.length < N then fillBucket h N M i assocs (entries ++ [(key, value)])
    else none

/-- The outer loop of `init()`: literal_hash_map.hpp:137-149. `is` are the remaining bucket indices.
Result: entries, and bucket offsets. -/
def fillBuckets (h : K → Nat) (N M : Nat) (assocs : List (K × V)) :
    List Nat → List (K × V) → List Nat → Option (List (K × V) × List Nat)
  | [], entries, buckets => some (entries, buckets)
  | i :: is, entries, buckets => do
    let entries' ← fillBucket h N M i assocs entries
    fillBuckets h N M assocs is entries' (buckets ++ [entries.length])

/-- `init()`: literal_hash_map.hpp:134-151. -/
def init (h : K → Nat) (M : Nat) (assocs : List (K × V)) : Option (List (K × V) × List Nat) := do
  let (entries, buckets) ← fillBuckets h assocs.length M assocs (List.range M) [] []
  if entries.length = assocs.length then some (entries, buckets) else none

/-- `init_rev()`: literal_hash_map.hpp:154-171; the same loops with the members of the associations
exchanged. -/
def initRev (h : K → Nat) (M : Nat) (assocs : List (V × K)) : Option (List (K × V) × List Nat) :=
  init h M (assocs.map (fun a => (a.2, a.1)))

/-- The loop of `find()`: literal_hash_map.hpp:181-187. The last argument is `end - i`. -/
def findLoop [DecidableEq K] (entries : List (K × V)) (key : K) : Nat → Nat → Option (Option V)
  | _, 0 => some none
  | i, n + 1 => do
    let entry ← entries[i]?
    if entry.1 = key then some (some entry.2) else findLoop entries key (i + 1) n

/-- `find()`: literal_hash_map.hpp:174-189. -/
def find [DecidableEq K] (h : K → Nat) (M : Nat) (st : List (K × V) × List Nat) (N : Nat) (key : K) :
    Option (Option V) := do
  let bucketIndex ← hash h M key
  let b ← st.2[bucketIndex]?
  let e ← if M - bucketIndex = 1 then some N else st.2[bucketIndex + 1]?
  findLoop st.1 key b (e - b)

/-- Number of buckets chosen by `make_literal_hash_map()`: literal_hash_map.hpp:209, 228. -/
def numBuckets (M N : Nat) : Nat := if M > 0 then M else N

end Verif.LiteralHashMap
