import Mathlib.Order.Defs.LinearOrder
import Verif.Buffer.Model
/-!
Model of /repo/src/archon/core/frozen_sets.hpp, `FrozenSets<T, C>`.

The storage (`m_wrap.elems`) is a list. The comparison is that of a linear order on the element type (a strict weak order
would also be permitted). Memory allocation and copying of elements do not fail. Arguments of the functions that take
iterators do not refer to the storage of the collection.
-/
namespace Verif.FrozenSets
open Verif.Buffer (Err Res)
variable {T : Type} [LinearOrder T]

/-- `FrozenSets::Ident`: frozen_sets.hpp:85-98. -/
structure Ident where
  b : Nat
  e : Nat
deriving DecidableEq, Repr

/-- `Ident::size()`: frozen_sets.hpp:317-320 (`m_begin` is never greater than `m_end`). -/
def Ident.size (i : Ident) : Nat := i.e - i.b

/-- Insertion into a sorted list, for `sort`. -/
def insertSorted (x : T) : List T → List T
  | [] => [x]
  | y :: ys => if y < x then y :: insertSorted x ys else x :: y :: ys

/-- `std::sort()`: frozen_sets.hpp:147. The result is the sorted permutation, which is unique in a linear order. -/
def sort : List T → List T
  | [] => []
  | x :: xs => insertSorted x (sort xs)

/-- `std::unique()`: frozen_sets.hpp:148-152. An element is dropped if it is equal to the last one that is kept. -/
def unique : List T → List T
  | [] => []
  | x :: xs => x :: go x xs
where
  go : T → List T → List T
  | _, [] => []
  | x, y :: ys => if ¬ x < y ∧ ¬ y < x then go x ys else y :: go y ys

/-- `std::set_union()`: frozen_sets.hpp:257. -/
def setUnion : List T → List T → List T
  | [], ys => ys
  | x :: xs, ys => go x xs (setUnion xs) ys
where
  /-- `x :: xs` united with the second argument, given the function that unites `xs` with its argument. -/
  go (x : T) (xs : List T) (rec : List T → List T) : List T → List T
  | [] => x :: xs
  | y :: ys => if y < x then y :: go x xs rec ys
      else x :: rec (if ¬ x < y then ys else y :: ys)

/-- `std::vector::resize()`. New elements are value-initialized (`d`). -/
def resize (d : T) (es : List T) (n : Nat) : List T := es.take n ++ List.replicate (n - es.length) d

/-- `operator[]()`: frozen_sets.hpp:281-287. Reading outside the storage is undefined behaviour. -/
def get (es : List T) (i : Ident) : Res (List T) :=
  if i.b ≤ i.e ∧ i.e ≤ es.length then .ok ((es.take i.e).drop i.b) else .error .ub

/-- `freeze_unordered()`: frozen_sets.hpp:138-163. -/
def freezeUnordered (es xs : List T) : List T × Ident :=
  let ys := unique (sort xs)
  (es ++ ys, ⟨es.length, es.length + ys.length⟩)

/-- `freeze_ordered()`: frozen_sets.hpp:166-181. -/
def freezeOrdered (es xs : List T) : List T × Ident :=
  (es ++ xs, ⟨es.length, es.length + xs.length⟩)

/-- `unite_ordered()`: frozen_sets.hpp:249-270. -/
def uniteOrdered (d : T) (es : List T) (i : Ident) (ys : List T) : Res (List T × Ident) := do
  let xs ← get es i
  let b2 := es.length
  let es := es ++ setUnion xs ys
  let e2 := es.length
  if e2 - b2 > i.size then .ok (es, ⟨b2, e2⟩)
  else .ok (resize d es b2, i)

/-- `discard_from()`: frozen_sets.hpp:297-302. -/
def discardFrom (d : T) (es : List T) (i : Ident) : Res (List T) :=
  if i.b ≤ es.length then .ok (resize d es i.b) else .error .abort

/-- `unite(Ident, Ident)`: frozen_sets.hpp:192-203. -/
def unite (d : T) (es : List T) (i j : Ident) : Res (List T × Ident) := do
  let ys ← get es j
  let (es, k) ← uniteOrdered d es i ys
  if k.size > j.size then .ok (es, k)
  else do
    let es ← discardFrom d es k
    .ok (es, j)

/-- `std::copy_n()` inside the storage: frozen_sets.hpp:235. The source is not before the destination. -/
def copyDown (es : List T) (src n dst : Nat) : Res (List T) :=
  if dst ≤ src ∧ src + n ≤ es.length then
    .ok (es.take dst ++ (es.drop src).take n ++ es.drop (dst + n))
  else .error .ub

/-- `unite_unordered()`: frozen_sets.hpp:226-246. -/
def uniteUnordered (d : T) (es : List T) (i : Ident) (xs : List T) : Res (List T × Ident) := do
  let b2 := es.length
  let (es, j) := freezeUnordered es xs
  let (es, k) ← unite d es i j
  if k.size > i.size then do
    let es ← copyDown es k.b k.size b2
    .ok (resize d es (b2 + k.size), ⟨b2, b2 + k.size⟩)
  else .ok (resize d es b2, i)

end Verif.FrozenSets
