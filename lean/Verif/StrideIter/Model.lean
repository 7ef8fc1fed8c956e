/-!
Model of /repo/src/archon/core/stride_iterator.hpp: iteration with a fixed stride.

`N` is the width of `std::ptrdiff_t` and of `std::size_t`, and `S` is the stride. A stride iterator is the position of the underlying iterator,
which is a random access iterator whose difference type is `std::ptrdiff_t`, and whose operators take arguments of that type. The sequence
that it refers to is `seq`.
-/
namespace Verif.StrideIter

/-- Conversion from `std::ptrdiff_t` to `std::size_t`: implied at stride_iterator.hpp:127, 169, 178, 187, 195, and
203. -/
def toSize (N : Nat) (x : Int) : Nat := (x % 2 ^ N).toNat

/-- Conversion from `std::size_t` to `std::ptrdiff_t`: implied at stride_iterator.hpp:127, 134, 142, 151, 160, 169, 178, 187, and 195, and explicit
at 203. -/
def toDiff (N : Nat) (x : Nat) : Int := if x < 2 ^ (N - 1) then x else (x : Int) - 2 ^ N

/-- The expression `i * S`, which is of type `std::size_t`, converted to the difference type: stride_iterator.hpp:127, 169, 178, 187, and
195. -/
def offset (N S : Nat) (i : Int) : Int := toDiff N (toSize N i * S % 2 ^ N)

/-- `operator*()`: stride_iterator.hpp:116-120. -/
def deref {α : Type} (seq : Int → α) (p : Int) : α := seq p

/-- `operator[]()`: stride_iterator.hpp:123-128. -/
def subscr {α : Type} (N S : Nat) (seq : Int → α) (p i : Int) : α := seq (p + offset N S i)

/-- `operator++()`: stride_iterator.hpp:131-136. -/
def inc (N S : Nat) (p : Int) : Int := p + toDiff N S

/-- `operator--()`: stride_iterator.hpp:139-144. -/
def dec (N S : Nat) (p : Int) : Int := p - toDiff N S

/-- `operator++(int)`: stride_iterator.hpp:147-153. The result is the iterator afterwards, and the returned one. -/
def postInc (N S : Nat) (p : Int) : Int × Int := (p + toDiff N S, p)

/-- `operator--(int)`: stride_iterator.hpp:156-162. -/
def postDec (N S : Nat) (p : Int) : Int × Int := (p - toDiff N S, p)

/-- `operator+=()` and `operator+()`: stride_iterator.hpp:165-171 and 183-188. -/
def add (N S : Nat) (p i : Int) : Int := p + offset N S i

/-- `operator-=()` and `operator-()`: stride_iterator.hpp:174-180 and 191-196. -/
def sub (N S : Nat) (p i : Int) : Int := p - offset N S i

/-- `operator-()` for two iterators: stride_iterator.hpp:199-204. The division is of type `std::size_t`. -/
def diff (N S : Nat) (p q : Int) : Int := toDiff N (toSize N (p - q) / S)

/-- `operator==()`: stride_iterator.hpp:207-212. -/
def eq (p q : Int) : Bool := p == q

/-- `operator<()`: stride_iterator.hpp:223-228. -/
def lt (p q : Int) : Bool := decide (p < q)

/-- `operator<=()`: stride_iterator.hpp:239-244. -/
def le (p q : Int) : Bool := decide (p ≤ q)

end Verif.StrideIter
