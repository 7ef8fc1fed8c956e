/-!
The algorithm of `std::seed_seq::generate()` as it is specified by C++17, section 29.6.7.1, paragraph 8.
-/
namespace Verif.SeedSeq.Spec

/-- `T(x) = x xor (x rshift 27)`. -/
def T (x : Nat) : Nat := x ^^^ (x >>> 27)

/-- The parameters of the algorithm for a range of size `n`. -/
def t (n : Nat) : Nat := if n ≥ 623 then 11 else if n ≥ 68 then 7 else if n ≥ 39 then 5 else if n ≥ 7 then 3 else (n - 1) / 2
def p (n : Nat) : Nat := (n - t n) / 2
def q (n : Nat) : Nat := p n + t n

/-- The element at the specified index, which is taken modulo the size of the range. -/
def el (b : List Nat) (k : Nat) : Nat := b.getD (k % b.length) 0

/-- Assignment to the element at the specified index, which is taken modulo the size of the range. -/
def upd (b : List Nat) (k v : Nat) : List Nat := b.set (k % b.length) v

/-- A step of the first transformation for the seed `v`. All operations are modulo `2^32`. -/
def first (v : List Nat) (k : Nat) (b : List Nat) : List Nat :=
  let n := b.length
  let r1 := 1664525 * T (el b k ^^^ el b (k + p n) ^^^ el b (k + n - 1)) % 2 ^ 32
  let r2 := (r1 + if k = 0 then v.length else if k ≤ v.length then k % n + v.getD (k - 1) 0 else k % n) % 2 ^ 32
  let b := upd b (k + p n) ((el b (k + p n) + r1) % 2 ^ 32)
  let b := upd b (k + q n) ((el b (k + q n) + r2) % 2 ^ 32)
  upd b k r2

/-- A step of the second transformation. All operations are modulo `2^32`. -/
def second (k : Nat) (b : List Nat) : List Nat :=
  let n := b.length
  let r3 := 1566083941 * T ((el b k + el b (k + p n) + el b (k + n - 1)) % 2 ^ 32) % 2 ^ 32
  let r4 := (((r3 : Int) - (k % n : Nat)) % 2 ^ 32).toNat
  let b := upd b (k + p n) (el b (k + p n) ^^^ r3)
  let b := upd b (k + q n) (el b (k + q n) ^^^ r4)
  upd b k r4

/-- Steps `0` to `k - 1`. -/
def run (step : Nat → List Nat → List Nat) (b : List Nat) : Nat → List Nat
  | 0 => b
  | k + 1 => step k (run step b k)

/-- The generated elements for the seed `v`. -/
def generate (n : Nat) (v : List Nat) : List Nat :=
  let m := max (v.length + 1) n
  let b := run (first v) (List.replicate n 0x8b8b8b8b) m
  run (fun j => second (m + j)) b n

end Verif.SeedSeq.Spec
