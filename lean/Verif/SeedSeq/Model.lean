import Verif.MulPrec.Model
/-!
Model of `SeedSeq::generate()`: /repo/src/archon/core/random.hpp:524-593.

`W` is the width of the element type of the destination, and `B` is the width of `std::size_t`. Unsigned arithmetic on operands of these types, and
of `unsigned int`, is modulo `2^W` when `std::size_t` is not involved, and modulo `2^C` otherwise, where `C` is the larger of the two widths (this
assumes that `unsigned int` is not wider than the element type). `none` stands for undefined behavior, or for an exception due to overflow.
-/
namespace Verif.SeedSeq
open Verif.MulPrec

structure Env where
  W : Nat
  B : Nat
  /-- The size of the destination. -/
  n : Nat

/-- The width of arithmetic that involves both types. -/
def Env.C (e : Env) : Nat := max e.W e.B

/-- random.hpp:542-546. -/
def Env.t (e : Env) : Nat := if e.n ≥ 623 then 11 else if e.n ≥ 68 then 7 else if e.n ≥ 39 then 5 else if e.n ≥ 7 then 3 else (e.n - 1) / 2

/-- random.hpp:547. -/
def Env.p (e : Env) : Nat := (e.n - e.t) / 2

/-- random.hpp:548. -/
def Env.q (e : Env) : Nat := e.p + e.t

/-- `mod()`: random.hpp:550-552. -/
def mod (val : Nat) : Nat := val &&& (2 ^ 32 - 1)

/-- An index expression `(k + d) % n`, where the addition is that of `std::size_t`. -/
def idx (e : Env) (k d : Nat) : Nat := (k + d) % 2 ^ e.B % e.n

/-- The index expression `(k - 1) % n`, where the subtraction is that of `std::size_t`. -/
def idxPrev (e : Env) (k : Nat) : Nat := (k + (2 ^ e.B - 1)) % 2 ^ e.B % e.n

/-- The body of the loop in `integrate()`: random.hpp:557-563. -/
def integrateStep (e : Env) (f : Nat → Nat → Nat → Option Nat) (k i : Nat) (b : List Nat) : Option (List Nat) := do
  let arg := (← rd b (k % e.n)) ^^^ (← rd b (idx e k e.p)) ^^^ (← rd b (idxPrev e k))
  let r1 := 1664525 * (arg ^^^ (mod arg >>> 27)) % 2 ^ e.W
  let r2 ← f r1 k i
  let b ← wr b (idx e k e.p) (mod (((← rd b (idx e k e.p)) + r1) % 2 ^ e.W))
  let b ← wr b (idx e k e.q) (mod (((← rd b (idx e k e.q)) + r2) % 2 ^ e.C))
  wr b (k % e.n) (mod r2)

/-- `integrate()`: random.hpp:555-566. The arguments after `m` are the number of steps that remain, and `i`. -/
def integrate (e : Env) (f : Nat → Nat → Nat → Option Nat) (m : Nat) : Nat → Nat → List Nat → Option (List Nat)
  | 0, _, b => some b
  | s + 1, i, b => do integrate e f m s (i + 1) (← integrateStep e f ((m + i) % 2 ^ e.B) i b)

/-- `core::int_add()` for `std::size_t`. It throws on overflow. -/
def sizeAdd (e : Env) (a b : Nat) : Option Nat := if a + b < 2 ^ e.B then some (a + b) else none

/-- Integration of the parts of the seed: random.hpp:573-577. -/
def integrateSeeds (e : Env) : List (List Nat) → Nat → List Nat → Option (Nat × List Nat)
  | [], m, b => some (m, b)
  | seq :: seqs, m, b => do
    let b ← integrate e (fun r k i => do some (((r + k % e.n) % 2 ^ e.C + (← rd seq i)) % 2 ^ e.C)) m seq.length 0 b
    integrateSeeds e seqs (← sizeAdd e m seq.length) b

/-- Completion of the first transformation: random.hpp:579-583. -/
def complete (e : Env) (m : Nat) (b : List Nat) : Option (Nat × List Nat) :=
  if e.n > m then do
    let b ← integrate e (fun r k _ => some ((r + k % e.n) % 2 ^ e.C)) m (e.n - m) 0 b
    some (← sizeAdd e m (e.n - m), b)
  else some (m, b)

/-- The body of the final loop: random.hpp:586-591. -/
def finalStep (e : Env) (k : Nat) (b : List Nat) : Option (List Nat) := do
  let arg := (((← rd b (k % e.n)) + (← rd b (idx e k e.p))) % 2 ^ e.W + (← rd b (idxPrev e k))) % 2 ^ e.W
  let r1 := 1566083941 * (arg ^^^ (mod arg >>> 27)) % 2 ^ e.W
  let r2 := (r1 + (2 ^ e.C - k % e.n)) % 2 ^ e.C
  let b ← wr b (idx e k e.p) (mod ((← rd b (idx e k e.p)) ^^^ r1))
  let b ← wr b (idx e k e.q) (mod ((← rd b (idx e k e.q)) ^^^ r2))
  wr b (k % e.n) (mod r2)

/-- The final loop: random.hpp:585-592. The last but one argument is the number of steps that remain. -/
def final (e : Env) : Nat → Nat → List Nat → Option (List Nat)
  | _, 0, b => some b
  | k, s + 1, b => do final e (k + 1) s (← finalStep e k b)

/-- `SeedSeq::size()`: random.cpp:84-92. -/
def size (e : Env) : List (List Nat) → Option Nat → Option Nat
  | [], s => s
  | seq :: seqs, s => size e seqs (s.bind (sizeAdd e · seq.length))

/-- `SeedSeq::generate()`: random.hpp:524-593. The argument is the initial seed sequence, which can be in several places. -/
def generate (e : Env) (seqs : List (List Nat)) : Option (List Nat) :=
  if e.n = 0 then some []
  else do
    let b := List.replicate e.n (0x8B8B8B8B % 2 ^ e.W)
    let u ← size e seqs (some 0)
    let b ← integrate e (fun r _ _ => some ((r + u) % 2 ^ e.C)) 0 1 0 b
    let m ← sizeAdd e 0 1
    let (m, b) ← integrateSeeds e seqs m b
    let (m, b) ← complete e m b
    final e m ((m + e.n) % 2 ^ e.B - m) b

end Verif.SeedSeq
