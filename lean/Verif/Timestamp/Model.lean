/-
Model of /repo/src/archon/display/noinst/timestamp_unwrapper.hpp.

`N` is the number of bits of the limited-width timestamps, `P` the number of ticks of the secondary
clock per millisecond (10^6 for a clock that counts nanoseconds), and `maxMillis` the largest value of
`std::chrono::milliseconds::rep`, which has `B` value bits (`maxMillis = 2^B - 1`).
-/
namespace Verif.Timestamp

inductive Res where
  /-- Unwrapped timestamp in milliseconds. -/
  | ok (millis : Int)
  /-- `core::int_add()` throws `std::overflow_error`. -/
  | overflow
  /-- Failed assertion. -/
  | abort
deriving DecidableEq, Repr

/-- The data members of `TimestampUnwrapper`: timestamp_unwrapper.hpp:93-95. `none` when there are no
start timestamps. -/
abbrev State := Option (Nat × Int)

/-- `std::chrono::round` (C++17): to nearest, ties to even. `d` is a number of ticks. -/
def chronoRound (P : Int) (d : Int) : Int :=
  let t0 := d / P
  let t1 := t0 + 1
  let diff0 := d - t0 * P
  let diff1 := t1 * P - d
  if diff0 = diff1 then (if t0 % 2 = 1 then t1 else t0)
  else if diff0 < diff1 then t0 else t1

/-- `unwrap_next_timestamp()`: timestamp_unwrapper.hpp:126-158. -/
def unwrapNext (B N : Nat) (P : Int) (st : State) (timestamp : Nat) (timestamp2 : Int) : State × Res :=
  if timestamp ≤ 2 ^ N - 1 then
    if N < B then
      match st with
      | some (start, start2) =>
        if timestamp2 ≥ start2 then
          let millis := chronoRound P (timestamp2 - start2)
          let module : Int := 2 ^ N
          let diff : Int := (timestamp : Int) - (start : Int)
          let sum := millis + (Int.tdiv module 2 - diff)
          if sum ≤ 2 ^ B - 1 ∧ -(2 ^ B) ≤ sum then
            let offset := Int.tdiv sum module * module
            (st, .ok (offset + timestamp))
          else (st, .overflow)
        else (st, .abort)
      | none => (some (timestamp, timestamp2), .ok timestamp)
    else if timestamp ≤ 2 ^ B - 1 then (st, .ok timestamp) else (st, .abort)
  else (st, .abort)

/-- A history of calls (through any number of sessions): limited-width timestamp, and secondary clock. -/
def run (B N : Nat) (P : Int) : List (Nat × Int) → State → List Res
  | [], _ => []
  | (t, t2) :: rest, st =>
    let r := unwrapNext B N P st t t2
    r.2 :: run B N P rest r.1

end Verif.Timestamp
