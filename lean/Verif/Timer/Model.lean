import Mathlib.Algebra.Order.Field.Rat
/-!
Model of `core::Timer::get_elapsed_time()` in /repo/src/archon/core/timer.cpp, when the system has `clock_gettime()`.

`T` is the number of value bits of `std::time_t`, which is assumed to be signed. Simplified: the final conversion and
addition of floating-point numbers are exact.
-/
namespace Verif.Timer

/-- `struct timespec`: timer.hpp:161-164, `timespec`. -/
structure TimePoint where
  sec : Int
  nsec : Int

/-- `Timer::get_elapsed_time()`: timer.cpp:197-222. The assertions are that `nsec` is at least zero and less than
1000000000. The result is `none` if an assertion fails. -/
def elapsed (T : Nat) (start time : TimePoint) : Option ℚ :=
  if ¬ (time.nsec ≥ 0 ∧ time.nsec < 1000000000) then none
  else if ¬ (start.nsec ≥ 0 ∧ start.nsec < 1000000000) then none
  else if time.sec ≥ start.sec then
    let sec := time.sec - start.sec
    if -2 ^ T ≤ sec ∧ sec ≤ 2 ^ T - 1 then
      if sec < 0 then none
      else
        let nsec := time.nsec - start.nsec
        if nsec < 0 then
          if sec > 0 then
            let sec := sec - 1
            let nsec := nsec + 1000000000
            if nsec > 0 then some ((sec : ℚ) + (nsec : ℚ) / 1000000000) else none
          else some 0
        else some ((sec : ℚ) + (nsec : ℚ) / 1000000000)
    else some (2 ^ T - 1)
  else some 0

end Verif.Timer
