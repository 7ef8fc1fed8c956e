import Verif.Timer.Spec
import Mathlib.Tactic.Linarith
import Mathlib.Tactic.NormNum
import Mathlib.Tactic.Ring
/-!
Property C220: elapsed time.
-/
namespace Verif.Timer

/-- C220: the elapsed time is the difference between the points in time, or zero if the clock went backwards, unless the
number of whole seconds is too large, in which case it is the largest number of seconds, which is less than the
difference. -/
theorem C220_elapsed (T : Nat) (start time : TimePoint) (hs : Spec.Normal start) (ht : Spec.Normal time) :
    (time.sec - start.sec ≤ 2 ^ T - 1 →
      elapsed T start time = some (max 0 (Spec.seconds time - Spec.seconds start))) ∧
    (2 ^ T - 1 < time.sec - start.sec →
      elapsed T start time = some (2 ^ T - 1) ∧ 2 ^ T - 1 < Spec.seconds time - Spec.seconds start) := by
  obtain ⟨s, n⟩ := start
  obtain ⟨s', n'⟩ := time
  unfold Spec.Normal at hs ht
  unfold elapsed Spec.seconds
  simp only at *
  have hT : (0 : Int) < 2 ^ T := by positivity
  have hn1 : (0 : ℚ) ≤ n := by exact_mod_cast hs.1
  have hn2 : (n : ℚ) < 1000000000 := by exact_mod_cast hs.2
  have hn3 : (0 : ℚ) ≤ n' := by exact_mod_cast ht.1
  have hn4 : (n' : ℚ) < 1000000000 := by exact_mod_cast ht.2
  rw [if_neg (by omega), if_neg (by omega)]
  constructor
  · intro h
    by_cases hge : s' ≥ s
    · have hq : (s : ℚ) ≤ s' := by exact_mod_cast hge
      rw [if_pos hge, if_pos (by omega), if_neg (by omega)]
      by_cases hneg : n' - n < 0
      · have hnq : (n' : ℚ) < n := by
          have : n' < n := by omega
          exact_mod_cast this
        rw [if_pos hneg]
        by_cases hpos : s' - s > 0
        · have hq1 : (s : ℚ) + 1 ≤ s' := by
            have : s + 1 ≤ s' := by omega
            exact_mod_cast this
          rw [if_pos hpos, if_pos (by omega), max_eq_right (by linarith)]
          congr 1
          push_cast
          ring
        · have hq1 : (s' : ℚ) = s := by
            have : s' = s := by omega
            exact_mod_cast this
          rw [if_neg hpos, max_eq_left (by linarith)]
      · have hnq : (n : ℚ) ≤ n' := by
          have : n ≤ n' := by omega
          exact_mod_cast this
        rw [if_neg hneg, max_eq_right (by linarith)]
        congr 1
        push_cast
        ring
    · have hq1 : (s' : ℚ) + 1 ≤ s := by
        have : s' + 1 ≤ s := by omega
        exact_mod_cast this
      rw [if_neg hge, max_eq_left (by linarith)]
  · intro h
    have hq : ((2 : ℚ) ^ T - 1) + 1 ≤ s' - s := by
      have : (2 ^ T - 1 : Int) + 1 ≤ s' - s := by omega
      exact_mod_cast this
    rw [if_pos (by omega), if_neg (by omega)]
    exact ⟨rfl, by linarith⟩

/-- C220: the elapsed time is never negative. -/
theorem C220_nonnegative (T : Nat) (start time : TimePoint) (hs : Spec.Normal start) (ht : Spec.Normal time) :
    ∃ a, elapsed T start time = some a ∧ 0 ≤ a := by
  obtain ⟨h1, h2⟩ := C220_elapsed T start time hs ht
  rcases le_or_gt (time.sec - start.sec) (2 ^ T - 1) with c | c
  · exact ⟨_, h1 c, le_max_left _ _⟩
  · refine ⟨_, (h2 c).1, ?_⟩
    have : (1 : ℚ) ≤ 2 ^ T := one_le_pow₀ (by norm_num)
    linarith

/-- C220: as long as the number of seconds is not too large, the elapsed time does not decrease when the clock does not go
backwards. -/
theorem C220_monotone (T : Nat) (start t t' : TimePoint) (hs : Spec.Normal start) (ht : Spec.Normal t)
    (ht' : Spec.Normal t') (h : Spec.seconds t ≤ Spec.seconds t') (hr : t'.sec - start.sec ≤ 2 ^ T - 1) :
    ∃ a b, elapsed T start t = some a ∧ elapsed T start t' = some b ∧ a ≤ b := by
  have hsec : t.sec ≤ t'.sec := by
    obtain ⟨s, n⟩ := t
    obtain ⟨s', n'⟩ := t'
    unfold Spec.seconds at h
    unfold Spec.Normal at ht ht'
    simp only at *
    have hn1 : (0 : ℚ) ≤ n := by exact_mod_cast ht.1
    have hn4 : (n' : ℚ) < 1000000000 := by exact_mod_cast ht'.2
    have : (s : ℚ) < s' + 1 := by linarith
    have : s < s' + 1 := by exact_mod_cast this
    omega
  exact ⟨_, _, (C220_elapsed T start t hs ht).1 (by omega), (C220_elapsed T start t' hs ht').1 hr,
    max_le_max (le_refl _) (by linarith)⟩

example : elapsed 63 ⟨10, 900000000⟩ ⟨12, 400000000⟩ = some (3 / 2) ∧ elapsed 63 ⟨10, 900000000⟩ ⟨10, 0⟩ = some 0 ∧
    elapsed 31 ⟨-2147483648, 0⟩ ⟨2147483647, 0⟩ = some 2147483647 := by decide +kernel

end Verif.Timer
