import Verif.Timestamp.Model
import Mathlib.Tactic.Linarith
import Mathlib.Tactic.Ring

/-
Property theorems about timestamp unwrapping (claim C40).
-/
namespace Verif.Timestamp

set_option linter.unusedSimpArgs false

/-- The quotient that determines the number of wrap-arounds. -/
theorem tdiv_range (s m k : Int) (hm : 0 < m) (hk : 0 ≤ k) (h1 : k = 0 → -m < s) (h2 : 0 < k → k * m ≤ s)
    (h3 : s < (k + 1) * m) : Int.tdiv s m = k := by
  rcases Int.lt_or_le s 0 with hs | hs
  · have hk0 : k = 0 := by
      rcases Int.lt_or_eq_of_le hk with h | h
      · have h4 := h2 h
        have := Int.mul_pos h hm
        omega
      · exact h.symm
    have h4 := h1 hk0
    subst hk0
    have : s = -(-s) := by omega
    rw [this, Int.neg_tdiv, Int.tdiv_eq_zero_of_lt (by omega) (by omega)]; rfl
  · rw [Int.tdiv_eq_ediv_of_nonneg hs]
    have h4 : k * m ≤ s := by
      rcases Int.lt_or_eq_of_le hk with h | h
      · exact h2 h
      · rw [← h]; simpa using hs
    apply Int.le_antisymm
    · have := Int.ediv_lt_of_lt_mul hm h3
      omega
    · exact (Int.le_ediv_iff_mul_le hm).mpr h4

/-- The value computed from the elapsed time of the secondary clock. -/
theorem offset_correct (N : Nat) (hN : 0 < N) (T0 T : Nat) (hT : T0 ≤ T) (e : Int)
    (he1 : -(2 ^ (N - 1)) ≤ e) (he2 : e < 2 ^ (N - 1)) :
    Int.tdiv (((T : Int) - T0 + e) + (Int.tdiv (2 ^ N) 2 - (((T % 2 ^ N : Nat) : Int) - ((T0 % 2 ^ N : Nat) : Int)))) (2 ^ N) * 2 ^ N
      + ((T % 2 ^ N : Nat) : Int) = (T : Int) - T0 + ((T0 % 2 ^ N : Nat) : Int) := by
  obtain ⟨n, rfl⟩ : ∃ n, N = n + 1 := ⟨N - 1, by omega⟩
  simp only [Nat.add_sub_cancel] at he1 he2
  have hpow : (2 : Int) ^ (n + 1) = 2 * 2 ^ n := by rw [Int.pow_succ]; ring
  have hhalf : Int.tdiv ((2 : Int) ^ (n + 1)) 2 = 2 ^ n := by
    rw [hpow, Int.mul_tdiv_cancel_left _ (by decide)]
  have hpos : (0 : Int) < 2 ^ n := Int.pow_pos (by decide)
  have hcast : ((2 ^ (n + 1) : Nat) : Int) = 2 ^ (n + 1) := by simp
  have d1 : (T : Int) = 2 ^ (n + 1) * ((T / 2 ^ (n + 1) : Nat) : Int) + ((T % 2 ^ (n + 1) : Nat) : Int) := by
    rw [← hcast, ← Int.natCast_mul, ← Int.natCast_add, Nat.div_add_mod]
  have d0 : (T0 : Int) = 2 ^ (n + 1) * ((T0 / 2 ^ (n + 1) : Nat) : Int) + ((T0 % 2 ^ (n + 1) : Nat) : Int) := by
    rw [← hcast, ← Int.natCast_mul, ← Int.natCast_add, Nat.div_add_mod]
  have hq : T0 / 2 ^ (n + 1) ≤ T / 2 ^ (n + 1) := Nat.div_le_div_right hT
  have hr0 : ((T0 % 2 ^ (n + 1) : Nat) : Int) < 2 ^ (n + 1) := by
    rw [← hcast]; exact_mod_cast Nat.mod_lt _ (by positivity)
  have hr1 : ((T % 2 ^ (n + 1) : Nat) : Int) < 2 ^ (n + 1) := by
    rw [← hcast]; exact_mod_cast Nat.mod_lt _ (by positivity)
  generalize ((T % 2 ^ (n + 1) : Nat) : Int) = r1 at *
  generalize ((T0 % 2 ^ (n + 1) : Nat) : Int) = r0 at *
  generalize T0 / 2 ^ (n + 1) = q0 at *
  generalize T / 2 ^ (n + 1) = q1 at *
  have hqq : (0 : Int) ≤ (q1 : Int) - q0 := by omega
  have key : Int.tdiv (((T : Int) - T0 + e) + (Int.tdiv (2 ^ (n + 1)) 2 - (r1 - r0))) (2 ^ (n + 1)) = (q1 : Int) - q0 := by
    rw [hhalf, d1, d0]
    have hs : 2 ^ (n + 1) * (q1 : Int) + r1 - (2 ^ (n + 1) * (q0 : Int) + r0) + e + (2 ^ n - (r1 - r0)) =
        ((q1 : Int) - q0) * 2 ^ (n + 1) + (e + 2 ^ n) := by ring
    rw [hs]
    apply tdiv_range _ _ _ (by omega) hqq
    · intro h; rw [h]; omega
    · intro h; omega
    · rw [Int.add_mul]; omega
  rw [key, d1, d0]
  ring

/-- C40. Let the true (unbounded) timestamps be `T0` for the first call and then `Ts`, each no earlier
than `T0`, where only the `N` lowest-order bits are passed. If, for each call, the secondary clock does
not go back before its start, and the elapsed time that it shows (rounded to milliseconds) deviates from
the true elapsed time by less than half a period (or is half a period behind), and if the
corrected time is representable, then every unwrapped timestamp is the true timestamp minus the same
constant. Any number of wrap-arounds can happen between calls. -/
theorem C40_unwrap (B N : Nat) (P : Int) (hN : 0 < N) (hB : N < B) (T0 : Nat) (c0 : Int) (calls : List (Nat × Int))
    (hT : ∀ x ∈ calls, T0 ≤ x.1) (hc : ∀ x ∈ calls, c0 ≤ x.2)
    (he : ∀ x ∈ calls, -(2 ^ (N - 1)) ≤ chronoRound P (x.2 - c0) - ((x.1 : Int) - T0) ∧
      chronoRound P (x.2 - c0) - ((x.1 : Int) - T0) < 2 ^ (N - 1))
    (hfit : ∀ x ∈ calls, chronoRound P (x.2 - c0) + 2 ^ N + 2 ^ (N - 1) ≤ 2 ^ B) :
    run B N P (((T0 % 2 ^ N, c0)) :: calls.map (fun x => (x.1 % 2 ^ N, x.2))) none =
      .ok ((T0 % 2 ^ N : Nat) : Int) ::
        calls.map (fun x => .ok ((x.1 : Int) - (T0 - ((T0 % 2 ^ N : Nat) : Int)))) := by
  have hmod : ∀ t : Nat, t % 2 ^ N ≤ 2 ^ N - 1 := by
    intro t
    have := Nat.mod_lt t (show 2 ^ N > 0 by positivity)
    omega
  have hstart : unwrapNext B N P none (T0 % 2 ^ N) c0 = (some (T0 % 2 ^ N, c0), .ok ((T0 % 2 ^ N : Nat) : Int)) := by
    simp only [unwrapNext, if_pos (hmod T0), if_pos hB]
  simp only [run, hstart]
  congr 1
  clear hstart
  induction calls with
  | nil => rfl
  | cons x calls ih =>
    obtain ⟨T, c⟩ := x
    have h1 := hT (T, c) List.mem_cons_self
    have h2 := hc (T, c) List.mem_cons_self
    obtain ⟨h3, h4⟩ := he (T, c) List.mem_cons_self
    have h5 := hfit (T, c) List.mem_cons_self
    simp only at h1 h2 h3 h4 h5
    have hoff := offset_correct N hN T0 T h1 (chronoRound P (c - c0) - ((T : Int) - T0)) h3 h4
    rw [show (T : Int) - T0 + (chronoRound P (c - c0) - ((T : Int) - T0)) = chronoRound P (c - c0) by ring] at hoff
    have hstep : unwrapNext B N P (some (T0 % 2 ^ N, c0)) (T % 2 ^ N) c =
        (some (T0 % 2 ^ N, c0), .ok ((T : Int) - (T0 - ((T0 % 2 ^ N : Nat) : Int)))) := by
      simp only [unwrapNext, if_pos (hmod T), if_pos hB, ge_iff_le, if_pos h2]
      have hn1 := hmod T
      have hn0 := hmod T0
      have hcast : ((2 ^ N : Nat) : Int) = 2 ^ N := by simp
      have hp : 0 < 2 ^ N := by positivity
      have hhalf : Int.tdiv ((2 : Int) ^ N) 2 = 2 ^ (N - 1) := by
        obtain ⟨n, rfl⟩ : ∃ n, N = n + 1 := ⟨N - 1, by omega⟩
        rw [show (2 : Int) ^ (n + 1) = 2 * 2 ^ n by rw [Int.pow_succ]; ring, Int.mul_tdiv_cancel_left _ (by decide)]
        simp
      have hBN : (2 : Int) ^ N ≤ 2 ^ B := by
        exact_mod_cast Nat.pow_le_pow_right (by decide : 0 < 2) (Nat.le_of_lt hB)
      have hhp : (0 : Int) < 2 ^ (N - 1) := Int.pow_pos (by decide)
      have hNN : (2 : Int) ^ N = 2 * 2 ^ (N - 1) := by
        obtain ⟨n, rfl⟩ : ∃ n, N = n + 1 := ⟨N - 1, by omega⟩
        rw [Int.pow_succ]; simp; ring
      rw [if_pos]
      · rw [hoff]; congr 2; ring
      · rw [hhalf]
        rw [← hcast] at hBN h5 hNN
        constructor <;> omega
    simp only [List.map_cons, run, hstep]
    congr 1
    exact ih (fun x hx => hT x (List.mem_cons_of_mem _ hx)) (fun x hx => hc x (List.mem_cons_of_mem _ hx))
      (fun x hx => he x (List.mem_cons_of_mem _ hx)) (fun x hx => hfit x (List.mem_cons_of_mem _ hx))

/-- C40, consequence: differences between unwrapped timestamps are the true differences. -/
theorem C40_no_jump (B N : Nat) (P : Int) (hN : 0 < N) (hB : N < B) (T0 : Nat) (c0 : Int) (calls : List (Nat × Int))
    (hT : ∀ x ∈ calls, T0 ≤ x.1) (hc : ∀ x ∈ calls, c0 ≤ x.2)
    (he : ∀ x ∈ calls, -(2 ^ (N - 1)) ≤ chronoRound P (x.2 - c0) - ((x.1 : Int) - T0) ∧
      chronoRound P (x.2 - c0) - ((x.1 : Int) - T0) < 2 ^ (N - 1))
    (hfit : ∀ x ∈ calls, chronoRound P (x.2 - c0) + 2 ^ N + 2 ^ (N - 1) ≤ 2 ^ B) (i j : Nat)
    (hi : i < calls.length) (hj : j < calls.length) :
    ∃ u v, (run B N P (((T0 % 2 ^ N, c0)) :: calls.map (fun x => (x.1 % 2 ^ N, x.2))) none)[i + 1]? = some (.ok u) ∧
      (run B N P (((T0 % 2 ^ N, c0)) :: calls.map (fun x => (x.1 % 2 ^ N, x.2))) none)[j + 1]? = some (.ok v) ∧
      v - u = (calls[j].1 : Int) - calls[i].1 := by
  rw [C40_unwrap B N P hN hB T0 c0 calls hT hc he hfit]
  refine ⟨(calls[i].1 : Int) - (T0 - ((T0 % 2 ^ N : Nat) : Int)), (calls[j].1 : Int) - (T0 - ((T0 % 2 ^ N : Nat) : Int)),
    ?_, ?_, ?_⟩
  · simp [List.getElem?_cons_succ, hi]
  · simp [List.getElem?_cons_succ, hj]
  · omega

/-- C40: rounding of the secondary clock is by at most half a millisecond, so that an error bound on the
clock itself carries over. -/
theorem C40_round (P d : Int) (hP : 0 < P) : 2 * |chronoRound P d * P - d| ≤ P := by
  have h1 := Int.emod_add_mul_ediv d P
  have h2 := Int.emod_nonneg d (show P ≠ 0 by omega)
  have h3 := Int.emod_lt_of_pos d hP
  have h4 : d / P * P = P * (d / P) := Int.mul_comm _ _
  have h5 : (d / P + 1) * P = P * (d / P) + P := by ring
  unfold chronoRound
  simp only
  split
  · split
    · rw [abs_of_nonneg (by omega)]; omega
    · rw [abs_of_nonpos (by omega)]; omega
  · split
    · rw [abs_of_nonpos (by omega)]; omega
    · rw [abs_of_nonneg (by omega)]; omega

/-- The error bound is exact: at half a period ahead, the result is off by one period. -/
theorem C40_bound_is_exact : ∃ (T0 T : Nat) (c0 c : Int), T0 ≤ T ∧ c0 ≤ c ∧
    chronoRound 1000000 (c - c0) - ((T : Int) - T0) = 2 ^ 31 ∧
    run 63 32 1000000 [(T0 % 2 ^ 32, c0), (T % 2 ^ 32, c)] none = [.ok T0, .ok ((T : Int) + 2 ^ 32)] :=
  ⟨5, 7, 0, (2 ^ 31 + 2) * 1000000, by decide +kernel⟩

/-- Three wrap-arounds of a 32-bit counter between two calls, with clocks that disagree by a day. -/
example : run 63 32 1000000 [(4294967290, 0), ((13 * 2 ^ 30 + 5) % 2 ^ 32, (13 * 2 ^ 30 + 5 - 4294967290 + 86400000) * 1000000)] none =
    [.ok 4294967290, .ok (13 * 2 ^ 30 + 5)] := by decide +kernel

end Verif.Timestamp
