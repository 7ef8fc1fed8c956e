import Verif.WordWrap.Greedy
import Verif.WordWrap.Main
/-!
Properties of word wrapping.
-/
namespace Verif.WordWrap
open Spec

/-! ### Greedy wrapping -/

/-- C67: As many words as possible are put on the first line, then as many as possible on the second line, and so on. -/
theorem C67_greedy (env : Env) (ok : Ok env) (hn : 0 < env.words.length) :
    ∃ bs, greedy env = some bs ∧ (text env).Valid 0 0 bs ∧ (text env).Greedy 0 0 bs :=
  greedy_spec ok hn

/-- C67: That determines the result. -/
theorem C67_unique (env : Env) (ok : Ok env) (hn : 0 < env.words.length) {bs : List Nat} (hv : (text env).Valid 0 0 bs) (hg : (text env).Greedy 0 0 bs) :
    greedy env = some bs := by
  obtain ⟨bs', h1, h2, h3⟩ := greedy_spec ok hn
  rw [h1, greedy_unique h2 h3 hv hg]

/-- C67: No way to break the words into lines needs fewer lines. -/
theorem C67_fewest (env : Env) (ok : Ok env) (hn : 0 < env.words.length) {bs bs' : List Nat} (h : greedy env = some bs) (hv : (text env).Valid 0 0 bs') :
    bs.length ≤ bs'.length := by
  obtain ⟨bs'', h1, h2, h3⟩ := greedy_spec ok hn
  rw [h] at h1; injection h1 with h1; subst h1
  exact greedy_fewest (le_refl _) h2 h3 hv

/-- C67: Without words there are no breaks. -/
theorem C67_empty (env : Env) (h : env.words = []) : greedy env = some [] := by
  unfold greedy
  rw [if_pos (by rw [h]; decide)]

/-- Words of sizes 3, 2, 2 and 5 with one character of space before each one except the first. -/
def sample (lines : List Geom) (badMax : Nat) : Env :=
  ⟨[⟨0, 3⟩, ⟨1, 2⟩, ⟨1, 2⟩, ⟨1, 5⟩], 0, lines, 0, 1000, badMax⟩

example : greedy (sample [⟨6, 0⟩] 1000) = some [2, 3] := by decide +kernel
example : greedy (sample [⟨3, 1⟩, ⟨5, 0⟩] 1000) = some [1, 3] := by decide +kernel
example : greedy (sample [⟨0, 0⟩] 1000) = some [1, 2, 3] := by decide +kernel

/-! ### Knuth's algorithm -/

/-- C68: The algorithm terminates without undefined behavior. -/
theorem C68_terminates (env : Env) (ok : Ok env) (hbad : 0 < env.badMax) : ∃ N, ∀ fuel b, N ≤ fuel → ∃ o, knuth env fuel b = some o := by
  by_cases hn : env.words.length < 2
  · exact ⟨0, fun fuel b _ => ⟨.ok [] b, by unfold knuth; rw [if_pos hn]⟩⟩
  · obtain ⟨N, ⟨bs, _, _, _, h⟩ | ⟨_, h⟩⟩ := knuth_spec ok hbad (show 2 ≤ env.words.length by omega)
    · exact ⟨N, fun fuel b hf => ⟨_, h fuel b hf⟩⟩
    · exact ⟨N, fun fuel b hf => ⟨_, h fuel b hf⟩⟩

/-- C68: The result of wrapping is a way to break the words into lines for which the sum of the squares of the gaps is as small as
possible. -/
theorem C68_optimal (env : Env) (ok : Ok env) (hbad : 0 < env.badMax) (hn : 0 < env.words.length) {fuel b v : Nat} {bs : List Nat}
    (h : knuth env fuel b = some (.ok bs v)) :
    (text env).Valid 0 0 bs ∧ ∀ bs', (text env).Valid 0 0 bs' → (text env).badness 0 0 bs ≤ (text env).badness 0 0 bs' := by
  by_cases hn2 : env.words.length < 2
  · unfold knuth at h
    rw [if_pos hn2] at h
    injection h with h; injection h with h1 _
    subst h1
    exact ⟨⟨hn, .inl (show env.words.length = 0 + 1 by omega)⟩, fun _ _ => Nat.zero_le _⟩
  · obtain ⟨N, ⟨bs1, a1, _, a2, a3⟩ | ⟨_, a2⟩⟩ := knuth_spec ok hbad (show 2 ≤ env.words.length by omega)
    · have e := knuth_mono h (le_max_right N fuel)
      rw [a3 _ b (le_max_left _ _)] at e
      injection e with e; injection e with e1 _
      rw [← e1]; exact ⟨a1, a2⟩
    · have e := knuth_mono h (le_max_right N fuel)
      rw [a2 _ b (le_max_left _ _)] at e
      injection e with e; cases e

/-- C68: An exception is thrown only when no way to break the words into lines has a sum that is less than the largest value of the
badness type. -/
theorem C68_overflow (env : Env) (ok : Ok env) (hbad : 0 < env.badMax) {fuel b : Nat} (h : knuth env fuel b = some .overflow) :
    ∀ bs, (text env).Valid 0 0 bs → env.badMax ≤ (text env).badness 0 0 bs := by
  by_cases hn2 : env.words.length < 2
  · unfold knuth at h
    rw [if_pos hn2] at h
    injection h with h; cases h
  · obtain ⟨N, ⟨bs1, a1, _, a2, a3⟩ | ⟨a1, _⟩⟩ := knuth_spec ok hbad (show 2 ≤ env.words.length by omega)
    · have e := knuth_mono h (le_max_right N fuel)
      rw [a3 _ b (le_max_left _ _)] at e
      injection e with e; cases e
    · exact a1

/-- C68: In particular, the result is never worse than that of the greedy algorithm. -/
theorem C68_greedy (env : Env) (ok : Ok env) (hbad : 0 < env.badMax) (hn : 0 < env.words.length) {fuel b v : Nat} {bs bs' : List Nat}
    (h : knuth env fuel b = some (.ok bs v)) (hg : greedy env = some bs') : (text env).badness 0 0 bs ≤ (text env).badness 0 0 bs' := by
  obtain ⟨bs'', h1, h2, _⟩ := greedy_spec ok hn
  rw [hg] at h1; injection h1 with h1; subst h1
  exact (C68_optimal env ok hbad hn h).2 _ h2

example : knuth (sample [⟨6, 0⟩] 1000) 100 7 = some (.ok [1, 3] 10) := by decide +kernel
example : knuth (sample [⟨10, 1⟩, ⟨5, 0⟩] 1000) 100 7 = some (.ok [3] 1) := by decide +kernel
example : knuth (sample [⟨6, 0⟩] 10) 100 7 = some .overflow := by decide +kernel
example : knuth (sample [⟨6, 0⟩] 11) 100 7 = some (.ok [1, 3] 10) := by decide +kernel

/-- C69: What is reported after wrapping of less than two words is what was reported before. -/
theorem C69_stale (env : Env) (h : env.words.length < 2) (fuel b : Nat) : knuth env fuel b = some (.ok [] b) := by
  unfold knuth
  rw [if_pos h]

/-- C69: Without any gap that counts, the reported value need not be zero. -/
theorem C69_negation : ∃ env : Env, Ok env ∧ env.words.length = 1 ∧ (text env).Valid 0 0 [] ∧ (text env).badness 0 0 [] = 0 ∧
    ∀ fuel, knuth env fuel 10 = some (.ok [] 10) := by
  refine ⟨⟨[⟨0, 3⟩], 0, [⟨6, 0⟩], 0, 1000, 1000⟩, ⟨by decide, by decide, by decide⟩, rfl, ⟨by decide, .inl rfl⟩, rfl, fun fuel => C69_stale _ (by decide) _ _⟩

/-- C69: What is reported after wrapping of two or more words is the sum of the squares of the gaps, and it is less than the largest
value of the badness type. -/
theorem C69_badness_partial (env : Env) (ok : Ok env) (hbad : 0 < env.badMax) (hn : 2 ≤ env.words.length) {fuel b v : Nat} {bs : List Nat}
    (h : knuth env fuel b = some (.ok bs v)) : v = (text env).badness 0 0 bs ∧ v < env.badMax := by
  obtain ⟨N, ⟨bs1, _, a1, _, a3⟩ | ⟨_, a2⟩⟩ := knuth_spec ok hbad hn
  · have e := knuth_mono h (le_max_right N fuel)
    rw [a3 _ b (le_max_left _ _)] at e
    injection e with e; injection e with e1 e2
    rw [← e1, ← e2]; exact ⟨rfl, a1⟩
  · have e := knuth_mono h (le_max_right N fuel)
    rw [a2 _ b (le_max_left _ _)] at e
    injection e with e; cases e

example : Ok (sample [⟨6, 0⟩] 1000) := ⟨by decide, by decide, by decide⟩

end Verif.WordWrap
