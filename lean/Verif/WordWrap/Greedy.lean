import Verif.WordWrap.Arg
import Mathlib.Algebra.Order.BigOperators.Group.Finset
import Mathlib.Algebra.Order.Ring.Nat
/-!
Proofs about the greedy algorithm.
-/
namespace Verif.WordWrap
open Spec

variable {env : Env}

theorem another_spec {l i k cur : Nat} {word : Word} (hik : i < k) (hk : k < env.words.length) (hw : env.words[k]? = some word)
    (hc : CurOk env l i k cur) :
    match another env ((text env).line l) cur k word with
    | some cur' => cur' = (text env).width i (k + 1) ∧ (text env).width i (k + 1) ≤ (text env).line l
    | none => (text env).line l < (text env).width i (k + 1) := by
  obtain ⟨word', w1, w2, w3⟩ := word_get hk
  rw [hw] at w1; injection w1 with w1; subst w1
  have hs := width_succ (text env) hik (show k < (text env).n from hk)
  rw [← w2, ← w3] at hs
  have hn : (text env).n = env.words.length := rfl
  have ht : (text env).trailing = env.trailing := rfl
  rw [hn, ht] at hs
  have hm := width_le_succ (text env) hik (show k < (text env).n from hk)
  unfold another
  by_cases h1 : (text env).line l ≥ cur
  · have := curOk_fit hc h1
    rw [if_pos h1]
    simp only
    by_cases h2 : (text env).line l - cur ≥ word.size
    · rw [if_pos h2]
      by_cases h3 : (text env).line l - cur - word.size ≥ word.space
      · rw [if_pos h3]
        by_cases h4 : k ≠ env.words.length - 1
        · rw [if_pos h4]
          rw [if_neg (by omega)] at hs
          simp only
          omega
        · rw [if_neg h4]
          rw [if_pos (by omega)] at hs
          by_cases h5 : (text env).line l - cur - word.size - word.space ≥ env.trailing
          · rw [if_pos h5]; simp only; omega
          · rw [if_neg h5]; simp only; omega
      · rw [if_neg h3]; simp only; omega
    · rw [if_neg h2]; simp only; omega
  · rw [if_neg h1]
    have := curOk_not_fit hc (by omega)
    simp only; omega

theorem greedyLoop_spec (ok : Ok env) : ∀ (fuel k l i cur : Nat), env.words.length - k ≤ fuel → k < env.words.length → i ≤ k →
    (text env).fits l i (k + 1) → (k + 1 < env.words.length → CurOk env l i (k + 1) cur) →
    ∃ bs, greedyLoop env fuel k (geomAt env l) ((text env).line l) cur = some bs ∧ (text env).Valid l i bs ∧ (text env).Greedy l i bs := by
  intro fuel
  induction fuel with
  | zero => intro k l i cur h1 h2; omega
  | succ fuel ih =>
    intro k l i cur hf hk hik hfit hc
    rw [greedyLoop]
    by_cases hn : k + 1 < env.words.length
    · obtain ⟨word, w1, w2, w3⟩ := word_get hn
      have ha := another_spec (l := l) (by omega) hn w1 (hc hn)
      simp only [if_pos hn, w1, Option.bind_eq_bind, Option.bind_some]
      cases hr : another env ((text env).line l) cur (k + 1) word with
      | some cur' =>
        rw [hr] at ha
        exact ih (k + 1) l i cur' (by omega) hn (by omega) (.inr ha.2) (fun _ => .inl ha.1)
      | none =>
        rw [hr] at ha
        obtain ⟨g, g1, _, g3, _⟩ := geom_get ok l
        obtain ⟨cur', f1, f2⟩ := firstWord_spec ok (l := l + 1) hn
        obtain ⟨bs, b1, b2, b3⟩ := ih (k + 1) (l + 1) (k + 1) cur' (by omega) hn (by omega) (.inl rfl) f2
        refine ⟨(k + 1) :: bs, ?_, ⟨by omega, hfit, b2⟩, ⟨?_, b3⟩⟩
        · rw [← g3] at f1 b1
          simp only [g1, f1, b1, Option.bind_some]
        · rintro (h | h)
          · omega
          · have : (text env).line l < (text env).width i (k + 1 + 1) := ha
            omega
    · rw [if_neg hn]
      refine ⟨[], rfl, ⟨?_, ?_⟩, trivial⟩
      · show i < env.words.length; omega
      · show (text env).fits l i env.words.length
        rwa [show env.words.length = k + 1 by omega]

theorem greedy_spec (ok : Ok env) (hn : 0 < env.words.length) :
    ∃ bs, greedy env = some bs ∧ (text env).Valid 0 0 bs ∧ (text env).Greedy 0 0 bs := by
  unfold greedy
  by_cases h : env.words.length < 2
  · rw [if_pos h]
    refine ⟨[], rfl, ⟨hn, .inl ?_⟩, trivial⟩
    show env.words.length = 0 + 1; omega
  · rw [if_neg h]
    obtain ⟨cur, f1, f2⟩ := firstWord_spec ok (l := 0) hn
    have f1' : firstWord env env.first 0 = some ((text env).line 0, cur) := f1
    rw [f1']
    exact greedyLoop_spec ok env.words.length 0 0 0 cur (by omega) hn (by omega) (.inl rfl) f2

/-- There is only one way to put as many words as possible on each line. -/
theorem greedy_unique {t : Text} : ∀ {l i : Nat} {bs bs' : List Nat}, t.Valid l i bs → t.Greedy l i bs → t.Valid l i bs' → t.Greedy l i bs' → bs = bs' := by
  intro l i bs
  induction bs generalizing l i with
  | nil =>
    intro bs' v g v' g'
    cases bs' with
    | nil => rfl
    | cons j js =>
      have := valid_bound v'.2.2
      exact absurd (fits_mono (by have := v'.1; omega) (show j + 1 ≤ t.n by omega) (le_refl _) v.2) g'.1
  | cons j js ih =>
    intro bs' v g v' g'
    have hj := valid_bound v.2.2
    cases bs' with
    | nil => exact absurd (fits_mono (by have := v.1; omega) (show j + 1 ≤ t.n by omega) (le_refl _) v'.2) g.1
    | cons j' js' =>
      have hj' := valid_bound v'.2.2
      have : j = j' := by
        rcases Nat.lt_trichotomy j j' with h | h | h
        · exact absurd (fits_mono (by have := v.1; omega) h (by omega) v'.2.1) g.1
        · exact h
        · exact absurd (fits_mono (by have := v'.1; omega) h (by omega) v.2.1) g'.1
      subst this
      rw [ih v.2.2 g.2 v'.2.2 g'.2]

theorem width_left (t : Text) {i i' j : Nat} (h1 : i' ≤ i) (h2 : i < j) : t.width i j ≤ t.width i' j := by
  unfold Text.width
  have a1 : ∑ k ∈ Finset.Ico i j, t.size k ≤ ∑ k ∈ Finset.Ico i' j, t.size k :=
    Finset.sum_le_sum_of_subset (Finset.Ico_subset_Ico h1 (le_refl _))
  have a2 : ∑ k ∈ Finset.Ico (i + 1) j, t.space k ≤ ∑ k ∈ Finset.Ico (i' + 1) j, t.space k :=
    Finset.sum_le_sum_of_subset (Finset.Ico_subset_Ico (by omega) (le_refl _))
  have a3 : (if i = 0 then t.space 0 else 0) ≤ (if i' = 0 then t.space 0 else 0) := by
    by_cases h : i = 0
    · have : i' = 0 := by omega
      rw [if_pos h, if_pos this]
    · rw [if_neg h]; omega
  omega

theorem fits_left {t : Text} {l i i' j : Nat} (h1 : i' ≤ i) (h2 : i < j) (h : t.fits l i' j) : t.fits l i j := by
  rcases h with h | h
  · left; omega
  · right; exact le_trans (width_left t h1 h2) h

/-- No other way needs fewer lines. -/
theorem greedy_fewest {t : Text} : ∀ {l i i' : Nat} {bs bs' : List Nat}, i' ≤ i → t.Valid l i bs → t.Greedy l i bs → t.Valid l i' bs' → bs.length ≤ bs'.length := by
  intro l i i' bs
  induction bs generalizing l i i' with
  | nil => intro bs' _ _ _ _; simp
  | cons j js ih =>
    intro bs' hi v g v'
    have hj := valid_bound v.2.2
    have h1 := v.1
    cases bs' with
    | nil => exact absurd (fits_mono (by omega) (show j + 1 ≤ t.n by omega) (le_refl _) (fits_left hi (by omega) v'.2)) g.1
    | cons j' js' =>
      have hj' := valid_bound v'.2.2
      have : j' ≤ j := by
        by_contra h
        exact absurd (fits_mono (by omega) (show j + 1 ≤ j' by omega) (by omega) (fits_left hi (by omega) v'.2.1)) g.1
      have := ih this v.2.2 g.2 v'.2.2
      simp only [List.length_cons]; omega

end Verif.WordWrap
