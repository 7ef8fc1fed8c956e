import Verif.Perlin.Lemmas

/-!
# The second half of the computation of Perlin noise
-/

namespace Verif.Perlin

open Spec

section

variable {N : ℕ}

/-- Contribution of a vertex. -/
noncomputable def contrib (s : Noise N) (x : Fin N → ℝ) (v : Fin N → ℕ) : ℝ :=
  ∑ i, s.gradients (linear N s.gridSize v) i * (x i - v i)

/-- Interpolation along the first `d` axes. -/
noncomputable def interp (I : Interp) (k : Fin N → ℕ) (t : Fin N → ℝ) (F : (Fin N → ℕ) → ℝ) : ℕ → (Fin N → ℕ) → ℝ
  | 0, v => F v
  | d + 1, v =>
    if h : d < N then
      interpolate I (interp I k t F d (Function.update v ⟨d, h⟩ (k ⟨d, h⟩))) (interp I k t F d (Function.update v ⟨d, h⟩ (k ⟨d, h⟩ + 1))) (t ⟨d, h⟩)
    else interp I k t F d v

/-- Indexes of the gradients that are accessed. -/
def accesses (k size : Fin N → ℕ) : ℕ → (Fin N → ℕ) → List ℕ
  | 0, v => [linear N size v]
  | d + 1, v =>
    if h : d < N then
      accesses k size d (Function.update v ⟨d, h⟩ (k ⟨d, h⟩)) ++ accesses k size d (Function.update v ⟨d, h⟩ (k ⟨d, h⟩ + 1))
    else accesses k size d v

theorem linear_update (size v : Fin N → ℕ) (j : Fin N) :
    linear N size (Function.update v j (v j + 1)) = linear N size v + stride size j.val := by
  rw [linear_eq, linear_eq, ← Finset.add_sum_erase Finset.univ _ (Finset.mem_univ j),
    ← Finset.add_sum_erase (a := j) Finset.univ (fun i => stride size i.val * v i) (Finset.mem_univ _)]
  rw [Function.update_self]
  have : ∑ i ∈ Finset.univ.erase j, stride size i.val * Function.update v j (v j + 1) i = ∑ i ∈ Finset.univ.erase j, stride size i.val * v i := by
    apply Finset.sum_congr rfl
    intro i hi
    rw [Function.update_of_ne (Finset.mem_erase.mp hi).1]
  rw [this]
  ring

theorem exec_interp (I : Interp) (s : Noise N) (k : Fin N → ℕ) (t : Fin N → ℝ) (d : ℕ) (hd : d ≤ N) :
    ∀ (v : Fin N → ℕ), (∀ i : Fin N, i.val < d → v i = k i) → ∀ (fuel dim : ℕ) (val : ℝ) (stack : Fin N → ℝ) (acc : List ℕ),
    ∃ stack' : Fin N → ℝ, (∀ i : Fin N, d ≤ i.val → stack' i = stack i) ∧
      s.exec I t (fun i => stride s.gridSize i.val) (fuel + (3 * 2 ^ d - 2))
        (.enter, { index := linear N s.gridSize v, vecShift := fun i => (v i : ℝ) - k i, dim := dim, val := val, stack := stack }) acc =
      s.exec I t (fun i => stride s.gridSize i.val) fuel
        (.leave, { index := linear N s.gridSize v, vecShift := fun i => (v i : ℝ) - k i, dim := d,
                   val := interp I k t (contrib s fun i => k i + t i) d v, stack := stack' }) (acc ++ accesses k s.gridSize d v) := by
  induction d with
  | zero =>
    intro v hv fuel dim val stack acc
    refine ⟨stack, fun _ _ => rfl, ?_⟩
    have e : fuel + (3 * 2 ^ 0 - 2) = fuel + 1 := by norm_num
    rw [e, Noise.exec]
    simp only [Noise.step, interp, accesses, contrib]
    congr 4
    congr 1
    funext i
    simp only [Pi.sub_apply]
    ring
  | succ d ih =>
    intro v hv fuel dim val stack acc
    have hdN : d < N := hd
    have hp : 1 ≤ 2 ^ d := Nat.one_le_two_pow
    have hfuel : fuel + (3 * 2 ^ (d + 1) - 2) = ((fuel + 1) + (3 * 2 ^ d - 2) + 1) + (3 * 2 ^ d - 2) := by
      rw [pow_succ]; omega
    have hvd : v ⟨d, hdN⟩ = k ⟨d, hdN⟩ := hv ⟨d, hdN⟩ (Nat.lt_succ_self d)
    have hv0 : Function.update v ⟨d, hdN⟩ (k ⟨d, hdN⟩) = v := by rw [← hvd]; exact Function.update_eq_self _ _
    obtain ⟨stack1, hst1, h1⟩ := ih (by omega) v (fun i hi => hv i (by omega)) ((fuel + 1) + (3 * 2 ^ d - 2) + 1) dim val stack acc
    rw [hfuel, h1, Noise.exec]
    have hz : ((v ⟨d, hdN⟩ : ℝ) - k ⟨d, hdN⟩) = 0 := by rw [hvd]; ring
    simp only [Noise.step, dif_pos hdN, hz, if_true]
    -- the other half
    have hlin : linear N s.gridSize v + stride s.gridSize d = linear N s.gridSize (Function.update v ⟨d, hdN⟩ (k ⟨d, hdN⟩ + 1)) := by
      rw [← hvd]; exact (linear_update s.gridSize v ⟨d, hdN⟩).symm
    have hshift : (Function.update (fun i => (v i : ℝ) - k i) ⟨d, hdN⟩ 1) =
        fun i => ((Function.update v ⟨d, hdN⟩ (k ⟨d, hdN⟩ + 1) i : ℕ) : ℝ) - k i := by
      funext i
      by_cases hi : i = ⟨d, hdN⟩
      · subst hi; simp
      · rw [Function.update_of_ne hi, Function.update_of_ne hi]
    rw [hlin, hshift]
    have hv1 : ∀ i : Fin N, i.val < d → Function.update v ⟨d, hdN⟩ (k ⟨d, hdN⟩ + 1) i = k i := by
      intro i hi
      have hne : i ≠ ⟨d, hdN⟩ := fun e => by rw [e] at hi; exact lt_irrefl _ hi
      rw [Function.update_of_ne hne]
      exact hv i (by omega)
    obtain ⟨stack2, hst2, h2⟩ := ih (by omega) _ hv1 (fuel + 1) d (interp I k t (contrib s fun i => k i + t i) d v)
      (Function.update stack1 ⟨d, hdN⟩ (interp I k t (contrib s fun i => k i + t i) d v)) (acc ++ accesses k s.gridSize d v)
    rw [h2, Noise.exec]
    have hnz : ((Function.update v ⟨d, hdN⟩ (k ⟨d, hdN⟩ + 1) ⟨d, hdN⟩ : ℕ) : ℝ) - k ⟨d, hdN⟩ ≠ 0 := by
      rw [Function.update_self]; push_cast; simp
    simp only [Noise.step, dif_pos hdN, if_neg hnz]
    refine ⟨stack2, ?_, ?_⟩
    · intro i hi
      have hne : i ≠ ⟨d, hdN⟩ := fun e => by rw [e] at hi; exact absurd hi (Nat.not_succ_le_self d)
      rw [hst2 i (by omega), Function.update_of_ne hne, hst1 i (by omega)]
    · have hs2 : stack2 ⟨d, hdN⟩ = interp I k t (contrib s fun i => k i + t i) d v := by
        rw [hst2 ⟨d, hdN⟩ le_rfl, Function.update_self]
      have hback : (Function.update (fun i => ((Function.update v ⟨d, hdN⟩ (k ⟨d, hdN⟩ + 1) i : ℕ) : ℝ) - k i) ⟨d, hdN⟩ 0) = fun i => (v i : ℝ) - k i := by
        funext i
        by_cases hi : i = ⟨d, hdN⟩
        · subst hi; simp [hvd]
        · rw [Function.update_of_ne hi, Function.update_of_ne hi]
      rw [hback, hs2, ← hlin, Nat.add_sub_cancel]
      simp only [interp, accesses, dif_pos hdN, hv0, List.append_assoc]

theorem value_interp (I : Interp) (s : Noise N) (pos : Fin N → ℝ) :
    s.value I pos = some (interp I (base s pos) (frac s pos) (contrib s fun i => base s pos i + frac s pos i) N (base s pos),
      accesses (base s pos) s.gridSize N (base s pos)) := by
  unfold Noise.value
  obtain ⟨h1, h2, h3⟩ := setup_eq s pos
  simp only [h1, h2, h3]
  have hp : 1 ≤ 2 ^ N := Nat.one_le_two_pow
  obtain ⟨st, -, h⟩ := exec_interp I s (base s pos) (frac s pos) N le_rfl (base s pos) (fun _ _ => rfl) 2 0 0 (fun _ => 0) []
  have e : 2 + (3 * 2 ^ N - 2) = 3 * 2 ^ N := by omega
  rw [e] at h
  have e2 : (fun i => ((base s pos i : ℕ) : ℝ) - base s pos i) = fun _ : Fin N => (0 : ℝ) := by funext i; ring
  rw [e2] at h
  rw [h, Noise.exec]
  simp [Noise.step]

theorem accesses_mem (k size : Fin N → ℕ) (hk : ∀ i, k i + 1 ≤ size i) (d : ℕ) (v : Fin N → ℕ) (hv : ∀ i, v i ≤ size i) :
    ∀ a ∈ accesses k size d v, ∃ w : Fin N → ℕ, (∀ i, w i ≤ size i) ∧ a = linear N size w := by
  induction d generalizing v with
  | zero =>
    intro a ha
    simp only [accesses, List.mem_singleton] at ha
    exact ⟨v, hv, ha⟩
  | succ d ih =>
    intro a ha
    rw [accesses] at ha
    have hu : ∀ (j : Fin N) (n : ℕ), n ≤ size j → ∀ i, Function.update v j n i ≤ size i := by
      intro j n hn i
      by_cases h : i = j
      · subst h; simpa using hn
      · rw [Function.update_of_ne h]; exact hv i
    split at ha
    next h =>
      rcases List.mem_append.mp ha with h1 | h1
      · exact ih _ (hu _ _ (by have := hk ⟨d, h⟩; omega)) a h1
      · exact ih _ (hu _ _ (hk ⟨d, h⟩)) a h1
    next h => exact ih v hv a ha

/-! ### Interpolation as a weighted sum over all vertices -/

theorem fade_eq (I : Interp) (t : ℝ) : fade I t = blend I t := by
  cases I <;> simp only [fade, blend] <;> ring

theorem blend_sym (I : Interp) (t : ℝ) : 1 - blend I (1 - t) = blend I t := by
  cases I <;> simp only [blend] <;> ring

theorem blend_zero (I : Interp) : blend I 0 = 0 := by cases I <;> simp [blend]

theorem blend_one (I : Interp) : blend I 1 = 1 := by cases I <;> norm_num [blend]

theorem weight_far (I : Interp) {x : ℝ} (h : 1 ≤ |x|) : weight I x = 0 := by
  unfold weight
  rw [min_eq_right h, blend_one, sub_self]

/-- Along an axis, only the two neighboring vertices matter. -/
theorem sum_weight (I : Interp) {size k : ℕ} (hk : k + 1 ≤ size) {t : ℝ} (h0 : 0 ≤ t) (h1 : t ≤ 1) (f : ℕ → ℝ) :
    ∑ m ∈ Finset.range (size + 1), weight I (k + t - m) * f m = interpolate I (f k) (f (k + 1)) t := by
  have hsub : ({k, k + 1} : Finset ℕ) ⊆ Finset.range (size + 1) := by
    intro m hm
    simp only [Finset.mem_insert, Finset.mem_singleton] at hm
    rw [Finset.mem_range]
    omega
  rw [← Finset.sum_subset hsub]
  · rw [Finset.sum_pair (by omega)]
    have e1 : weight I (k + t - k) = 1 - fade I t := by
      rw [fade_eq, weight, add_sub_cancel_left, abs_of_nonneg h0, min_eq_left h1]
    have e2 : weight I (k + t - ((k + 1 : ℕ) : ℝ)) = fade I t := by
      rw [fade_eq, weight]
      push_cast
      rw [show (k : ℝ) + t - (k + 1) = -(1 - t) by ring, abs_neg, abs_of_nonneg (by linarith), min_eq_left (by linarith), blend_sym]
    rw [e1, e2]
    rfl
  · intro m _ hm
    simp only [Finset.mem_insert, Finset.mem_singleton, not_or] at hm
    rw [weight_far, zero_mul]
    rcases lt_or_gt_of_ne hm.1 with h | h
    · have : (m : ℝ) + 1 ≤ k := by exact_mod_cast h
      rw [abs_of_nonneg (by linarith)]
      linarith
    · have : (k : ℝ) + 2 ≤ m := by
        have : k + 2 ≤ m := by omega
        exact_mod_cast this
      rw [abs_of_nonpos (by linarith)]
      linarith

theorem interp_sum (I : Interp) (size k : Fin N → ℕ) (hk : ∀ i, k i + 1 ≤ size i) (t : Fin N → ℝ) (h0 : ∀ i, 0 ≤ t i) (h1 : ∀ i, t i ≤ 1)
    (F : (Fin N → ℕ) → ℝ) (d : ℕ) (hd : d ≤ N) (v : Fin N → ℕ) :
    interp I k t F d v = ∑ m ∈ Fintype.piFinset (fun i : Fin N => if i.val < d then Finset.range (size i + 1) else {v i}),
      (∏ i : Fin N, if i.val < d then weight I (k i + t i - m i) else 1) * F m := by
  induction d generalizing v with
  | zero =>
    simp only [interp, Nat.not_lt_zero, if_false, Finset.prod_const_one, one_mul]
    rw [Fintype.piFinset_singleton, Finset.sum_singleton]
  | succ d ih =>
    rw [interp, dif_pos (show d < N from hd)]
    rw [← sum_weight I (hk ⟨d, hd⟩) (h0 ⟨d, hd⟩) (h1 ⟨d, hd⟩) (fun a => interp I k t F d (Function.update v ⟨d, hd⟩ a))]
    rw [← Finset.sum_fiberwise_of_maps_to (s := Fintype.piFinset (fun i : Fin N => if i.val < d + 1 then Finset.range (size i + 1) else {v i}))
      (t := Finset.range (size ⟨d, hd⟩ + 1)) (g := fun m => m ⟨d, hd⟩)]
    · apply Finset.sum_congr rfl
      intro a ha
      rw [ih (by omega), Finset.mul_sum]
      have hset : (Fintype.piFinset (fun i : Fin N => if i.val < d + 1 then Finset.range (size i + 1) else {v i})).filter (fun m => m ⟨d, hd⟩ = a) =
          Fintype.piFinset (fun i : Fin N => if i.val < d then Finset.range (size i + 1) else {Function.update v ⟨d, hd⟩ a i}) := by
        ext m
        simp only [Finset.mem_filter, Fintype.mem_piFinset]
        constructor
        · rintro ⟨h2, h3⟩ i
          by_cases hi : i = ⟨d, hd⟩
          · subst hi
            simp [h3]
          · have hne : i.val ≠ d := fun e => hi (Fin.ext e)
            have h4 := h2 i
            rw [Function.update_of_ne hi]
            by_cases hid : i.val < d
            · rw [if_pos hid]; rwa [if_pos (by omega)] at h4
            · rw [if_neg hid]; rwa [if_neg (by omega)] at h4
        · intro h2
          have h3 : m ⟨d, hd⟩ = a := by
            have := h2 ⟨d, hd⟩
            simpa using this
          refine ⟨fun i => ?_, h3⟩
          by_cases hi : i = ⟨d, hd⟩
          · subst hi
            simp only [Nat.lt_succ_self, if_true]
            rw [h3]; exact ha
          · have hne : i.val ≠ d := fun e => hi (Fin.ext e)
            have h4 := h2 i
            rw [Function.update_of_ne hi] at h4
            by_cases hid : i.val < d
            · rw [if_pos (by omega)]; rwa [if_pos hid] at h4
            · rw [if_neg (by omega)]; rwa [if_neg hid] at h4
      rw [hset]
      apply Finset.sum_congr rfl
      intro m hm
      have h3 : m ⟨d, hd⟩ = a := by
        have := (Fintype.mem_piFinset.mp hm) ⟨d, hd⟩
        simpa using this
      rw [← mul_assoc]
      congr 1
      rw [← Finset.mul_prod_erase Finset.univ (fun i : Fin N => if i.val < d + 1 then weight I (k i + t i - m i) else 1) (Finset.mem_univ (⟨d, hd⟩ : Fin N)),
        ← Finset.mul_prod_erase Finset.univ (fun i : Fin N => if i.val < d then weight I (k i + t i - m i) else 1) (Finset.mem_univ (⟨d, hd⟩ : Fin N))]
      simp only [lt_irrefl, if_false, one_mul, Nat.lt_succ_self, if_true, h3]
      congr 1
      apply Finset.prod_congr rfl
      intro j hj
      have hne : j.val ≠ d := fun e => (Finset.mem_erase.mp hj).1 (Fin.ext e)
      by_cases hjd : j.val < d
      · rw [if_pos hjd, if_pos (by omega)]
      · rw [if_neg hjd, if_neg (by omega)]
    · intro m hm
      have := (Fintype.mem_piFinset.mp hm) ⟨d, hd⟩
      simpa using this

end

end Verif.Perlin
