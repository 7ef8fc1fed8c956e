import Verif.Perlin.Machine
import Mathlib.Topology.Algebra.Order.LiminfLimsup
import Mathlib.Tactic.Linarith
import Mathlib.Tactic.Positivity
import Mathlib.Tactic.FieldSimp

/-!
# Perlin noise as a weighted sum
-/

namespace Verif.Perlin

open Spec

variable {N : ℕ}

theorem base_spec (s : Noise N) (hs : ∀ i, 0 < s.gridSize i) (pos : Fin N → ℝ) (i : Fin N) :
    0 ≤ frac s pos i ∧ frac s pos i ≤ 1 ∧ base s pos i + 1 ≤ s.gridSize i ∧
    (base s pos i : ℝ) + frac s pos i = max 0 (min (s.gridSize i : ℝ) ((pos i - s.gridPos i) * s.invGridGauge i)) :=
  cell_spec (hs i) _

theorem value_eq (I : Interp) (s : Noise N) (hs : ∀ i, 0 < s.gridSize i) (pos : Fin N → ℝ) :
    ∃ acc, s.value I pos = some (noise I s.gridSize (fun v => s.gradients (linear N s.gridSize v))
      (fun i => max 0 (min (s.gridSize i : ℝ) ((pos i - s.gridPos i) * s.invGridGauge i))), acc) ∧
      ∀ a ∈ acc, ∃ v ∈ vertices s.gridSize, a = linear N s.gridSize v := by
  refine ⟨accesses (base s pos) s.gridSize N (base s pos), (value_interp I s pos).trans ?_, ?_⟩
  · congr 2
    rw [interp_sum I s.gridSize (base s pos) (fun i => (base_spec s hs pos i).2.2.1) _ (fun i => (base_spec s hs pos i).1)
      (fun i => (base_spec s hs pos i).2.1) _ N le_rfl]
    simp only [Fin.is_lt, if_true]
    unfold noise vertices contrib
    simp only [(base_spec s hs pos _).2.2.2]
  · intro a ha
    obtain ⟨w, hw, e⟩ := accesses_mem (base s pos) s.gridSize (fun i => (base_spec s hs pos i).2.2.1) N (base s pos)
      (fun i => (Nat.le_succ _).trans (base_spec s hs pos i).2.2.1) a ha
    refine ⟨w, ?_, e⟩
    rw [vertices, Fintype.mem_piFinset]
    intro i
    rw [Finset.mem_range]
    exact Nat.lt_succ_of_le (hw i)

/-! ### Properties of weights -/

theorem blend_mono_unit (I : Interp) {t : ℝ} (h0 : 0 ≤ t) (h1 : t ≤ 1) : 0 ≤ blend I t ∧ blend I t ≤ 1 := by
  have h2 : 0 ≤ 1 - t := by linarith
  cases I
  · exact ⟨h0, h1⟩
  · constructor
    · have : blend .smooth t = t ^ 2 * (1 + 2 * (1 - t)) := by simp only [blend]; ring
      rw [this]; positivity
    · have : 1 - blend .smooth t = (1 - t) ^ 2 * (1 + 2 * t) := by simp only [blend]; ring
      have h3 : 0 ≤ 1 - blend .smooth t := by rw [this]; positivity
      linarith
  · constructor
    · have : blend .smoother t = t ^ 3 * (1 + 3 * (1 - t) + 6 * (1 - t) ^ 2) := by simp only [blend]; ring
      rw [this]; positivity
    · have : 1 - blend .smoother t = (1 - t) ^ 3 * (1 + 3 * t + 6 * t ^ 2) := by simp only [blend]; ring
      have h3 : 0 ≤ 1 - blend .smoother t := by rw [this]; positivity
      linarith

theorem weight_nonneg (I : Interp) (x : ℝ) : 0 ≤ weight I x := by
  have := (blend_mono_unit I (t := min |x| 1) (le_min (abs_nonneg _) zero_le_one) (min_le_right _ _)).2
  unfold weight
  linarith

theorem weight_zero (I : Interp) : weight I 0 = 1 := by
  simp [weight, blend_zero]

theorem weight_continuous (I : Interp) : Continuous (weight I) := by
  unfold weight
  cases I <;> simp only [blend] <;> fun_prop

/-- A coordinate inside the grid is in some module. -/
theorem exists_cell {size : ℕ} (hs : 0 < size) {x : ℝ} (h0 : 0 ≤ x) (h1 : x ≤ size) :
    ∃ k : ℕ, k + 1 ≤ size ∧ ∃ t : ℝ, 0 ≤ t ∧ t ≤ 1 ∧ x = k + t := by
  obtain ⟨a, b, c, d⟩ := cell_spec hs x
  refine ⟨_, c, _, a, b, ?_⟩
  rw [d, min_eq_right h1, max_eq_right h0]

theorem sum_weight_one (I : Interp) {size : ℕ} (hs : 0 < size) {x : ℝ} (h0 : 0 ≤ x) (h1 : x ≤ size) :
    ∑ m ∈ Finset.range (size + 1), weight I (x - m) = 1 := by
  obtain ⟨k, hk, t, ht0, ht1, rfl⟩ := exists_cell hs h0 h1
  have := sum_weight I hk ht0 ht1 (fun _ => 1)
  simp only [mul_one] at this
  rw [this]
  simp only [interpolate]
  ring

theorem sum_weight_sq (I : Interp) {size : ℕ} (hs : 0 < size) {x : ℝ} (h0 : 0 ≤ x) (h1 : x ≤ size) :
    ∑ m ∈ Finset.range (size + 1), weight I (x - m) * (x - m) ^ 2 ≤ 1 / 4 := by
  obtain ⟨k, hk, t, ht0, ht1, rfl⟩ := exists_cell hs h0 h1
  rw [sum_weight I hk ht0 ht1 (fun m => ((k : ℝ) + t - m) ^ 2)]
  have hs0 : 0 ≤ t * (1 - t) := mul_nonneg ht0 (by linarith)
  have hs1 : t * (1 - t) ≤ 1 / 4 := by nlinarith [sq_nonneg (t - 1 / 2)]
  simp only [interpolate, fade_eq]
  push_cast
  cases I
  · have e : (1 - blend .linear t) * ((k : ℝ) + t - k) ^ 2 + blend .linear t * ((k : ℝ) + t - (k + 1)) ^ 2 = t * (1 - t) := by
      simp only [blend]; ring
    rw [e]; exact hs1
  · have e : (1 - blend .smooth t) * ((k : ℝ) + t - k) ^ 2 + blend .smooth t * ((k : ℝ) + t - (k + 1)) ^ 2 = 4 * (t * (1 - t)) ^ 2 := by
      simp only [blend]; ring
    rw [e]; nlinarith
  · have e : (1 - blend .smoother t) * ((k : ℝ) + t - k) ^ 2 + blend .smoother t * ((k : ℝ) + t - (k + 1)) ^ 2 =
        (t * (1 - t)) ^ 2 + 12 * (t * (1 - t)) ^ 3 := by
      simp only [blend]; ring
    rw [e]
    have h2 : (t * (1 - t)) ^ 2 ≤ (1 / 4) ^ 2 := pow_le_pow_left₀ hs0 hs1 2
    have h3 : (t * (1 - t)) ^ 3 ≤ (1 / 4) ^ 3 := pow_le_pow_left₀ hs0 hs1 3
    linarith

/-! ### Sums over the vertices of the grid -/

theorem sum_vertices_prod (size : Fin N → ℕ) (f : Fin N → ℕ → ℝ) :
    ∑ v ∈ vertices size, ∏ i, f i (v i) = ∏ i, ∑ m ∈ Finset.range (size i + 1), f i m :=
  (Finset.prod_univ_sum _ _).symm

theorem sum_weights (I : Interp) (size : Fin N → ℕ) (hs : ∀ i, 0 < size i) (x : Fin N → ℝ) (h0 : ∀ i, 0 ≤ x i) (h1 : ∀ i, x i ≤ size i) :
    ∑ v ∈ vertices size, ∏ i, weight I (x i - v i) = 1 := by
  rw [sum_vertices_prod size (fun i m => weight I (x i - m))]
  exact Finset.prod_eq_one fun i _ => sum_weight_one I (hs i) (h0 i) (h1 i)

theorem sum_weights_sq (I : Interp) (size : Fin N → ℕ) (hs : ∀ i, 0 < size i) (x : Fin N → ℝ) (h0 : ∀ i, 0 ≤ x i) (h1 : ∀ i, x i ≤ size i) :
    ∑ v ∈ vertices size, (∏ i, weight I (x i - v i)) * ∑ j, (x j - v j) ^ 2 ≤ (N : ℝ) / 4 := by
  simp only [Finset.mul_sum]
  rw [Finset.sum_comm]
  have h : ∀ j : Fin N, ∑ v ∈ vertices size, (∏ i, weight I (x i - v i)) * (x j - v j) ^ 2 ≤ 1 / 4 := by
    intro j
    have e : ∀ v : Fin N → ℕ, (∏ i, weight I (x i - v i)) * (x j - v j) ^ 2 =
        ∏ i, (weight I (x i - v i) * if i = j then (x i - v i) ^ 2 else 1) := by
      intro v
      rw [Finset.prod_mul_distrib, Finset.prod_ite_eq' Finset.univ j (fun i => (x i - v i) ^ 2), if_pos (Finset.mem_univ j)]
    simp only [e]
    rw [sum_vertices_prod size (fun i m => weight I (x i - m) * if i = j then (x i - m) ^ 2 else 1),
      ← Finset.mul_prod_erase Finset.univ _ (Finset.mem_univ j)]
    simp only [if_true]
    rw [Finset.prod_eq_one, mul_one]
    · exact sum_weight_sq I (hs j) (h0 j) (h1 j)
    · intro i hi
      simp only [if_neg (Finset.mem_erase.mp hi).1, mul_one]
      exact sum_weight_one I (hs i) (h0 i) (h1 i)
  calc _ ≤ ∑ _j : Fin N, (1 / 4 : ℝ) := Finset.sum_le_sum fun j _ => h j
    _ = (N : ℝ) / 4 := by simp; ring

theorem noise_le (I : Interp) (size : Fin N → ℕ) (hs : ∀ i, 0 < size i) (g : (Fin N → ℕ) → Fin N → ℝ)
    (hg : ∀ v ∈ vertices size, ∑ i, g v i ^ 2 ≤ 1) (x : Fin N → ℝ) (h0 : ∀ i, 0 ≤ x i) (h1 : ∀ i, x i ≤ size i) :
    noise I size g x ≤ √((N : ℝ) / 4) := by
  rcases Nat.eq_zero_or_pos N with rfl | hN
  · simp [noise]
  set a := √((N : ℝ) / 4) with ha
  have hN' : (0 : ℝ) < N := by exact_mod_cast hN
  have ha0 : 0 < a := Real.sqrt_pos.mpr (by positivity)
  have ha2 : a ^ 2 = (N : ℝ) / 4 := Real.sq_sqrt (by positivity)
  have hdot : ∀ v ∈ vertices size, 2 * a * ∑ i, g v i * (x i - v i) ≤ a ^ 2 + ∑ i, (x i - v i) ^ 2 := by
    intro v hv
    have h2 : 0 ≤ ∑ i, (a * g v i - (x i - v i)) ^ 2 := Finset.sum_nonneg fun i _ => sq_nonneg _
    have h3 : ∑ i, (a * g v i - (x i - v i)) ^ 2 = a ^ 2 * ∑ i, g v i ^ 2 - 2 * a * ∑ i, g v i * (x i - v i) + ∑ i, (x i - v i) ^ 2 := by
      rw [Finset.mul_sum, Finset.mul_sum, ← Finset.sum_sub_distrib, ← Finset.sum_add_distrib]
      exact Finset.sum_congr rfl fun i _ => by ring
    have h4 : a ^ 2 * ∑ i, g v i ^ 2 ≤ a ^ 2 * 1 := mul_le_mul_of_nonneg_left (hg v hv) (sq_nonneg a)
    linarith
  have hW : ∀ v : Fin N → ℕ, 0 ≤ ∏ i, weight I (x i - v i) := fun v => Finset.prod_nonneg fun i _ => weight_nonneg I _
  have key : 2 * a * noise I size g x ≤ a ^ 2 + (N : ℝ) / 4 := by
    unfold noise
    rw [Finset.mul_sum]
    calc _ ≤ ∑ v ∈ vertices size, (∏ i, weight I (x i - v i)) * (a ^ 2 + ∑ i, (x i - v i) ^ 2) := by
          apply Finset.sum_le_sum
          intro v hv
          have := mul_le_mul_of_nonneg_left (hdot v hv) (hW v)
          linarith
      _ = a ^ 2 * ∑ v ∈ vertices size, (∏ i, weight I (x i - v i)) + ∑ v ∈ vertices size, (∏ i, weight I (x i - v i)) * ∑ j, (x j - v j) ^ 2 := by
          rw [Finset.mul_sum, ← Finset.sum_add_distrib]
          exact Finset.sum_congr rfl fun v _ => by ring
      _ ≤ a ^ 2 + (N : ℝ) / 4 := by
          rw [sum_weights I size hs x h0 h1, mul_one]
          have := sum_weights_sq I size hs x h0 h1
          linarith
  rw [← ha2] at key
  have : 2 * a * noise I size g x ≤ 2 * a * a := by linarith
  exact le_of_mul_le_mul_left this (by positivity)

theorem noise_neg (I : Interp) (size : Fin N → ℕ) (g : (Fin N → ℕ) → Fin N → ℝ) (x : Fin N → ℝ) :
    noise I size (fun v i => -g v i) x = -noise I size g x := by
  unfold noise
  rw [← Finset.sum_neg_distrib]
  apply Finset.sum_congr rfl
  intro v _
  simp only [neg_mul, Finset.sum_neg_distrib, mul_neg]

theorem abs_noise_le (I : Interp) (size : Fin N → ℕ) (hs : ∀ i, 0 < size i) (g : (Fin N → ℕ) → Fin N → ℝ)
    (hg : ∀ v ∈ vertices size, ∑ i, g v i ^ 2 ≤ 1) (x : Fin N → ℝ) (h0 : ∀ i, 0 ≤ x i) (h1 : ∀ i, x i ≤ size i) :
    |noise I size g x| ≤ √((N : ℝ) / 4) := by
  rw [abs_le]
  have h2 := noise_le I size hs g hg x h0 h1
  have h3 := noise_le I size hs (fun v i => -g v i) (fun v hv => by simpa using hg v hv) x h0 h1
  rw [noise_neg] at h3
  constructor <;> linarith

/-- The noise is zero at the vertices. -/
theorem noise_vertex (I : Interp) (size : Fin N → ℕ) (g : (Fin N → ℕ) → Fin N → ℝ) (u : Fin N → ℕ) :
    noise I size g (fun i => (u i : ℝ)) = 0 := by
  unfold noise
  apply Finset.sum_eq_zero
  intro v _
  by_cases h : v = u
  · subst h; simp
  · obtain ⟨i, hi⟩ := Function.ne_iff.mp h
    rw [Finset.prod_eq_zero (Finset.mem_univ i), zero_mul]
    apply weight_far
    rcases lt_or_gt_of_ne hi with h1 | h1
    · have : (v i : ℝ) + 1 ≤ u i := by exact_mod_cast h1
      rw [abs_of_nonneg (by linarith)]; linarith
    · have : (u i : ℝ) + 1 ≤ v i := by exact_mod_cast h1
      rw [abs_of_nonpos (by linarith)]; linarith

theorem noise_continuous (I : Interp) (size : Fin N → ℕ) (g : (Fin N → ℕ) → Fin N → ℝ) : Continuous (noise I size g) := by
  unfold noise
  have := weight_continuous I
  fun_prop

/-- Only the gradients at the vertices of the surrounding module matter. -/
theorem noise_local (I : Interp) (size : Fin N → ℕ) (g h : (Fin N → ℕ) → Fin N → ℝ) (x : Fin N → ℝ)
    (hgh : ∀ v ∈ vertices size, (∀ i, |x i - v i| < 1) → g v = h v) : noise I size g x = noise I size h x := by
  unfold noise
  apply Finset.sum_congr rfl
  intro v hv
  by_cases hx : ∀ i, |x i - v i| < 1
  · rw [hgh v hv hx]
  · push Not at hx
    obtain ⟨i, hi⟩ := hx
    rw [Finset.prod_eq_zero (Finset.mem_univ i) (weight_far I hi), zero_mul, zero_mul]

/-- The bound is attained at the center of a module. -/
theorem noise_center (I : Interp) (size : Fin N → ℕ) (hs : ∀ i, 0 < size i) :
    ∃ g : (Fin N → ℕ) → Fin N → ℝ, (∀ v ∈ vertices size, ∑ i, g v i ^ 2 ≤ 1) ∧ noise I size g (fun _ => 1 / 2) = √((N : ℝ) / 4) := by
  rcases Nat.eq_zero_or_pos N with rfl | hN
  · exact ⟨fun _ _ => 0, by simp, by simp [noise]⟩
  set a := √((N : ℝ) / 4) with ha
  have hN' : (0 : ℝ) < N := by exact_mod_cast hN
  have ha0 : 0 < a := Real.sqrt_pos.mpr (by positivity)
  have ha2 : a ^ 2 = (N : ℝ) / 4 := Real.sq_sqrt (by positivity)
  refine ⟨fun v i => if ∀ i, v i ≤ 1 then (1 / 2 - v i) / a else 0, ?_, ?_⟩
  · intro v _
    dsimp only
    split_ifs with h
    · have : ∀ i, ((1 / 2 - (v i : ℝ)) / a) ^ 2 = (1 / 4) / a ^ 2 := by
        intro i
        have := h i
        rcases Nat.le_one_iff_eq_zero_or_eq_one.mp this with h | h <;> rw [h, div_pow] <;> norm_num
      simp only [this, Finset.sum_const, Finset.card_univ, Fintype.card_fin, nsmul_eq_mul, ha2]
      apply le_of_eq
      field_simp
    · simp
  · have e : ∀ v ∈ vertices size, (∏ i : Fin N, weight I (1 / 2 - v i)) * ∑ i, (if ∀ i, v i ≤ 1 then (1 / 2 - (v i : ℝ)) / a else 0) * (1 / 2 - v i) =
        (∏ i : Fin N, weight I (1 / 2 - v i)) * a := by
      intro v _
      by_cases h : ∀ i, v i ≤ 1
      · congr 1
        simp only [if_pos h]
        have : ∀ i, ((1 / 2 - (v i : ℝ)) / a) * (1 / 2 - v i) = (1 / 4) / a := by
          intro i
          have := h i
          rcases Nat.le_one_iff_eq_zero_or_eq_one.mp this with h | h <;> rw [h] <;> field_simp <;> norm_num
        simp only [this, Finset.sum_const, Finset.card_univ, Fintype.card_fin, nsmul_eq_mul]
        field_simp
        linarith
      · push Not at h
        obtain ⟨i, hi⟩ := h
        have : ∏ i : Fin N, weight I (1 / 2 - v i) = 0 := by
          apply Finset.prod_eq_zero (Finset.mem_univ i)
          apply weight_far
          have : (2 : ℝ) ≤ v i := by exact_mod_cast hi
          rw [abs_of_nonpos (by linarith)]; linarith
        rw [this, zero_mul, zero_mul]
    unfold noise
    rw [Finset.sum_congr rfl e, ← Finset.sum_mul,
      sum_weights I size hs (fun _ => 1 / 2) (fun _ => by norm_num) (fun i => by
        have : (1 : ℝ) ≤ size i := by exact_mod_cast hs i
        linarith), one_mul]

end Verif.Perlin
