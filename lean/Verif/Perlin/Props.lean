import Verif.Perlin.Main

/-!
# Properties of Perlin noise
-/

namespace Verif.Perlin

open Spec

/-! ## C139: number and use of gradients -/

/-- The number of gradients is the number of vertices of the grid. An exception is thrown exactly when the number of grid modules is less
than one along some axis, or the number of vertices cannot be represented. -/
theorem C139_num_gradients {N : ℕ} (max : ℕ) (hmax : 1 ≤ max) (gridSize : Fin N → ℤ) (n : ℕ) :
    numGradients max gridSize = some n ↔
      (∀ i, 1 ≤ gridSize i) ∧ n = (vertices fun i => (gridSize i).toNat).card ∧ n ≤ max := by
  unfold numGradients
  rw [numGradientsLoop_eq max _ 1 one_pos hmax]
  simp only [List.mem_ofFn, forall_exists_index, forall_apply_eq_imp_iff, one_mul, List.map_ofFn, List.prod_ofFn, vertices,
    Fintype.card_piFinset, Finset.card_range, Function.comp]

example : numGradients 255 (fun _ : Fin 2 => 3) = some 16 := by decide
example : numGradients 255 (fun _ : Fin 2 => 15) = none := by decide
example : numGradients 255 (fun _ : Fin 2 => 0) = none := by decide

/-- Each vertex has its own gradient, and all gradients are used: The index of the gradient of a vertex is less than the number of
gradients, and each index is the index of exactly one vertex. -/
theorem C139_layout {N : ℕ} (max : ℕ) (hmax : 1 ≤ max) (gridSize : Fin N → ℤ) (n : ℕ) (hn : numGradients max gridSize = some n) :
    Set.BijOn (linear N fun i => (gridSize i).toNat) (vertices fun i => (gridSize i).toNat) {k | k < n} := by
  obtain ⟨-, e, -⟩ := (C139_num_gradients max hmax gridSize n).mp hn
  have e' : n = ∏ i, ((gridSize i).toNat + 1) := by
    rw [e]; simp [vertices, Fintype.card_piFinset]
  have hmem : ∀ v, v ∈ (vertices fun i => (gridSize i).toNat) ↔ ∀ i, v i ≤ (gridSize i).toNat := by
    intro v
    simp only [vertices, Fintype.mem_piFinset, Finset.mem_range, Nat.lt_succ_iff]
  refine ⟨?_, ?_, ?_⟩
  · intro v hv
    show linear N _ v < n
    rw [e']
    exact linear_lt _ v ((hmem v).mp hv)
  · intro v hv w hw h
    exact linear_inj _ v w ((hmem v).mp hv) ((hmem w).mp hw) h
  · intro k hk
    have hk' : k < n := hk
    rw [e'] at hk'
    obtain ⟨v, hv, h⟩ := linear_surj _ hk'
    exact ⟨v, (hmem v).mpr hv, h⟩

/-- The computation of the noise value finishes, at any position, inside or outside the grid, and gradients are never accessed beyond the
end of the array of gradients. -/
theorem C139_access {N : ℕ} (max : ℕ) (hmax : 1 ≤ max) (gridSize : Fin N → ℤ) (n : ℕ) (hn : numGradients max gridSize = some n)
    (I : Interp) (gauge gridPos : Fin N → ℝ) (gradients : ℕ → Fin N → ℝ) (pos : Fin N → ℝ) :
    ∃ val accesses, (Noise.new (fun i => (gridSize i).toNat) gauge gridPos gradients).value I pos = some (val, accesses) ∧
      ∀ k ∈ accesses, k < n := by
  obtain ⟨h1, -, -⟩ := (C139_num_gradients max hmax gridSize n).mp hn
  obtain ⟨acc, h2, h3⟩ := value_eq I (Noise.new (fun i => (gridSize i).toNat) gauge gridPos gradients)
    (fun i => by have := h1 i; show 0 < (gridSize i).toNat; omega) pos
  refine ⟨_, acc, h2, ?_⟩
  intro k hk
  obtain ⟨v, hv, rfl⟩ := h3 k hk
  exact (C139_layout max hmax gridSize n hn).mapsTo hv

/-! ## C140: the noise value -/

/-- The coordinates of a position in the grid. -/
noncomputable def coords {N : ℕ} (size : Fin N → ℕ) (gauge origin pos : Fin N → ℝ) : Fin N → ℝ :=
  fun i => coord (size i) (gauge i) (origin i) (pos i)

theorem coord_mem (size : ℕ) (gauge origin pos : ℝ) : 0 ≤ coord size gauge origin pos ∧ coord size gauge origin pos ≤ size :=
  ⟨le_max_left _ _, max_le (Nat.cast_nonneg _) (min_le_left _ _)⟩

/-- The noise value is the weighted sum of the linear functions given by the gradients at the vertices. Positions outside the grid are
moved to the boundary of the grid. -/
theorem C140_value {N : ℕ} (I : Interp) (size : Fin N → ℕ) (hs : ∀ i, 1 ≤ size i) (gauge origin : Fin N → ℝ)
    (gradients : ℕ → Fin N → ℝ) (pos : Fin N → ℝ) :
    ((Noise.new size gauge origin gradients).value I pos).map Prod.fst =
      some (noise I size (fun v => gradients (linear N size v)) (coords size gauge origin pos)) := by
  obtain ⟨acc, h, -⟩ := value_eq I (Noise.new size gauge origin gradients) hs pos
  rw [h]
  simp only [Option.map_some, Noise.new, coords, coord, mul_one_div]
  rfl

/-- In one dimension, with one grid module, and gradients 1 and -1, the value at the center is 1/2. -/
example : noise .linear (fun _ : Fin 1 => 1) (fun v _ => if v 0 = 0 then 1 else -1) (fun _ => 1 / 2) = 1 / 2 := by
  have e : vertices (fun _ : Fin 1 => 1) = {fun _ => 0, fun _ => 1} := by decide
  unfold noise
  rw [e, Finset.sum_pair (by decide)]
  simp [weight, blend]
  rw [abs_of_nonpos (by norm_num)]
  norm_num

/-- The noise value is a continuous function of the position. -/
theorem C140_continuous {N : ℕ} (I : Interp) (size : Fin N → ℕ) (hs : ∀ i, 1 ≤ size i) (gauge origin : Fin N → ℝ)
    (gradients : ℕ → Fin N → ℝ) :
    ∃ f : (Fin N → ℝ) → ℝ, Continuous f ∧
      ∀ pos, ((Noise.new size gauge origin gradients).value I pos).map Prod.fst = some (f pos) := by
  refine ⟨_, ?_, fun pos => C140_value I size hs gauge origin gradients pos⟩
  refine (noise_continuous I size _).comp ?_
  unfold coords coord
  fun_prop

/-- The value at a vertex is zero. -/
theorem C140_vertex {N : ℕ} (I : Interp) (size : Fin N → ℕ) (hs : ∀ i, 1 ≤ size i) (gauge origin : Fin N → ℝ) (hg : ∀ i, gauge i ≠ 0)
    (gradients : ℕ → Fin N → ℝ) (v : Fin N → ℕ) (hv : v ∈ vertices size) :
    ((Noise.new size gauge origin gradients).value I fun i => origin i + v i * gauge i).map Prod.fst = some 0 := by
  rw [C140_value I size hs]
  have e : coords size gauge origin (fun i => origin i + v i * gauge i) = fun i => (v i : ℝ) := by
    funext i
    have hvi : v i ≤ size i := by
      have := Fintype.mem_piFinset.mp hv i
      exact Nat.lt_succ_iff.mp (Finset.mem_range.mp this)
    have hvi' : (v i : ℝ) ≤ size i := by exact_mod_cast hvi
    simp only [coords, coord]
    rw [add_sub_cancel_left, mul_div_cancel_right₀ _ (hg i), min_eq_right hvi', max_eq_right (Nat.cast_nonneg _)]
  rw [e, noise_vertex]

/-- Only the gradients at the vertices of the surrounding grid module have an influence on the value. -/
theorem C140_local {N : ℕ} (I : Interp) (size : Fin N → ℕ) (hs : ∀ i, 1 ≤ size i) (gauge origin : Fin N → ℝ)
    (g h : ℕ → Fin N → ℝ) (pos : Fin N → ℝ)
    (hgh : ∀ v ∈ vertices size, (∀ i, |coords size gauge origin pos i - v i| < 1) → g (linear N size v) = h (linear N size v)) :
    ((Noise.new size gauge origin g).value I pos).map Prod.fst = ((Noise.new size gauge origin h).value I pos).map Prod.fst := by
  rw [C140_value I size hs, C140_value I size hs]
  congr 1
  exact noise_local I size _ _ _ hgh

/-- Gradients no longer than one. -/
def Bounded {N : ℕ} (n : ℕ) (gradients : ℕ → Fin N → ℝ) : Prop := ∀ k < n, ∑ i, gradients k i ^ 2 ≤ 1

/-- When the gradients are no longer than one, the magnitude of the value is at most the amplitude. -/
theorem C140_amplitude {N : ℕ} (I : Interp) (size : Fin N → ℕ) (hs : ∀ i, 1 ≤ size i) (gauge origin : Fin N → ℝ)
    (gradients : ℕ → Fin N → ℝ) (hg : Bounded (vertices size).card gradients) (pos : Fin N → ℝ) :
    ∃ val, ((Noise.new size gauge origin gradients).value I pos).map Prod.fst = some val ∧ |val| ≤ amplitude N := by
  refine ⟨_, C140_value I size hs gauge origin gradients pos, ?_⟩
  apply abs_noise_le I size hs
  · intro v hv
    apply hg
    simp only [vertices, Fintype.card_piFinset, Finset.card_range]
    apply linear_lt
    intro i
    have := Fintype.mem_piFinset.mp hv i
    exact Nat.lt_succ_iff.mp (Finset.mem_range.mp this)
  · exact fun i => (coord_mem _ _ _ _).1
  · exact fun i => (coord_mem _ _ _ _).2

/-- The amplitude is the smallest possible bound: for any grid, there are gradients such that it is attained. -/
theorem C140_amplitude_attained {N : ℕ} (I : Interp) (size : Fin N → ℕ) (hs : ∀ i, 1 ≤ size i) (gauge origin : Fin N → ℝ)
    (hgauge : ∀ i, gauge i ≠ 0) :
    ∃ gradients : ℕ → Fin N → ℝ, Bounded (vertices size).card gradients ∧ ∃ pos,
      ((Noise.new size gauge origin gradients).value I pos).map Prod.fst = some (amplitude N) := by
  obtain ⟨g, hg, h⟩ := noise_center I size hs
  have hmem : ∀ v, v ∈ vertices size ↔ ∀ i, v i ≤ size i := by
    intro v
    simp only [vertices, Fintype.mem_piFinset, Finset.mem_range, Nat.lt_succ_iff]
  have hsurj : ∀ k < (vertices size).card, ∃ v, v ∈ vertices size ∧ linear N size v = k := by
    intro k hk
    simp only [vertices, Fintype.card_piFinset, Finset.card_range] at hk
    obtain ⟨v, hv, e⟩ := linear_surj size hk
    exact ⟨v, (hmem v).mpr hv, e⟩
  classical
  let G : ℕ → Fin N → ℝ := fun k => if hk : ∃ v, v ∈ vertices size ∧ linear N size v = k then g hk.choose else 0
  have hG : ∀ v ∈ vertices size, G (linear N size v) = g v := by
    intro v hv
    have hk : ∃ w, w ∈ vertices size ∧ linear N size w = linear N size v := ⟨v, hv, rfl⟩
    have e : G (linear N size v) = g hk.choose := dif_pos hk
    rw [e]
    congr 1
    exact linear_inj size _ _ ((hmem _).mp hk.choose_spec.1) ((hmem _).mp hv) hk.choose_spec.2
  refine ⟨G, ?_, fun i => origin i + 1 / 2 * gauge i, ?_⟩
  · intro k hk
    obtain ⟨v, hv, rfl⟩ := hsurj k hk
    rw [hG v hv]
    exact hg v hv
  · rw [C140_value I size hs]
    have e : coords size gauge origin (fun i => origin i + 1 / 2 * gauge i) = fun _ => 1 / 2 := by
      funext i
      have hsi : (1 : ℝ) ≤ size i := by exact_mod_cast hs i
      simp only [coords, coord]
      rw [add_sub_cancel_left, mul_div_cancel_right₀ _ (hgauge i), min_eq_right (by linarith), max_eq_right (by norm_num)]
    rw [e]
    unfold amplitude
    rw [← h]
    congr 1
    unfold noise
    exact Finset.sum_congr rfl fun v hv => by dsimp only; rw [hG v hv]

/-- With a range, the value is in that range, and the range corresponds to the range from minus the amplitude to the amplitude. -/
theorem C140_range {N : ℕ} (hN : 0 < N) (I : Interp) (size : Fin N → ℕ) (hs : ∀ i, 1 ≤ size i) (gauge origin : Fin N → ℝ)
    (gradients : ℕ → Fin N → ℝ) (hg : Bounded (vertices size).card gradients) (pos : Fin N → ℝ) (a b : ℝ) :
    ∃ val res, ((Noise.new size gauge origin gradients).value I pos).map Prod.fst = some val ∧
      (Noise.new size gauge origin gradients).valueInRange I pos a b = some res ∧
      (res - a) * (2 * amplitude N) = (val + amplitude N) * (b - a) ∧ (a ≤ b → a ≤ res ∧ res ≤ b) := by
  obtain ⟨val, h1, h2⟩ := C140_amplitude I size hs gauge origin gradients hg pos
  have hN' : (0 : ℝ) < N := by exact_mod_cast hN
  have hA : 0 < amplitude N := Real.sqrt_pos.mpr (by positivity)
  obtain ⟨x, hx, rfl⟩ := Option.map_eq_some_iff.mp h1
  refine ⟨x.1, a + (1 + x.1 / amplitude N) / 2 * (b - a), h1, ?_, ?_, ?_⟩
  · unfold Noise.valueInRange
    rw [hx]
    rfl
  · field_simp
    ring
  · intro hab
    have h3 := abs_le.mp h2
    have h4 : -1 ≤ x.1 / amplitude N := by rw [le_div_iff₀ hA]; linarith [h3.1]
    have h5 : x.1 / amplitude N ≤ 1 := by rw [div_le_one hA]; exact h3.2
    constructor
    · have : 0 ≤ (1 + x.1 / amplitude N) / 2 * (b - a) := mul_nonneg (by linarith) (by linarith)
      linarith
    · have : (1 + x.1 / amplitude N) / 2 * (b - a) ≤ 1 * (b - a) := mul_le_mul_of_nonneg_right (by linarith) (by linarith)
      linarith

/-- The documentation says that the amplitude is `sqrt(n / 2)`. It is not in any number of dimensions. -/
theorem C140_documented_amplitude {N : ℕ} (hN : 0 < N) : amplitude N ≠ √((N : ℝ) / 2) := by
  have hN' : (0 : ℝ) < N := by exact_mod_cast hN
  apply ne_of_lt
  apply Real.sqrt_lt_sqrt (by positivity)
  linarith

example : amplitude 4 = 1 := by norm_num [amplitude]

end Verif.Perlin
