import Mathlib.Analysis.SpecialFunctions.Sqrt
import Mathlib.Algebra.BigOperators.Fin
import Mathlib.Algebra.Order.Floor.Semiring
import Mathlib.Analysis.Real.Sqrt

/-!
# Model of Perlin noise

Model of `/repo/src/archon/util/perlin_noise.hpp`. Floating-point numbers are real numbers with exact arithmetic. Numbers of type
`std::size_t` are unbounded in the computation of noise values (the properties include that they do not exceed the number of gradients,
which is checked for overflow).
-/

namespace Verif.Perlin

/-- `PerlinNoiseBase::Interp` (`/repo/src/archon/util/perlin_noise.hpp:56-60`). -/
inductive Interp where
  | linear
  | smooth
  | smoother

/-- The loop of `PerlinNoise::num_gradients()` (`/repo/src/archon/util/perlin_noise.hpp:207-216`). The first argument is the maximum value
of type `std::size_t`. The result is absent if an exception is thrown. -/
def numGradientsLoop (max : ℕ) : List ℤ → ℕ → Option ℕ
  | [], n => some n
  | size :: rest, n =>
    if size < 1 then none
    else
      let m := size.toNat
      if m > max then none
      else if m + 1 > max then none
      else
        let m := m + 1
        if n * m > max then none else numGradientsLoop max rest (n * m)

/-- `PerlinNoise::num_gradients()` (`/repo/src/archon/util/perlin_noise.hpp:205-217`). -/
def numGradients {N : ℕ} (max : ℕ) (gridSize : Fin N → ℤ) : Option ℕ := numGradientsLoop max (List.ofFn gridSize) 1

/-- `PerlinNoise::amplitude()` (`/repo/src/archon/util/perlin_noise.hpp:238-241`). -/
noncomputable def amplitude (N : ℕ) : ℝ := √((N : ℝ) / 4)

/-- `PerlinNoise` (`/repo/src/archon/util/perlin_noise.hpp:183-189`). -/
structure Noise (N : ℕ) where
  gridSize : Fin N → ℕ
  invGridGauge : Fin N → ℝ
  gridPos : Fin N → ℝ
  gradients : ℕ → Fin N → ℝ

/-- `PerlinNoise::PerlinNoise()` (`/repo/src/archon/util/perlin_noise.hpp:245-253`). -/
noncomputable def Noise.new {N : ℕ} (gridSize : Fin N → ℕ) (gridGauge gridPos : Fin N → ℝ) (gradients : ℕ → Fin N → ℝ) : Noise N :=
  { gridSize, gridPos, gradients, invGridGauge := fun i => 1 / gridGauge i }

/-- The determination of the fractional part and the integer part of a coordinate in `PerlinNoise::operator()()`
(`/repo/src/archon/util/perlin_noise.hpp:265-278`). -/
noncomputable def cell (gridSize : ℕ) (val1 : ℝ) : ℝ × ℕ :=
  if 0 ≤ val1 then
    if val1 < gridSize then (val1 - (⌊val1⌋₊ : ℝ), ⌊val1⌋₊) else (1, gridSize - 1)
  else (0, 0)

/-- The variables of the first loop of `PerlinNoise::operator()()` (`/repo/src/archon/util/perlin_noise.hpp:259-263`). -/
structure Setup (N : ℕ) where
  vec : Fin N → ℝ
  index : ℕ := 0
  indexShifts : Fin N → ℕ := fun _ => 0
  multiplier : ℕ := 1

/-- The body of the first loop of `PerlinNoise::operator()()` (`/repo/src/archon/util/perlin_noise.hpp:264-284`). -/
noncomputable def Noise.setupStep {N : ℕ} (s : Noise N) (u : Setup N) (i : Fin N) : Setup N :=
  let val1 := u.vec i * s.invGridGauge i
  let c := cell (s.gridSize i) val1
  { vec := Function.update u.vec i c.1
    index := u.index + u.multiplier * c.2
    indexShifts := Function.update u.indexShifts i u.multiplier
    multiplier := u.multiplier * (s.gridSize i + 1) }

/-- The first loop of `PerlinNoise::operator()()` (`/repo/src/archon/util/perlin_noise.hpp:258-285`). -/
noncomputable def Noise.setup {N : ℕ} (s : Noise N) (pos : Fin N → ℝ) : Setup N :=
  (List.finRange N).foldl s.setupStep { vec := pos - s.gridPos }

/-- The parameter of the interpolation (`/repo/src/archon/util/perlin_noise.hpp:328-338`). -/
noncomputable def fade : Interp → ℝ → ℝ
  | .linear, t => t
  | .smooth, t => (3 - t * 2) * t * t
  | .smoother, t => (t * (t * 6 - 15) + 10) * t * t * t

/-- `PerlinNoise::interpolate()` (`/repo/src/archon/util/perlin_noise.hpp:325-340`), with `core::lerp()`
(`/repo/src/archon/core/math.hpp:209-213`). -/
noncomputable def interpolate (I : Interp) (a b t : ℝ) : ℝ :=
  let u := fade I t
  (1 - u) * a + u * b

/-- The labels in `PerlinNoise::operator()()` (`/repo/src/archon/util/perlin_noise.hpp:293` and `297`). -/
inductive Label where
  | enter
  | leave

/-- The variables in the second half of `PerlinNoise::operator()()` (`/repo/src/archon/util/perlin_noise.hpp:259` and `287-291`). -/
structure Regs (N : ℕ) where
  index : ℕ
  vecShift : Fin N → ℝ := fun _ => 0
  dim : ℕ := 0
  val : ℝ := 0
  stack : Fin N → ℝ := fun _ => 0

/-- From one label to the next one, or to the return statement (`/repo/src/archon/util/perlin_noise.hpp:293-311`). When a gradient is
accessed, it is at the current index. -/
noncomputable def Noise.step {N : ℕ} (I : Interp) (s : Noise N) (vec : Fin N → ℝ) (indexShifts : Fin N → ℕ) :
    Label × Regs N → (Label × Regs N) ⊕ ℝ
  | (.enter, r) =>
    .inl (.leave, { r with dim := 0, val := ∑ i, s.gradients r.index i * (vec - r.vecShift) i })
  | (.leave, r) =>
    if h : r.dim < N then
      let dim : Fin N := ⟨r.dim, h⟩
      if r.vecShift dim = 0 then
        .inl (.enter, { r with
          stack := Function.update r.stack dim r.val
          index := r.index + indexShifts dim
          vecShift := Function.update r.vecShift dim 1 })
      else
        .inl (.leave, { r with
          index := r.index - indexShifts dim
          vecShift := Function.update r.vecShift dim 0
          val := interpolate I (r.stack dim) r.val (vec dim)
          dim := r.dim + 1 })
    else .inr r.val

/-- The second half of `PerlinNoise::operator()()` (`/repo/src/archon/util/perlin_noise.hpp:287-311`). The first argument is an upper bound
on the number of steps. The result is absent if it is exceeded. The second component of the result is the list of indexes of gradients
that were accessed. -/
noncomputable def Noise.exec {N : ℕ} (I : Interp) (s : Noise N) (vec : Fin N → ℝ) (indexShifts : Fin N → ℕ) :
    ℕ → Label × Regs N → List ℕ → Option (ℝ × List ℕ)
  | 0, _, _ => none
  | fuel + 1, x, accesses =>
    let accesses := match x.1 with
      | .enter => accesses ++ [x.2.index]
      | .leave => accesses
    match s.step I vec indexShifts x with
    | .inl x => s.exec I vec indexShifts fuel x accesses
    | .inr val => some (val, accesses)

/-- `PerlinNoise::operator()()` (`/repo/src/archon/util/perlin_noise.hpp:257-312`). -/
noncomputable def Noise.value {N : ℕ} (I : Interp) (s : Noise N) (pos : Fin N → ℝ) : Option (ℝ × List ℕ) :=
  let u := s.setup pos
  s.exec I u.vec u.indexShifts (3 * 2 ^ N) (.enter, { index := u.index }) []

/-- `PerlinNoise::operator()()` with a range (`/repo/src/archon/util/perlin_noise.hpp:316-321`). -/
noncomputable def Noise.valueInRange {N : ℕ} (I : Interp) (s : Noise N) (pos : Fin N → ℝ) (a b : ℝ) : Option ℝ :=
  (s.value I pos).map fun v =>
    let val := (1 + v.1 / amplitude N) / 2
    a + val * (b - a)

end Verif.Perlin
