import Verif.Perlin.Model
import Mathlib.Data.Fintype.Pi

/-!
# Specification of Perlin noise
-/

namespace Verif.Perlin.Spec

/-- Coordinate of a position in terms of the grid: in units of grid modules, relative to the beginning of the grid, and moved to the
boundary of the grid if the position is outside. -/
noncomputable def coord (size : ℕ) (gauge origin pos : ℝ) : ℝ := max 0 (min (size : ℝ) ((pos - origin) / gauge))

/-- The interpolation functions: the identity, smoothstep, and smootherstep. -/
noncomputable def blend : Interp → ℝ → ℝ
  | .linear, t => t
  | .smooth, t => 3 * t ^ 2 - 2 * t ^ 3
  | .smoother, t => 6 * t ^ 5 - 15 * t ^ 4 + 10 * t ^ 3

/-- The influence of a vertex at the specified distance along an axis: it is one at the vertex, and decreases to zero at the neighboring
vertices and beyond. -/
noncomputable def weight (I : Interp) (dist : ℝ) : ℝ := 1 - blend I (min |dist| 1)

/-- The vertices of the grid. -/
def vertices {N : ℕ} (size : Fin N → ℕ) : Finset (Fin N → ℕ) := Fintype.piFinset fun i => Finset.range (size i + 1)

/-- The index of the gradient of a vertex: the first coordinate varies fastest. -/
def linear : (N : ℕ) → (Fin N → ℕ) → (Fin N → ℕ) → ℕ
  | 0, _, _ => 0
  | N + 1, size, v => v 0 + (size 0 + 1) * linear N (fun i => size i.succ) (fun i => v i.succ)

/-- Perlin noise: the weighted sum, over all vertices, of the linear functions that are zero at the vertex and have the gradient of the
vertex. -/
noncomputable def noise {N : ℕ} (I : Interp) (size : Fin N → ℕ) (gradient : (Fin N → ℕ) → Fin N → ℝ) (x : Fin N → ℝ) : ℝ :=
  ∑ v ∈ vertices size, (∏ i, weight I (x i - v i)) * ∑ i, gradient v i * (x i - v i)

end Verif.Perlin.Spec
