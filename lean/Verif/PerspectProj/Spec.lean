import Verif.PerspectProj.Model
import Mathlib.MeasureTheory.Integral.IntervalIntegral.FundThmCalculus

/-!
# Specification of perspective projection

The oculus of the camera is at the origin, and the camera looks along the Z-axis. What is captured by the camera is described by the
intersection with the plane at distance one from the oculus: a rectangle centered on the Z-axis.
-/

namespace Verif.PerspectProj.Spec

/-- The parameters make sense. -/
structure Valid (s : Proj) : Prop where
  horzDotPitch : 0 < s.horzDotPitch
  vertDotPitch : 0 < s.vertDotPitch
  viewDist : 0 < s.viewDist
  aspectRatio : 0 < s.aspectRatio
  meanNeutralFov : 0 < s.meanNeutralFov
  farToNearClipRatio : 0 < s.farToNearClipRatio
  zoomFactor : 0 < s.zoomFactor
  cameraDist : 0 < s.cameraDist

/-- Width and height of the captured rectangle at distance one (the horizontal and vertical fields of view), given the mean field of view
and the aspect ratio: the mean field of view is the geometric mean between them, and the aspect ratio is the ratio between them. -/
structure Captures (meanFov aspectRatio width height : ℝ) : Prop where
  width_pos : 0 < width
  height_pos : 0 < height
  mean : meanFov ^ 2 = width * height
  ratio : width = aspectRatio * height

/-- A line segment of the specified length that is centered on the Z-axis at distance one from the oculus, is seen from the oculus at the
specified angle (the angle between the lines of sight to the two ends of it). -/
def SeenAt (length angle : ℝ) : Prop :=
  0 ≤ angle ∧ angle ≤ Real.pi ∧
    Real.cos angle * (√((-length / 2) ^ 2 + 1 ^ 2) * √((length / 2) ^ 2 + 1 ^ 2)) = (-length / 2) * (length / 2) + 1 * 1

/-- The solid angle of a rectangle that is centered on the Z-axis at distance one from the oculus: the area of its projection onto the unit
sphere. At the point `(x, y, 1)`, whose distance from the origin is `r`, the area is scaled by `1 / r ^ 2` due to the distance, and by
`1 / r` due to the angle of incidence. -/
noncomputable def solidAngle (width height : ℝ) : ℝ :=
  ∫ y in (-height / 2)..(height / 2), ∫ x in (-width / 2)..(width / 2), 1 / √(x ^ 2 + y ^ 2 + 1) ^ 3

/-- The projection of a sphere onto the plane at distance one from the oculus. The center of the sphere is on the Z-axis at the specified
distance from the oculus. A point is in the projection if the ray from the oculus through the point hits the sphere. -/
def projection (dist diameter : ℝ) : Set (ℝ × ℝ) :=
  { p | ∃ t, 0 < t ∧ (t * p.1) ^ 2 + (t * p.2) ^ 2 + (t * 1 - dist) ^ 2 ≤ (diameter / 2) ^ 2 }

/-- The disk of the specified diameter. -/
def disk (diameter : ℝ) : Set (ℝ × ℝ) := { p | p.1 ^ 2 + p.2 ^ 2 ≤ (diameter / 2) ^ 2 }

end Verif.PerspectProj.Spec
