import Mathlib.Analysis.SpecialFunctions.Trigonometric.Arctan

/-!
# Model of perspective projection

Model of `/repo/src/archon/util/perspect_proj.hpp`. Arithmetic is exact: floating-point numbers are real numbers.
-/

namespace Verif.PerspectProj

/-- `PerspectiveProjection` (`/repo/src/archon/util/perspect_proj.hpp:64-172`). -/
structure Proj where
  horzDotPitch : ℝ := 0.0254 / 96
  vertDotPitch : ℝ := 0.0254 / 96
  viewDist : ℝ := 0.6
  aspectRatio : ℝ := 1
  meanNeutralFov : ℝ := 0.5
  farToNearClipRatio : ℝ := 100
  zoomFactor : ℝ := 1
  cameraDist : ℝ := 10

/-- `std::round()`: half-way cases are rounded away from zero. -/
noncomputable def round (x : ℝ) : ℤ := if x < 0 then -⌊-x + 1 / 2⌋ else ⌊x + 1 / 2⌋

/-- `core::clamped_float_to_int<int>()` (`/repo/src/archon/core/float.hpp:344-355`) for an integral argument, with 32-bit `int`. -/
def clampedFloatToInt (x : ℤ) : ℤ := if x < -2 ^ 31 then -2 ^ 31 else if x > 2 ^ 31 - 1 then 2 ^ 31 - 1 else x

/-- `core::square()` (`/repo/src/archon/core/math.hpp`). -/
noncomputable def square (x : ℝ) : ℝ := x * x

namespace Proj

/-- `get_horz_resol_dpcm()` (`/repo/src/archon/util/perspect_proj.hpp:645-648`). -/
noncomputable def getHorzResolDpcm (s : Proj) : ℝ := 0.01 / s.horzDotPitch

/-- `get_vert_resol_dpcm()` (`/repo/src/archon/util/perspect_proj.hpp:651-654`). -/
noncomputable def getVertResolDpcm (s : Proj) : ℝ := 0.01 / s.vertDotPitch

/-- `set_resol_dpcm()` (`/repo/src/archon/util/perspect_proj.hpp:657-661`). -/
noncomputable def setResolDpcm (s : Proj) (horz vert : ℝ) : Proj := { s with horzDotPitch := 0.01 / horz, vertDotPitch := 0.01 / vert }

/-- `get_horz_resol_dpi()` (`/repo/src/archon/util/perspect_proj.hpp:664-667`). -/
noncomputable def getHorzResolDpi (s : Proj) : ℝ := 0.0254 / s.horzDotPitch

/-- `get_vert_resol_dpi()` (`/repo/src/archon/util/perspect_proj.hpp:670-673`). -/
noncomputable def getVertResolDpi (s : Proj) : ℝ := 0.0254 / s.vertDotPitch

/-- `set_resol_dpi()` (`/repo/src/archon/util/perspect_proj.hpp:676-680`). -/
noncomputable def setResolDpi (s : Proj) (h v : ℝ) : Proj := { s with horzDotPitch := 0.0254 / h, vertDotPitch := 0.0254 / v }

/-- `get_mean_field_factor()` (`/repo/src/archon/util/perspect_proj.hpp:819-822`). -/
noncomputable def getMeanFieldFactor (_ : Proj) : ℝ := 1

/-- `get_horz_field_factor()` (`/repo/src/archon/util/perspect_proj.hpp:825-828`). -/
noncomputable def getHorzFieldFactor (s : Proj) : ℝ := √s.aspectRatio

/-- `get_vert_field_factor()` (`/repo/src/archon/util/perspect_proj.hpp:831-834`). -/
noncomputable def getVertFieldFactor (s : Proj) : ℝ := 1 / √s.aspectRatio

/-- `get_diag_field_factor()` (`/repo/src/archon/util/perspect_proj.hpp:837-840`). -/
noncomputable def getDiagFieldFactor (s : Proj) : ℝ := √(s.aspectRatio + 1 / s.aspectRatio)

/-- `get_min_field_factor()` (`/repo/src/archon/util/perspect_proj.hpp:843-846`). -/
noncomputable def getMinFieldFactor (s : Proj) : ℝ := √(min s.aspectRatio (1 / s.aspectRatio))

/-- `get_max_field_factor()` (`/repo/src/archon/util/perspect_proj.hpp:849-852`). -/
noncomputable def getMaxFieldFactor (s : Proj) : ℝ := √(max s.aspectRatio (1 / s.aspectRatio))

/-- `get_neutral_fov()` (`/repo/src/archon/util/perspect_proj.hpp:757-760`). -/
noncomputable def getNeutralFov (s : Proj) (fieldFactor : ℝ) : ℝ := s.meanNeutralFov * fieldFactor

/-- `get_effective_fov()` (`/repo/src/archon/util/perspect_proj.hpp:763-766`). -/
noncomputable def getEffectiveFov (s : Proj) (fieldFactor : ℝ) : ℝ := s.getNeutralFov fieldFactor / s.zoomFactor

/-- `get_viewport_width_meters()` (`/repo/src/archon/util/perspect_proj.hpp:683-686`). -/
noncomputable def getViewportWidthMeters (s : Proj) : ℝ := s.viewDist * s.getNeutralFov s.getHorzFieldFactor

/-- `get_viewport_height_meters()` (`/repo/src/archon/util/perspect_proj.hpp:689-692`). -/
noncomputable def getViewportHeightMeters (s : Proj) : ℝ := s.viewDist * s.getNeutralFov s.getVertFieldFactor

/-- `set_viewport_size_meters()` (`/repo/src/archon/util/perspect_proj.hpp:695-699`). -/
noncomputable def setViewportSizeMeters (s : Proj) (width height : ℝ) : Proj :=
  { s with aspectRatio := width / height, meanNeutralFov := √(width * height) / s.viewDist }

/-- `get_viewport_width_pixels()` (`/repo/src/archon/util/perspect_proj.hpp:702-705`). -/
noncomputable def getViewportWidthPixels (s : Proj) : ℤ := clampedFloatToInt (round (s.getViewportWidthMeters / s.horzDotPitch))

/-- `get_viewport_height_pixels()` (`/repo/src/archon/util/perspect_proj.hpp:708-711`). -/
noncomputable def getViewportHeightPixels (s : Proj) : ℤ := clampedFloatToInt (round (s.getViewportHeightMeters / s.vertDotPitch))

/-- `set_viewport_size_pixels()` (`/repo/src/archon/util/perspect_proj.hpp:714-717`). -/
noncomputable def setViewportSizePixels (s : Proj) (width height : ℤ) : Proj :=
  s.setViewportSizeMeters (width * s.horzDotPitch) (height * s.vertDotPitch)

/-- `get_near_clip_dist()` (`/repo/src/archon/util/perspect_proj.hpp:720-723`). -/
noncomputable def getNearClipDist (s : Proj) : ℝ := s.cameraDist / √s.farToNearClipRatio

/-- `get_far_clip_dist()` (`/repo/src/archon/util/perspect_proj.hpp:726-729`). -/
noncomputable def getFarClipDist (s : Proj) : ℝ := s.getNearClipDist * s.farToNearClipRatio

/-- `get_near_clip_width()` (`/repo/src/archon/util/perspect_proj.hpp:732-735`). -/
noncomputable def getNearClipWidth (s : Proj) : ℝ := s.getNearClipDist * s.getEffectiveFov s.getHorzFieldFactor

/-- `get_near_clip_height()` (`/repo/src/archon/util/perspect_proj.hpp:738-741`). -/
noncomputable def getNearClipHeight (s : Proj) : ℝ := s.getNearClipDist * s.getEffectiveFov s.getVertFieldFactor

/-- `auto_dist()` (`/repo/src/archon/util/perspect_proj.hpp:744-748`). There is a local variable with the same name as the data member that
holds the zoom factor. -/
noncomputable def autoDist (s : Proj) (interestSize fieldFactor : ℝ) : Proj :=
  let zoomFactor := 1
  { s with cameraDist := interestSize * √(0.25 + square (zoomFactor / s.meanNeutralFov / fieldFactor)) }

/-- `auto_zoom()` (`/repo/src/archon/util/perspect_proj.hpp:751-754`). -/
noncomputable def autoZoom (s : Proj) (interestSize fieldFactor : ℝ) : Proj :=
  { s with zoomFactor := s.meanNeutralFov * fieldFactor * √(square (s.cameraDist / interestSize) - 0.25) }

/-- `get_neutral_solid_angle_of_view()` (`/repo/src/archon/util/perspect_proj.hpp:769-772`). -/
noncomputable def getNeutralSolidAngleOfView (s : Proj) : ℝ :=
  4 * Real.arctan (1 / √(4 / square s.meanNeutralFov + s.aspectRatio + 1 / s.aspectRatio))

/-- `set_neutral_solid_angle_of_view()` (`/repo/src/archon/util/perspect_proj.hpp:775-778`). -/
noncomputable def setNeutralSolidAngleOfView (s : Proj) (solidAngle : ℝ) : Proj :=
  { s with meanNeutralFov := √(4 / (square (1 / Real.tan (solidAngle / 4)) - s.aspectRatio - 1 / s.aspectRatio)) }

/-- `get_effective_solid_angle_of_view()` (`/repo/src/archon/util/perspect_proj.hpp:781-785`). -/
noncomputable def getEffectiveSolidAngleOfView (s : Proj) : ℝ :=
  4 * Real.arctan (1 / √(4 / square (s.meanNeutralFov / s.zoomFactor) + s.aspectRatio + 1 / s.aspectRatio))

/-- `set_effective_solid_angle_of_view()` (`/repo/src/archon/util/perspect_proj.hpp:788-792`). -/
noncomputable def setEffectiveSolidAngleOfView (s : Proj) (solidAngle : ℝ) : Proj :=
  { s with
    meanNeutralFov := s.zoomFactor * √(4 / (square (1 / Real.tan (solidAngle / 4)) - s.aspectRatio - 1 / s.aspectRatio)) }

/-- `get_neutral_angle_of_view()` (`/repo/src/archon/util/perspect_proj.hpp:795-798`). -/
noncomputable def getNeutralAngleOfView (s : Proj) (fieldFactor : ℝ) : ℝ := 2 * Real.arctan (fieldFactor * s.meanNeutralFov / 2)

/-- `set_neutral_angle_of_view()` (`/repo/src/archon/util/perspect_proj.hpp:801-804`). -/
noncomputable def setNeutralAngleOfView (s : Proj) (angle fieldFactor : ℝ) : Proj :=
  { s with meanNeutralFov := 2 * Real.tan (angle / 2) / fieldFactor }

/-- `get_effective_angle_of_view()` (`/repo/src/archon/util/perspect_proj.hpp:807-810`). -/
noncomputable def getEffectiveAngleOfView (s : Proj) (fieldFactor : ℝ) : ℝ :=
  2 * Real.arctan (fieldFactor * s.meanNeutralFov / s.zoomFactor / 2)

/-- `set_effective_angle_of_view()` (`/repo/src/archon/util/perspect_proj.hpp:813-816`). -/
noncomputable def setEffectiveAngleOfView (s : Proj) (angle fieldFactor : ℝ) : Proj :=
  { s with meanNeutralFov := 2 * s.zoomFactor * Real.tan (angle / 2) / fieldFactor }

end Proj

end Verif.PerspectProj
