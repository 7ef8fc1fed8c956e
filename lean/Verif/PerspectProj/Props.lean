import Verif.PerspectProj.Lemmas

/-!
# Properties of perspective projection

See C135, C136, C137, and C138 in `properties.jsonl`.
-/

namespace Verif.PerspectProj

open Spec

/-- The default parameters make sense. -/
example : Valid {} := by constructor <;> norm_num

/-! ### C135: size of viewport, and resolution of screen -/

/-- After setting the size of the viewport in meters, that is the size of the viewport, and no parameters other than the field of view and
the aspect ratio have changed. -/
theorem C135_viewport_meters (s : Proj) (hs : Valid s) {width height : ℝ} (hw : 0 < width) (hh : 0 < height) :
    let s' := s.setViewportSizeMeters width height
    s'.getViewportWidthMeters = width ∧ s'.getViewportHeightMeters = height ∧ Valid s' ∧
    s' = { s with aspectRatio := s'.aspectRatio, meanNeutralFov := s'.meanNeutralFov } := by
  have hd := hs.viewDist
  have h1 : 0 < √(width * height) := Real.sqrt_pos.mpr (mul_pos hw hh)
  have h2 : 0 < √width := Real.sqrt_pos.mpr hw
  have h3 : 0 < √height := Real.sqrt_pos.mpr hh
  have e2 : √width ^ 2 = width := Real.sq_sqrt hw.le
  have e3 : √height ^ 2 = height := Real.sq_sqrt hh.le
  refine ⟨?_, ?_, ?_, rfl⟩
  · unfold Proj.getViewportWidthMeters Proj.getNeutralFov Proj.getHorzFieldFactor Proj.setViewportSizeMeters
    simp only
    rw [Real.sqrt_div hw.le, Real.sqrt_mul hw.le]
    field_simp
    linarith
  · unfold Proj.getViewportHeightMeters Proj.getNeutralFov Proj.getVertFieldFactor Proj.setViewportSizeMeters
    simp only
    rw [Real.sqrt_div hw.le, Real.sqrt_mul hw.le]
    field_simp
    linarith
  · exact ⟨hs.horzDotPitch, hs.vertDotPitch, hd, div_pos hw hh, div_pos h1 hd, hs.farToNearClipRatio, hs.zoomFactor, hs.cameraDist⟩

/-- After setting the size of the viewport in pixels, that is the size of the viewport. -/
theorem C135_viewport_pixels (s : Proj) (hs : Valid s) {width height : ℤ} (hw : 0 < width) (hh : 0 < height) (hw' : width < 2 ^ 31)
    (hh' : height < 2 ^ 31) :
    let s' := s.setViewportSizePixels width height
    s'.getViewportWidthPixels = width ∧ s'.getViewportHeightPixels = height ∧ Valid s' := by
  have hp := hs.horzDotPitch
  have hq := hs.vertDotPitch
  have hwR : (0 : ℝ) < width := by exact_mod_cast hw
  have hhR : (0 : ℝ) < height := by exact_mod_cast hh
  obtain ⟨h1, h2, h3, -⟩ := C135_viewport_meters s hs (mul_pos hwR hp) (mul_pos hhR hq)
  refine ⟨?_, ?_, h3⟩
  · unfold Proj.getViewportWidthPixels Proj.setViewportSizePixels
    rw [h1]
    have e : (s.setViewportSizeMeters (width * s.horzDotPitch) (height * s.vertDotPitch)).horzDotPitch = s.horzDotPitch := rfl
    rw [e, mul_div_cancel_right₀ _ hp.ne', round_int, clamped_int hw hw']
  · unfold Proj.getViewportHeightPixels Proj.setViewportSizePixels
    rw [h2]
    have e : (s.setViewportSizeMeters (width * s.horzDotPitch) (height * s.vertDotPitch)).vertDotPitch = s.vertDotPitch := rfl
    rw [e, mul_div_cancel_right₀ _ hq.ne', round_int, clamped_int hh hh']

/-- After setting the resolution, that is the resolution. There are 2.54 centimeters per inch. -/
theorem C135_resolution (s : Proj) {horz vert : ℝ} (hh : 0 < horz) (hv : 0 < vert) :
    (s.setResolDpcm horz vert).getHorzResolDpcm = horz ∧ (s.setResolDpcm horz vert).getVertResolDpcm = vert ∧
    (s.setResolDpi horz vert).getHorzResolDpi = horz ∧ (s.setResolDpi horz vert).getVertResolDpi = vert ∧
    s.getHorzResolDpi = s.getHorzResolDpcm * 2.54 ∧ s.getVertResolDpi = s.getVertResolDpcm * 2.54 := by
  unfold Proj.getHorzResolDpcm Proj.getVertResolDpcm Proj.getHorzResolDpi Proj.getVertResolDpi Proj.setResolDpcm Proj.setResolDpi
  simp only
  refine ⟨?_, ?_, ?_, ?_, ?_, ?_⟩
  · field_simp
  · field_simp
  · field_simp
  · field_simp
  · rw [div_mul_eq_mul_div]; norm_num
  · rw [div_mul_eq_mul_div]; norm_num

/-- A viewport of 1920 by 1080 pixels. -/
example : (({} : Proj).setViewportSizePixels 1920 1080).getViewportWidthPixels = 1920 :=
  (C135_viewport_pixels {} (by constructor <;> norm_num) (by norm_num) (by norm_num) (by norm_num) (by norm_num)).1

/-! ### C136: fields and angles of view -/

/-- The fields of view in the horizontal and the vertical direction are the ones, and the only ones, whose geometric mean is the mean field
of view, and whose ratio is the aspect ratio. Zooming divides the field of view by the zoom factor. The minimum, maximum, and diagonal fields
of view are what the words say. -/
theorem C136_fields (s : Proj) (hs : Valid s) (width height : ℝ) :
    (Captures s.meanNeutralFov s.aspectRatio width height ↔
      s.getNeutralFov s.getHorzFieldFactor = width ∧ s.getNeutralFov s.getVertFieldFactor = height) ∧
    (Captures (s.meanNeutralFov / s.zoomFactor) s.aspectRatio width height ↔
      s.getEffectiveFov s.getHorzFieldFactor = width ∧ s.getEffectiveFov s.getVertFieldFactor = height) ∧
    (Captures s.meanNeutralFov s.aspectRatio width height →
      s.getNeutralFov s.getMeanFieldFactor = √(width * height) ∧ s.getNeutralFov s.getMinFieldFactor = min width height ∧
      s.getNeutralFov s.getMaxFieldFactor = max width height ∧ s.getNeutralFov s.getDiagFieldFactor = √(width ^ 2 + height ^ 2)) := by
  have hf := hs.meanNeutralFov
  have hr := hs.aspectRatio
  have hz := hs.zoomFactor
  refine ⟨?_, ?_, ?_⟩
  · rw [captures_iff hf hr]
    exact ⟨fun ⟨a, b⟩ => ⟨a.symm, b.symm⟩, fun ⟨a, b⟩ => ⟨a.symm, b.symm⟩⟩
  · rw [captures_iff (div_pos hf hz) hr]
    unfold Proj.getEffectiveFov Proj.getNeutralFov Proj.getHorzFieldFactor Proj.getVertFieldFactor
    rw [div_mul_eq_mul_div, div_mul_eq_mul_div]
    exact ⟨fun ⟨a, b⟩ => ⟨a.symm, b.symm⟩, fun ⟨a, b⟩ => ⟨a.symm, b.symm⟩⟩
  · intro hc
    have hc' := (captures_iff hf hr).mp hc
    have hsr : 0 < √s.aspectRatio := Real.sqrt_pos.mpr hr
    have h1 : √(1 / s.aspectRatio) = 1 / √s.aspectRatio := by rw [Real.sqrt_div' _ hr.le, Real.sqrt_one]
    unfold Proj.getNeutralFov Proj.getMeanFieldFactor Proj.getMinFieldFactor Proj.getMaxFieldFactor Proj.getDiagFieldFactor
    refine ⟨?_, ?_, ?_, ?_⟩
    · rw [← hc.mean, Real.sqrt_sq hf.le, mul_one]
    · rw [(Real.sqrt_monotone).map_min, mul_min_of_nonneg _ _ hf.le, h1, hc'.1, hc'.2]
    · rw [(Real.sqrt_monotone).map_max, mul_max_of_nonneg _ _ hf.le, h1, hc'.1, hc'.2]
    · have e : width ^ 2 + height ^ 2 = s.meanNeutralFov ^ 2 * (s.aspectRatio + 1 / s.aspectRatio) := by
        have h2 : √s.aspectRatio ^ 2 = s.aspectRatio := Real.sq_sqrt hr.le
        rw [hc'.1, hc'.2, mul_pow, mul_pow, div_pow, h2]
        ring
      rw [e, Real.sqrt_mul (by positivity), Real.sqrt_sq hf.le]

/-- The angle of view is the angle at which the field of view is seen from the oculus of the camera. -/
theorem C136_angle (s : Proj) (hs : Valid s) {fieldFactor : ℝ} (hf : 0 ≤ fieldFactor) :
    SeenAt (s.getNeutralFov fieldFactor) (s.getNeutralAngleOfView fieldFactor) ∧
    SeenAt (s.getEffectiveFov fieldFactor) (s.getEffectiveAngleOfView fieldFactor) := by
  have h1 := hs.meanNeutralFov
  have h2 := hs.zoomFactor
  unfold Proj.getEffectiveFov Proj.getNeutralFov Proj.getNeutralAngleOfView Proj.getEffectiveAngleOfView
  rw [mul_comm fieldFactor]
  exact ⟨seenAt_arctan (by positivity), seenAt_arctan (by positivity)⟩

/-- After setting the angle of view, that is the angle of view. -/
theorem C136_set_angle (s : Proj) (hs : Valid s) {fieldFactor angle : ℝ} (hf : 0 < fieldFactor) (h0 : 0 < angle) (h1 : angle < Real.pi) :
    (s.setNeutralAngleOfView angle fieldFactor).getNeutralAngleOfView fieldFactor = angle ∧
    (s.setEffectiveAngleOfView angle fieldFactor).getEffectiveAngleOfView fieldFactor = angle ∧
    Valid (s.setNeutralAngleOfView angle fieldFactor) ∧ Valid (s.setEffectiveAngleOfView angle fieldFactor) := by
  have hz := hs.zoomFactor
  have ht : 0 < Real.tan (angle / 2) := Real.tan_pos_of_pos_of_lt_pi_div_two (by linarith) (by linarith)
  have h2 : Real.arctan (Real.tan (angle / 2)) = angle / 2 := Real.arctan_tan (by linarith [Real.pi_pos]) (by linarith)
  refine ⟨?_, ?_, ?_, ?_⟩
  · unfold Proj.getNeutralAngleOfView Proj.setNeutralAngleOfView
    simp only
    have e : fieldFactor * (2 * Real.tan (angle / 2) / fieldFactor) / 2 = Real.tan (angle / 2) := by field_simp
    rw [e, h2]; ring
  · unfold Proj.getEffectiveAngleOfView Proj.setEffectiveAngleOfView
    simp only
    have e : fieldFactor * (2 * s.zoomFactor * Real.tan (angle / 2) / fieldFactor) / s.zoomFactor / 2 = Real.tan (angle / 2) := by field_simp
    rw [e, h2]; ring
  · exact ⟨hs.horzDotPitch, hs.vertDotPitch, hs.viewDist, hs.aspectRatio, by unfold Proj.setNeutralAngleOfView; positivity, hs.farToNearClipRatio, hz, hs.cameraDist⟩
  · exact ⟨hs.horzDotPitch, hs.vertDotPitch, hs.viewDist, hs.aspectRatio, by unfold Proj.setEffectiveAngleOfView; positivity, hs.farToNearClipRatio, hz, hs.cameraDist⟩

/-- The ratio between the distances to the clipping planes is as specified, and their geometric mean is the distance to the center of
interest. What is captured at the near clipping plane is what is captured at distance one, scaled by the distance. -/
theorem C136_clip (s : Proj) (hs : Valid s) {width height : ℝ}
    (hc : Captures (s.meanNeutralFov / s.zoomFactor) s.aspectRatio width height) :
    0 < s.getNearClipDist ∧ s.getFarClipDist = s.farToNearClipRatio * s.getNearClipDist ∧
    √(s.getNearClipDist * s.getFarClipDist) = s.cameraDist ∧
    s.getNearClipWidth = s.getNearClipDist * width ∧ s.getNearClipHeight = s.getNearClipDist * height := by
  have h1 := hs.farToNearClipRatio
  have h2 := hs.cameraDist
  have h3 : 0 < √s.farToNearClipRatio := Real.sqrt_pos.mpr h1
  obtain ⟨-, h4, -⟩ := C136_fields s hs width height
  obtain ⟨h5, h6⟩ := h4.mp hc
  refine ⟨div_pos h2 h3, ?_, ?_, ?_, ?_⟩
  · unfold Proj.getFarClipDist; ring
  · unfold Proj.getFarClipDist Proj.getNearClipDist
    have e : s.cameraDist / √s.farToNearClipRatio * (s.cameraDist / √s.farToNearClipRatio * s.farToNearClipRatio) = s.cameraDist ^ 2 := by
      have : √s.farToNearClipRatio ^ 2 = s.farToNearClipRatio := Real.sq_sqrt h1.le
      field_simp
      exact this.symm
    rw [e, Real.sqrt_sq h2.le]
  · unfold Proj.getNearClipWidth; rw [h5]
  · unfold Proj.getNearClipHeight; rw [h6]

/-- A quarter turn. -/
example : SeenAt 2 (Real.pi / 2) := by
  have h := seenAt_arctan (l := 2) (by norm_num)
  rw [div_self two_ne_zero, Real.arctan_one] at h
  rw [show 2 * (Real.pi / 4) = Real.pi / 2 by ring] at h
  exact h

/-! ### C137: solid angle of view -/

/-- The solid angle of view that is computed is the actual one only if the mean field of view is 2. -/
theorem C137_solid_angle_partial (s : Proj) (hs : Valid s) {width height : ℝ} :
    (Captures s.meanNeutralFov s.aspectRatio width height →
      (s.getNeutralSolidAngleOfView = solidAngle width height ↔ s.meanNeutralFov = 2)) ∧
    (Captures (s.meanNeutralFov / s.zoomFactor) s.aspectRatio width height →
      (s.getEffectiveSolidAngleOfView = solidAngle width height ↔ s.meanNeutralFov / s.zoomFactor = 2)) := by
  have key : ∀ f r w h : ℝ, 0 < f → 0 < r → Captures f r w h →
      (4 * Real.arctan (1 / √(4 / square f + r + 1 / r)) = solidAngle w h ↔ f = 2) := by
    intro f r w h hf hr hc
    rw [computed_eq hf hr hc, solidAngle_eq, ← hc.mean]
    have hp : 0 < √(w ^ 2 + h ^ 2 + 4) := Real.sqrt_pos.mpr (by positivity)
    rw [mul_right_inj' (by norm_num : (4 : ℝ) ≠ 0), Real.arctan_inj]
    constructor
    · intro e
      field_simp at e
      linarith
    · intro e
      subst e
      field_simp
  exact ⟨key _ _ _ _ hs.meanNeutralFov hs.aspectRatio, key _ _ _ _ (div_pos hs.meanNeutralFov hs.zoomFactor) hs.aspectRatio⟩

/-- The actual solid angle. -/
theorem C137_actual (s : Proj) (hs : Valid s) {width height : ℝ} (hc : Captures s.meanNeutralFov s.aspectRatio width height) :
    solidAngle width height =
      4 * Real.arctan (s.meanNeutralFov / (2 * √(4 / s.meanNeutralFov ^ 2 + s.aspectRatio + 1 / s.aspectRatio))) := by
  have h := computed_eq hs.meanNeutralFov hs.aspectRatio hc
  have hp : 0 < √(width ^ 2 + height ^ 2 + 4) := Real.sqrt_pos.mpr (by positivity)
  have hf := hs.meanNeutralFov
  have hr := hs.aspectRatio
  rw [solidAngle_eq, ← hc.mean]
  unfold square at h
  rw [← pow_two] at h
  have hq : 0 < √(4 / s.meanNeutralFov ^ 2 + s.aspectRatio + 1 / s.aspectRatio) := Real.sqrt_pos.mpr (by positivity)
  congr 2
  generalize √(4 / s.meanNeutralFov ^ 2 + s.aspectRatio + 1 / s.aspectRatio) = A at *
  generalize √(width ^ 2 + height ^ 2 + 4) = B at *
  field_simp at h ⊢
  rw [h]

/-- With default parameters, the computed solid angle is more than three times as large as the actual one. -/
theorem C137_wrong :
    Captures ({} : Proj).meanNeutralFov ({} : Proj).aspectRatio 0.5 0.5 ∧
    solidAngle 0.5 0.5 < 0.25 ∧ 0.8 < ({} : Proj).getNeutralSolidAngleOfView := by
  refine ⟨?_, ?_, ?_⟩
  · constructor <;> norm_num
  · rw [solidAngle_eq]
    have h1 : 2 ≤ √((0.5 : ℝ) ^ 2 + 0.5 ^ 2 + 4) := Real.le_sqrt_of_sq_le (by norm_num)
    have h2 : (0.5 : ℝ) * 0.5 / (2 * √((0.5 : ℝ) ^ 2 + 0.5 ^ 2 + 4)) ≤ 0.0625 := by
      rw [div_le_iff₀ (by linarith)]
      linarith
    have h3 : (0 : ℝ) < 0.5 * 0.5 / (2 * √((0.5 : ℝ) ^ 2 + 0.5 ^ 2 + 4)) := by positivity
    have h4 := arctan_lt_self' h3
    linarith
  · unfold Proj.getNeutralSolidAngleOfView square
    simp only
    have h1 : √((4 : ℝ) / (0.5 * 0.5) + 1 + 1 / 1) ≤ 4.25 := by
      rw [Real.sqrt_le_left (by norm_num)]
      norm_num
    have h0 : 0 < √((4 : ℝ) / (0.5 * 0.5) + 1 + 1 / 1) := Real.sqrt_pos.mpr (by norm_num)
    have h2 : (1 : ℝ) / 4.25 ≤ 1 / √((4 : ℝ) / (0.5 * 0.5) + 1 + 1 / 1) := one_div_le_one_div_of_le h0 h1
    have h3 := Real.arctan_strictMono.monotone h2
    have h4 := lt_of_lt_of_le lt_arctan_bound h3
    norm_num at h4 ⊢
    linarith

/-- After setting the solid angle, that is what will be returned, provided that it is less than what is computed for an infinite field of
view. -/
theorem C137_set_get (s : Proj) (hs : Valid s) {angle : ℝ} (h0 : 0 < angle)
    (h1 : angle < 4 * Real.arctan (1 / √(s.aspectRatio + 1 / s.aspectRatio))) :
    (s.setNeutralSolidAngleOfView angle).getNeutralSolidAngleOfView = angle ∧
    (s.setEffectiveSolidAngleOfView angle).getEffectiveSolidAngleOfView = angle := by
  have hz := hs.zoomFactor
  have hr := hs.aspectRatio
  have hA : 0 < s.aspectRatio + 1 / s.aspectRatio := by positivity
  have hsA : 0 < √(s.aspectRatio + 1 / s.aspectRatio) := Real.sqrt_pos.mpr hA
  have h2 := Real.arctan_lt_pi_div_two (1 / √(s.aspectRatio + 1 / s.aspectRatio))
  have h3 : 0 < Real.tan (angle / 4) := Real.tan_pos_of_pos_of_lt_pi_div_two (by linarith) (by linarith)
  have h4 : Real.tan (angle / 4) < 1 / √(s.aspectRatio + 1 / s.aspectRatio) := by
    have := Real.tan_lt_tan_of_lt_of_lt_pi_div_two (x := angle / 4) (y := Real.arctan (1 / √(s.aspectRatio + 1 / s.aspectRatio)))
      (by linarith [Real.pi_pos]) h2 (by linarith)
    rwa [Real.tan_arctan] at this
  have h5 : Real.arctan (Real.tan (angle / 4)) = angle / 4 := Real.arctan_tan (by linarith [Real.pi_pos]) (by linarith)
  unfold Proj.setNeutralSolidAngleOfView Proj.getNeutralSolidAngleOfView Proj.setEffectiveSolidAngleOfView Proj.getEffectiveSolidAngleOfView square
  simp only
  generalize Real.tan (angle / 4) = t at *
  have h6 : s.aspectRatio + 1 / s.aspectRatio < 1 / t * (1 / t) := by
    have e : √(s.aspectRatio + 1 / s.aspectRatio) < 1 / t := by
      rw [lt_div_iff₀ hsA] at h4
      rw [lt_div_iff₀ h3]
      linarith
    have := mul_self_lt_mul_self hsA.le e
    rwa [Real.mul_self_sqrt hA.le] at this
  have h7 : 0 < 1 / t * (1 / t) - s.aspectRatio - 1 / s.aspectRatio := by linarith
  have h8 : 0 < √(4 / (1 / t * (1 / t) - s.aspectRatio - 1 / s.aspectRatio)) := Real.sqrt_pos.mpr (by positivity)
  have h9 : 4 / (√(4 / (1 / t * (1 / t) - s.aspectRatio - 1 / s.aspectRatio)) * √(4 / (1 / t * (1 / t) - s.aspectRatio - 1 / s.aspectRatio))) +
      s.aspectRatio + 1 / s.aspectRatio = (1 / t) ^ 2 := by
    rw [Real.mul_self_sqrt (by positivity), div_div_cancel₀ (by norm_num)]
    ring
  have h10 : 4 * Real.arctan (1 / √((1 / t) ^ 2)) = angle := by
    rw [Real.sqrt_sq (by positivity), one_div_one_div, h5]
    ring
  constructor
  · rw [h9, h10]
  · rw [mul_div_cancel_left₀ _ hz.ne', h9, h10]

/-! ### C138: automatic fitting of sphere of interest to viewport -/

/-- The projection of the sphere that is specified when adjusting the zoom factor is the disk whose diameter is the effective field of
view, provided that the camera is outside the sphere. -/
theorem C138_auto_zoom (s : Proj) (hs : Valid s) {interestSize fieldFactor : ℝ} (hi : 0 < interestSize) (hf : 0 < fieldFactor)
    (hd : interestSize / 2 < s.cameraDist) :
    let s' := s.autoZoom interestSize fieldFactor
    projection s'.cameraDist interestSize = disk (s'.getEffectiveFov fieldFactor) ∧ Valid s' ∧
    s' = { s with zoomFactor := s'.zoomFactor } := by
  have hm := hs.meanNeutralFov
  have hc := hs.cameraDist
  have hq : 0 < s.cameraDist ^ 2 - (interestSize / 2) ^ 2 := by nlinarith
  have e : square (s.cameraDist / interestSize) - 0.25 = (s.cameraDist ^ 2 - (interestSize / 2) ^ 2) / interestSize ^ 2 := by
    unfold square
    field_simp
    ring
  have hp : 0 < √(s.cameraDist ^ 2 - (interestSize / 2) ^ 2) := Real.sqrt_pos.mpr hq
  have e2 : √(square (s.cameraDist / interestSize) - 0.25) = √(s.cameraDist ^ 2 - (interestSize / 2) ^ 2) / interestSize := by
    rw [e, Real.sqrt_div' _ (by positivity), Real.sqrt_sq hi.le]
  refine ⟨?_, ?_, rfl⟩
  · have e3 : (s.autoZoom interestSize fieldFactor).cameraDist = s.cameraDist := rfl
    rw [e3, projection_eq hi hd]
    unfold Proj.getEffectiveFov Proj.getNeutralFov Proj.autoZoom
    simp only
    rw [e2]
    congr 1
    field_simp
  · refine ⟨hs.horzDotPitch, hs.vertDotPitch, hs.viewDist, hs.aspectRatio, hm, hs.farToNearClipRatio, ?_, hc⟩
    unfold Proj.autoZoom
    simp only
    rw [e2]
    positivity

/-- The projection of the sphere that is specified when adjusting the distance of the camera is the disk whose diameter is the neutral field
of view, regardless of the zoom factor. -/
theorem C138_auto_dist_neutral (s : Proj) (hs : Valid s) {interestSize fieldFactor : ℝ} (hi : 0 < interestSize) (hf : 0 < fieldFactor) :
    let s' := s.autoDist interestSize fieldFactor
    projection s'.cameraDist interestSize = disk (s'.getNeutralFov fieldFactor) ∧ Valid s' ∧ s' = { s with cameraDist := s'.cameraDist } ∧
    interestSize / 2 < s'.cameraDist := by
  have hm := hs.meanNeutralFov
  have h1 : (0 : ℝ) < 0.25 + square (1 / s.meanNeutralFov / fieldFactor) := by unfold square; positivity
  have h2 : (1 : ℝ) / 2 < √(0.25 + square (1 / s.meanNeutralFov / fieldFactor)) := by
    apply Real.lt_sqrt_of_sq_lt
    have : 0 < square (1 / s.meanNeutralFov / fieldFactor) := by unfold square; positivity
    norm_num at this ⊢
    linarith
  have hd : interestSize / 2 < (s.autoDist interestSize fieldFactor).cameraDist := by
    unfold Proj.autoDist
    simp only
    nlinarith
  refine ⟨?_, ?_, rfl, hd⟩
  · rw [projection_eq hi hd]
    have e : (s.autoDist interestSize fieldFactor).cameraDist ^ 2 - (interestSize / 2) ^ 2 = (interestSize / (s.meanNeutralFov * fieldFactor)) ^ 2 := by
      unfold Proj.autoDist
      simp only
      rw [mul_pow, Real.sq_sqrt h1.le]
      unfold square
      field_simp
      ring
    rw [e, Real.sqrt_sq (by positivity)]
    unfold Proj.getNeutralFov Proj.autoDist
    simp only
    congr 1
    field_simp
  · exact ⟨hs.horzDotPitch, hs.vertDotPitch, hs.viewDist, hs.aspectRatio, hm, hs.farToNearClipRatio, hs.zoomFactor, by linarith⟩

/-- The projection of the sphere that is specified when adjusting the distance of the camera fits the captured part of the image if, and
only if the zoom factor is one. -/
theorem C138_auto_dist_partial (s : Proj) (hs : Valid s) {interestSize fieldFactor : ℝ} (hi : 0 < interestSize) (hf : 0 < fieldFactor) :
    let s' := s.autoDist interestSize fieldFactor
    projection s'.cameraDist interestSize = disk (s'.getEffectiveFov fieldFactor) ↔ s.zoomFactor = 1 := by
  obtain ⟨h1, -, -, -⟩ := C138_auto_dist_neutral s hs hi hf
  have hm := hs.meanNeutralFov
  have hz := hs.zoomFactor
  simp only at h1 ⊢
  rw [h1]
  have e1 : (s.autoDist interestSize fieldFactor).getNeutralFov fieldFactor = s.meanNeutralFov * fieldFactor := rfl
  have e2 : (s.autoDist interestSize fieldFactor).getEffectiveFov fieldFactor = s.meanNeutralFov * fieldFactor / s.zoomFactor := rfl
  rw [e1, e2]
  constructor
  · intro h
    have := disk_inj (by positivity) (by positivity) h
    field_simp at this
    exact this
  · intro h
    rw [h, div_one]

/-- Contrary to the documentation, the projection does not always fit the captured part of the image after adjustment of the distance. -/
theorem C138_auto_dist_wrong :
    projection ((({ zoomFactor := 2 } : Proj).autoDist 1 1).cameraDist) 1 ≠ disk ((({ zoomFactor := 2 } : Proj).autoDist 1 1).getEffectiveFov 1) := by
  intro h
  have := (C138_auto_dist_partial { zoomFactor := 2 } (by constructor <;> norm_num) (interestSize := 1) (fieldFactor := 1) one_pos one_pos).mp h
  norm_num at this

/-- When adjusting the distance of the camera, and fitting to the minimum field of view, the diameter of the projection is the smaller one of
width and height. When fitting to the mean field of view, it is the geometric mean between them. -/
theorem C138_min_field_factor (s : Proj) (hs : Valid s) {interestSize width height : ℝ} (hi : 0 < interestSize)
    (hc : Captures s.meanNeutralFov s.aspectRatio width height) :
    projection (s.autoDist interestSize s.getMinFieldFactor).cameraDist interestSize = disk (min width height) ∧
    projection (s.autoDist interestSize s.getMeanFieldFactor).cameraDist interestSize = disk √(width * height) := by
  have hr := hs.aspectRatio
  have h1 : 0 < s.getMinFieldFactor := Real.sqrt_pos.mpr (lt_min hr (by positivity))
  obtain ⟨h2, -⟩ := C138_auto_dist_neutral s hs hi h1
  obtain ⟨h3, -⟩ := C138_auto_dist_neutral s hs (fieldFactor := s.getMeanFieldFactor) hi one_pos
  obtain ⟨-, -, h4⟩ := C136_fields s hs width height
  obtain ⟨h5, h6, -, -⟩ := h4 hc
  constructor
  · rw [h2, ← h6]; rfl
  · rw [h3, ← h5]; rfl

/-- From distance 5, a ball of diameter 6 is seen as a disk of diameter `3 / 2` at distance one. -/
example : projection 5 6 = disk (3 / 2) := by
  rw [projection_eq (by norm_num) (by norm_num)]
  norm_num
  rw [show (16 : ℝ) = 4 ^ 2 by norm_num, Real.sqrt_sq (by norm_num)]
  norm_num

end Verif.PerspectProj
