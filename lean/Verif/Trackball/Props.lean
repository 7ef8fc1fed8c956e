import Verif.Trackball.Release

/-!
# Properties of the virtual trackball

See C131, C132, C133, and C134 in `properties.jsonl`.
-/

namespace Verif.Trackball

open Verif.Rotation Verif.Rotation.Spec Spec

/-! ### C131: the trackball follows the mouse -/

/-- The point on the ball that corresponds to a position in the viewport is on the half of the ball that faces the observer, and if the
position is on the ball, the point is right behind the position. -/
theorem C131_ball_point {s : Ball} (h : s.horzRadius ≠ 0) (h' : s.vertRadius ≠ 0) (pos : Vec2) :
    ∃ v, s.getBallPoint pos = some v ∧ UnitVec v ∧ 0 ≤ v.z ∧
      (((pos.x - s.halfViewportSize.x) / s.horzRadius) ^ 2 + ((pos.y - s.halfViewportSize.y) / s.vertRadius) ^ 2 ≤ 1 →
        pos.x = s.halfViewportSize.x + v.x * s.horzRadius ∧ pos.y = s.halfViewportSize.y - v.y * s.vertRadius) := by
  have hsome : ∃ v, s.getBallPoint pos = some v := by
    unfold Ball.getBallPoint
    rw [if_neg (by simp [h, h'])]
    simp only
    split <;> exact ⟨_, rfl⟩
  obtain ⟨v, hv⟩ := hsome
  refine ⟨v, hv, (getBallPoint_unit hv).1, (getBallPoint_unit hv).2, ?_⟩
  intro hc
  unfold Ball.getBallPoint at hv
  rw [if_neg (by simp [h, h'])] at hv
  simp only at hv
  have e : ((s.halfViewportSize.y - pos.y) / s.vertRadius) ^ 2 = ((pos.y - s.halfViewportSize.y) / s.vertRadius) ^ 2 := by
    rw [← neg_sub pos.y, neg_div, neg_sq]
  rw [e, if_neg (not_lt.mpr hc)] at hv
  cases hv
  simp only
  constructor
  · field_simp; ring
  · field_simp; ring

/-- The ball is as large as possible without exceeding the viewport, and it is round when account is taken of the size of pixels. -/
theorem C131_radii (s : Ball) (width height : ℕ) (pixelWidth pixelHeight : ℝ) (hw : 0 < width) (hh : 0 < height) (hpw : 0 < pixelWidth)
    (hph : 0 < pixelHeight) :
    let s' := (s.setPixelAspectRatio (pixelWidth / pixelHeight)).setViewportSize width height
    let s'' := (s.setViewportSize width height).setPixelAspectRatio (pixelWidth / pixelHeight)
    0 < s'.horzRadius ∧ 0 < s'.vertRadius ∧ 2 * s'.horzRadius ≤ width ∧ 2 * s'.vertRadius ≤ height ∧
    (2 * s'.horzRadius = width ∨ 2 * s'.vertRadius = height) ∧ s'.horzRadius * pixelWidth = s'.vertRadius * pixelHeight ∧
    s'.halfViewportSize = ⟨width / 2, height / 2⟩ ∧
    s''.horzRadius = s'.horzRadius ∧ s''.vertRadius = s'.vertRadius ∧ s''.halfViewportSize = s'.halfViewportSize := by
  have hw' : (0 : ℝ) < width := by exact_mod_cast hw
  have hh' : (0 : ℝ) < height := by exact_mod_cast hh
  have hr : 0 < pixelWidth / pixelHeight := div_pos hpw hph
  simp only [Ball.setPixelAspectRatio, Ball.setViewportSize, Ball.updateRadii]
  have hround : ∀ x : ℝ, x * pixelWidth = x * (pixelWidth / pixelHeight) * pixelHeight := by intro x; field_simp
  generalize pixelWidth / pixelHeight = q at *
  have h2 : 0 < (height : ℝ) / 2 / q := by positivity
  have hmin : 0 < min ((width : ℝ) / 2) (height / 2 / q) := lt_min (by linarith) h2
  have h3 : (height : ℝ) / 2 / q * q = height / 2 := by field_simp
  refine ⟨hmin, mul_pos hmin hr, ?_, ?_, ?_, hround _, trivial, trivial, trivial, trivial⟩
  · have := min_le_left ((width : ℝ) / 2) (height / 2 / q)
    linarith
  · have := mul_le_mul_of_nonneg_right (min_le_right ((width : ℝ) / 2) (height / 2 / q)) hr.le
    linarith
  · rcases min_choice ((width : ℝ) / 2) (height / 2 / q) with e | e
    · left; rw [e]; ring
    · right; rw [e, h3]; ring

/-- While the ball is acquired, it follows the mouse: the point that was under the mouse when the ball was acquired, is moved to the
current position of the mouse along the shortest path. It does not matter which way the mouse took in the meantime. The part that is
missing here is what happens when the two points are on opposite sides of the ball (see `C131_opposite`). -/
theorem C131_follow_partial {s : Ball} (hs : Reach s) (ha : s.acquired = false) (now now' : ℝ) (e : Event) (es : List Event)
    (ho : InOrder (e :: es)) {r : Rot} (hr : s.getOrientation now = some r) {a b : Vec} (hpa : s.getBallPoint e.pos = some a)
    (hpb : s.getBallPoint ((e :: es).getLast (List.cons_ne_nil _ _)).pos = some b) (hab : a ≠ -b) :
    ∃ s' o axis angle, trackAll (s.acquire now) (e :: es) = some s' ∧ s'.getOrientation now' = some o ∧ Follows o r axis angle ∧
      TakesTo axis angle a b := by
  have hok := ok_of_reach hs
  obtain ⟨m, h1, -⟩ := trackAll_spec hok ha now e es ho
  have hr' : s.getFreeOrientation now = some r := by
    unfold Ball.getOrientation at hr
    rw [ha] at hr
    exact hr
  have hru := ok_free hok now r hr'
  refine ⟨_, r + calcRotation (some a) (some b), (calcRotation (some a) (some b)).axis, (calcRotation (some a) (some b)).angle, h1, ?_, ?_, ?_⟩
  · unfold Ball.getOrientation Ball.getTrackOrientation
    simp only [if_true, Bool.false_eq_true, if_false, hr', Option.map_some]
    have e1 : ∀ q, Ball.getBallPoint { s with
        baseOrientation := s.getFreeOrientation now
        acquired := true
        noTrackYet := false
        firstTrackTime := e.time
        firstTrackPos := e.pos
        firstTrackPoint := s.getBallPoint e.pos
        trackPos := ((e :: es).getLast (List.cons_ne_nil _ _)).pos
        trackMillis := ((e :: es).getLast (List.cons_ne_nil _ _)).time - e.time
        curveMem := m } q = s.getBallPoint q := fun _ => rfl
    rw [hr'] at e1
    rw [e1, hpa, hpb]
  · exact follows_add hru (calcRotation_unit _ _)
  · exact calcRotation_takesTo (getBallPoint_unit hpa).1 (getBallPoint_unit hpb).1 hab

/-- If the mouse is moved to the opposite side of the ball, the ball does not follow: its orientation is as it was before it was acquired.
This happens, for example, if the mouse is moved from the left edge to the right edge of the viewport. -/
theorem C131_opposite {s : Ball} (hs : Reach s) (ha : s.acquired = false) (now now' : ℝ) (e : Event) (es : List Event)
    (ho : InOrder (e :: es)) {r : Rot} (hr : s.getOrientation now = some r) {b : Vec} (hpa : s.getBallPoint e.pos = some (-b))
    (hpb : s.getBallPoint ((e :: es).getLast (List.cons_ne_nil _ _)).pos = some b) :
    ∃ s' o, trackAll (s.acquire now) (e :: es) = some s' ∧ s'.getOrientation now' = some o ∧ SameOrientation o r := by
  have hok := ok_of_reach hs
  obtain ⟨m, h1, -⟩ := trackAll_spec hok ha now e es ho
  have hr' : s.getFreeOrientation now = some r := by
    unfold Ball.getOrientation at hr
    rw [ha] at hr
    exact hr
  have hru := ok_free hok now r hr'
  refine ⟨_, r + calcRotation (some (-b)) (some b), h1, ?_, ?_⟩
  · unfold Ball.getOrientation Ball.getTrackOrientation
    simp only [if_true, Bool.false_eq_true, if_false, hr', Option.map_some]
    have e1 : ∀ q, Ball.getBallPoint { s with
        baseOrientation := s.getFreeOrientation now
        acquired := true
        noTrackYet := false
        firstTrackTime := e.time
        firstTrackPos := e.pos
        firstTrackPoint := s.getBallPoint e.pos
        trackPos := ((e :: es).getLast (List.cons_ne_nil _ _)).pos
        trackMillis := ((e :: es).getLast (List.cons_ne_nil _ _)).time - e.time
        curveMem := m } q = s.getBallPoint q := fun _ => rfl
    rw [hr'] at e1
    rw [e1, hpa, hpb]
  · rw [calcRotation_opposite]
    exact follows_zero (follows_add hru unit_default)

/-- In a viewport of 200 by 200 pixels, the left edge and the right edge of the viewport are on opposite sides of the ball. -/
theorem C131_opposite_example (g : Ball) :
    ((Ball.new g).setViewportSize 200 200).getBallPoint ⟨0, 100⟩ = some (-⟨1, 0, 0⟩) ∧
    ((Ball.new g).setViewportSize 200 200).getBallPoint ⟨200, 100⟩ = some ⟨1, 0, 0⟩ := by
  constructor <;>
  · unfold Ball.getBallPoint
    norm_num [Ball.setViewportSize, Ball.updateRadii, Ball.new]
    try rfl
    try (ext <;> simp)

/-- A point in the interior of the ball. -/
example (g : Ball) : ((Ball.new g).setViewportSize 200 200).getBallPoint ⟨180, 160⟩ = some ⟨4 / 5, -3 / 5, 0⟩ := by
  unfold Ball.getBallPoint
  norm_num [Ball.setViewportSize, Ball.updateRadii, Ball.new]

/-- When the mouse is moved from the center to the right edge of the viewport, the point that faces the observer is moved to the right. -/
example (g : Ball) : ∃ s' o, trackAll (((Ball.new g).setViewportSize 200 200).acquire 3) [⟨100, 100, 0⟩, ⟨3, 50, 10⟩, ⟨200, 100, 20⟩] = some s' ∧
    s'.getOrientation 4 = some o ∧ rotate o.axis o.angle ⟨0, 0, 1⟩ = ⟨1, 0, 0⟩ := by
  have ha : ((Ball.new g).setViewportSize 200 200).getBallPoint ⟨100, 100⟩ = some ⟨0, 0, 1⟩ := by
    unfold Ball.getBallPoint
    norm_num [Ball.setViewportSize, Ball.updateRadii, Ball.new]
  have hb := (C131_opposite_example g).2
  obtain ⟨s', o, axis, angle, h1, h2, h3, h4⟩ := C131_follow_partial (Reach.setViewportSize 200 200 (Reach.new g)) rfl 3 4 ⟨100, 100, 0⟩
    [⟨3, 50, 10⟩, ⟨200, 100, 20⟩] (by simp [InOrder]) (r := {})
    (by simp [Ball.getOrientation, Ball.getFreeOrientation, Ball.new, Ball.setViewportSize, Ball.updateRadii])
    (a := ⟨0, 0, 1⟩) (b := ⟨1, 0, 0⟩) (by simpa [Event.pos] using ha) (by simpa [Event.pos] using hb)
    (by intro h; have := congrArg Vec.z h; simp at this)
  refine ⟨s', o, h1, h2, ?_⟩
  rw [h3, rotate_zero]
  exact h4.2.2.2.1

/-! ### C132: orientation is changed by nothing but the movement of the mouse and the spin -/

/-- Calls that are documented as having no effect. -/
theorem C132_no_effect (s : Ball) (now : ℝ) (x y t : ℤ) :
    (s.acquired = true → s.acquire now = s) ∧ (s.acquired = false → s.track x y t = some s ∧ s.release now = s) := by
  refine ⟨fun h => ?_, fun h => ⟨?_, ?_⟩⟩
  · unfold Ball.acquire; rw [h]; rfl
  · unfold Ball.track; rw [h]; rfl
  · unfold Ball.release; rw [h]; rfl

/-- Acquiring the ball stops it in its current orientation. -/
theorem C132_acquire {s : Ball} (h : s.acquired = false) (now t : ℝ) :
    (s.acquire now).acquired = true ∧ (s.acquire now).getOrientation t = s.getOrientation now := by
  unfold Ball.acquire Ball.getOrientation Ball.getTrackOrientation
  rw [h]
  simp

/-- The first mouse event after the ball has been acquired does not change the orientation. -/
theorem C132_first_track {s : Ball} (hs : Reach s) (h : s.acquired = false) (now t t' : ℝ) (e : Event) :
    ∃ s', (s.acquire now).track e.x e.y e.time = some s' ∧
      Option.Rel SameOrientation (s'.getOrientation t) ((s.acquire now).getOrientation t') := by
  have hok := ok_of_reach hs
  obtain ⟨m, h1, -⟩ := trackAll_spec hok h now e [] (List.pairwise_singleton _ _)
  have h2 : trackAll (s.acquire now) [e] = (s.acquire now).track e.x e.y e.time := by
    unfold trackAll
    rw [List.foldlM_cons]
    cases (s.acquire now).track e.x e.y e.time <;> rfl
  rw [h2] at h1
  refine ⟨_, h1, ?_⟩
  rw [(C132_acquire h now t').2]
  have e3 : s.getOrientation now = s.getFreeOrientation now := by unfold Ball.getOrientation; rw [h]; rfl
  rw [e3]
  unfold Ball.getOrientation Ball.getTrackOrientation
  simp only [if_true, Bool.false_eq_true, if_false, List.getLast_singleton]
  have e1 : ∀ (m : CurveMem) (q : Vec2), Ball.getBallPoint { s with
        baseOrientation := s.getFreeOrientation now
        acquired := true
        noTrackYet := false
        firstTrackTime := e.time
        firstTrackPos := e.pos
        firstTrackPoint := s.getBallPoint e.pos
        trackPos := e.pos
        trackMillis := e.time - e.time
        curveMem := m } q = s.getBallPoint q := fun _ _ => rfl
  rw [e1, calcRotation_self]
  cases hr : s.getFreeOrientation now with
  | none => exact Option.Rel.none
  | some r => exact Option.Rel.some (follows_zero (follows_add (ok_free hok now r hr) unit_default))

/-- After setting the orientation, the ball is at rest in exactly that orientation. -/
theorem C132_set_orientation (s : Ball) (r : Rot) (t : ℝ) :
    (s.setOrientation r).getOrientation t = some r ∧ (s.setOrientation r).acquired = false := by
  refine ⟨?_, rfl⟩
  unfold Ball.getOrientation
  have : (s.setOrientation r).acquired = false := rfl
  rw [this]
  exact free_stop { s with baseOrientation := some r } t

/-- After setting the spin, the ball turns with constant angular velocity starting from its current orientation. -/
theorem C132_set_spin {s : Ball} (hs : Reach s) {q : Rot} (hq : UnitVec q.axis) (now t : ℝ) :
    (s.setSpin q now).acquired = false ∧
    (∀ r, s.getOrientation now = some r → ∃ o, (s.setSpin q now).getOrientation t = some o ∧ Follows o r q.axis (q.angle * (t - now))) ∧
    (s.getOrientation now = none → (s.setSpin q now).getOrientation t = none) := by
  have hok := ok_of_reach (Reach.setSpin now hq hs)
  have e : (s.setSpin q now).getOrientation t = (s.setSpin q now).getFreeOrientation t := by
    unfold Ball.getOrientation
    have : (s.setSpin q now).acquired = false := rfl
    rw [this]; rfl
  refine ⟨rfl, fun r hr => ?_, fun hr => ?_⟩
  · rw [e]
    exact free_follows hok rfl hr t
  · rw [e]
    exact free_none hr t

/-- Half a second after setting a spin of half a turn per second around the Z-axis, the X-axis points in the direction of the Y-axis. -/
example (g : Ball) : ∃ o, ((Ball.new g).setSpin ⟨⟨0, 0, 1⟩, Real.pi⟩ 7).getOrientation (7 + 1 / 2) = some o ∧
    rotate o.axis o.angle ⟨1, 0, 0⟩ = ⟨0, 1, 0⟩ := by
  obtain ⟨-, h, -⟩ := C132_set_spin (q := ⟨⟨0, 0, 1⟩, Real.pi⟩) (Reach.new g) (by simp [UnitVec, dot]) 7 (7 + 1 / 2)
  obtain ⟨o, h1, h2⟩ := h {} (by simp [Ball.getOrientation, Ball.getFreeOrientation, Ball.new])
  refine ⟨o, h1, ?_⟩
  rw [h2, rotate_zero]
  have e : Real.pi * (7 + 1 / 2 - 7) = Real.pi / 2 := by ring
  simp only
  rw [e]
  ext <;> simp [rotate, dot]

/-! ### C133: spin after release -/

/-- When the ball is released, it continues from the orientation in which it was released. It is at rest if it was acquired for less than
200 milliseconds, and the mouse was moved by less than 4 pixels. Otherwise, it turns with constant angular velocity, such that the point
under the mouse is moved by the same amount as it was during the last 100 milliseconds, or during the time where the ball was acquired if
that is shorter than 100 milliseconds. See `C134_window_partial` for the precision of the former position of the mouse. The part that is
missing here is what happens when the ball is acquired for zero milliseconds (see `C133_lost`), and when the point is moved to the
opposite side of the ball. -/
theorem C133_release_partial {s : Ball} (hs : Reach s) (ha : s.acquired = false) (now now' : ℝ) (e : Event) (es : List Event)
    (ho : InOrder (e :: es)) {r : Rot} (hr : s.getOrientation now = some r) :
    let f := (e :: es).getLast (List.cons_ne_nil _ _)
    ∃ s' o', trackAll (s.acquire now) (e :: es) = some s' ∧ s'.getOrientation now' = some o' ∧ (s'.release now').acquired = false ∧
      (f.time - e.time < 200 ∧ distance e.pos f.pos < 4 → ∀ t, ∃ o, (s'.release now').getOrientation t = some o ∧ SameOrientation o o') ∧
      (¬(f.time - e.time < 200 ∧ distance e.pos f.pos < 4) → e.time < f.time →
        let w := min 100 (f.time - e.time)
        ∃ c v axis angle,
          c.Sublist (samplesOf e (e :: es)) ∧ (∀ x, c.head? = some x → x.millis ≤ f.time - e.time - w + 1) ∧
          (∀ x ∈ samplesOf e (e :: es), f.time - e.time - w < x.millis → ∃ y ∈ c, y.millis ≤ x.millis ∧ x.millis < y.millis + 7) ∧
          Interpolates c (f.time - e.time - w) v ∧ (w < 100 → v = e.pos) ∧
          (∀ a b, s.getBallPoint v = some a → s.getBallPoint f.pos = some b → a ≠ -b → TakesTo axis angle a b) ∧
          ∀ t, ∃ o, (s'.release now').getOrientation t = some o ∧ Follows o o' axis (angle * (1000 / w) * (t - now'))) := by
  simp only
  have hok := ok_of_reach hs
  obtain ⟨m, h1, hm, hb, hc⟩ := trackAll_spec hok ha now e es ho
  have hr' : s.getFreeOrientation now = some r := by
    unfold Ball.getOrientation at hr
    rw [ha] at hr
    exact hr
  have hru := ok_free hok now r hr'
  have hlastS : ∀ h, ((samplesOf e (e :: es)).getLast h).millis = ((e :: es).getLast (List.cons_ne_nil _ _)).time - e.time := by
    intro h
    simp only [samplesOf, List.getLast_map]
  have hheadS : ∀ h, (samplesOf e (e :: es)).head h = ⟨e.pos, 0⟩ := by
    intro h
    simp [samplesOf]
  have hoS := ordered_samplesOf ho
  generalize (e :: es).getLast (List.cons_ne_nil _ _) = f at *
  have hneS : samplesOf e (e :: es) ≠ [] := by simp [samplesOf]
  have hwin := window hm (by rw [hb]; decide) hneS hoS
  rw [hlastS, hb, hc, hheadS] at hwin
  norm_num at hwin
  have hdense := hm.dense
  rw [hb] at hdense
  generalize samplesOf e (e :: es) = S at *
  obtain ⟨s', hs'⟩ : ∃ s' : Ball, s' = { s with
        baseOrientation := s.getFreeOrientation now
        acquired := true
        noTrackYet := false
        firstTrackTime := e.time
        firstTrackPos := e.pos
        firstTrackPoint := s.getBallPoint e.pos
        trackPos := f.pos
        trackMillis := f.time - e.time
        curveMem := m } := ⟨_, rfl⟩
  rw [← hs'] at h1
  have hball : ∀ q, s'.getBallPoint q = s.getBallPoint q := by rw [hs']; exact fun _ => rfl
  have h_ori : s'.getOrientation now' = some (r + calcRotation (s.getBallPoint e.pos) (s.getBallPoint f.pos)) := by
    have : s'.getTrackOrientation = s'.baseOrientation.map fun base => base + calcRotation s'.firstTrackPoint (s'.getBallPoint s'.trackPos) := by
      rw [hs']; rfl
    unfold Ball.getOrientation
    rw [this, hball]
    rw [hs']
    simp only [if_true, hr', Option.map_some]
  have h_base : s'.baseOrientation = some r := by rw [hs']; exact hr'
  have hoU : UnitVec (r + calcRotation (s.getBallPoint e.pos) (s.getBallPoint f.pos)).axis := add_unit _ _
  -- the state after release
  have hacq : s'.acquired = true := by rw [hs']
  have hnt : s'.noTrackYet = false := by rw [hs']
  have hfp : s'.firstTrackPoint = s.getBallPoint e.pos := by rw [hs']
  have htp : s'.trackPos = f.pos := by rw [hs']
  have hfpos : s'.firstTrackPos = e.pos := by rw [hs']
  have htm : s'.trackMillis = f.time - e.time := by rw [hs']
  have hcm : s'.curveMem = m := by rw [hs']
  have hspin : ∀ q, s'.spin = some q → UnitVec q.axis := by rw [hs']; exact hok.spin
  clear hs'
  have hrel : s'.release now' =
      (let s2 : Ball := { s' with
        releaseTime := now', acquired := false,
        baseOrientation := some (r + calcRotation (s.getBallPoint e.pos) (s.getBallPoint f.pos)) }
      if f.time - e.time < 200 ∧ distance e.pos f.pos < 4 then s2.stop
      else
        let millis : ℤ := if f.time - e.time < 100 then f.time - e.time else 100
        { s2 with spin := if millis = 0 then none else some (Rot.scale (1000 / millis)
            (calcRotation (s.getBallPoint (m.getValue (f.time - e.time - millis))) (s.getBallPoint f.pos))) }) := by
    unfold Ball.release
    rw [hacq]
    simp only [hnt, hfp, htp, hfpos, htm, hcm, h_base, Bool.not_true, Bool.false_eq_true, if_false, Option.map_some]
    have hb1 : ∀ (R : ℝ) (B : Bool) q, Ball.getBallPoint { s' with releaseTime := R, acquired := B } q = s.getBallPoint q :=
      fun _ _ q => hball q
    have hb2 : ∀ (R : ℝ) (B : Bool) (O : Option Rot) q,
        Ball.getBallPoint { s' with releaseTime := R, acquired := B, baseOrientation := O } q = s.getBallPoint q :=
      fun _ _ _ q => hball q
    simp only [hnt, htp, hfpos, htm, hcm, hfp, h_base] at hb1 hb2
    simp only [hb1, hb2]
    rfl
  refine ⟨s', _, h1, h_ori, ?_, ?_, ?_⟩
  · rw [hrel]
    simp only
    split <;> rfl
  · intro hcond t
    rw [hrel]
    simp only [if_pos hcond]
    exact ⟨_, free_stop _ t, same_refl _⟩
  · intro hcond hlt
    have hmil : (if f.time - e.time < 100 then f.time - e.time else (100 : ℤ)) = min 100 (f.time - e.time) := by
      split <;> omega
    have hwpos : 0 < min 100 (f.time - e.time) := by omega
    have hwle : min 100 (f.time - e.time) ≤ f.time - e.time := by omega
    have hw100 : min 100 (f.time - e.time) ≤ 100 := by omega
    have hw3 : min 100 (f.time - e.time) < 100 → min 100 (f.time - e.time) = f.time - e.time := by omega
    have hw4 : min 100 (f.time - e.time) = 100 ∨ min 100 (f.time - e.time) = f.time - e.time := by omega
    rw [hrel]
    simp only [if_neg hcond, hmil]
    generalize min 100 (f.time - e.time) = w at *
    have hint := getValue_spec hm (by rw [hb]; decide) (f.time - e.time - w) (by
      obtain ⟨y, hy1, hy2⟩ := hwin.1
      by_cases hq : f.time - e.time - w = 0
      · refine ⟨y, hy1, ?_⟩
        rw [hq]
        exact hoS.2 y (hm.sub.subset hy1)
      · exact ⟨y, hy1, by omega⟩)
    have hhd : ∀ x, (contents m.samples).head? = some x → x.millis ≤ f.time - e.time - w + 1 := by
      intro x hx
      rcases hwin.2.1 x hx with e1 | e1
      · rw [e1]
        simp only
        omega
      · omega
    refine ⟨contents m.samples, m.getValue (f.time - e.time - w),
      (calcRotation (s.getBallPoint (m.getValue (f.time - e.time - w))) (s.getBallPoint f.pos)).axis,
      (calcRotation (s.getBallPoint (m.getValue (f.time - e.time - w))) (s.getBallPoint f.pos)).angle, hm.sub, hhd, ?_, hint, ?_, ?_, ?_⟩
    · intro x hx hlt'
      obtain ⟨y, hy1, hy2, hy3⟩ := hdense x hx (fun z hz => by have := hhd z hz; omega)
      exact ⟨y, hy1, hy2, by omega⟩
    · intro hw
      have h3 : f.time - e.time < 105 := by omega
      have h4 : f.time - e.time - w = 0 := by omega
      have h5 := hwin.2.2 h3
      rw [h4] at hint ⊢
      exact interpolates_head (s := ⟨e.pos, 0⟩) hint h5 (millis_lt hm (by rw [hb]; decide))
    · intro a b ha' hb' hab
      rw [ha', hb']
      exact calcRotation_takesTo (getBallPoint_unit ha').1 (getBallPoint_unit hb').1 hab
    · intro t
      rw [if_neg hwpos.ne']
      have hok3 : Ok { s' with
          releaseTime := now', acquired := false,
          baseOrientation := some (r + calcRotation (s.getBallPoint e.pos) (s.getBallPoint f.pos)),
          spin := some (Rot.scale (1000 / w) (calcRotation (s.getBallPoint (m.getValue (f.time - e.time - w))) (s.getBallPoint f.pos))) } := by
        refine ⟨?_, ?_, ?_, ?_, ?_⟩
        · intro q hq; cases hq; exact hoU
        · intro q hq; cases hq; exact calcRotation_unit _ _
        · show RingOk s'.curveMem.samples
          rw [hcm]; exact hm.ring
        · show s'.curveMem.samples.capacity = 16
          rw [hcm]; exact hc
        · show s'.curveMem.millisPerBarrier = 7
          rw [hcm]; exact hb
      obtain ⟨o, ho1, ho2⟩ := free_follows hok3 rfl rfl t
      refine ⟨o, ho1, ?_⟩
      intro p
      rw [ho2 p]
      simp only [Rot.scale]
      congr 1
      ring

/-- If there are no mouse events while the ball is acquired, it is left at rest. -/
theorem C133_no_events {s : Ball} (ha : s.acquired = false) (now now' t : ℝ) :
    ((s.acquire now).release now').acquired = false ∧ ((s.acquire now).release now').getOrientation t = s.getOrientation now := by
  have h1 : (s.acquire now).acquired = true := by unfold Ball.acquire; rw [ha]; rfl
  have h2 : (s.acquire now).noTrackYet = true := by unfold Ball.acquire; rw [ha]; rfl
  have h3 : (s.acquire now).baseOrientation = s.getOrientation now := by unfold Ball.acquire Ball.getOrientation; rw [ha]; rfl
  have h4 : (s.acquire now).release now' = ({ s.acquire now with releaseTime := now', acquired := false } : Ball).stop := by
    unfold Ball.release
    simp [h1, h2]
  rw [h4, ← h3]
  exact ⟨rfl, free_stop _ t⟩

/-- If the ball is acquired and released within the same millisecond, and the mouse is moved by 4 pixels or more in the meantime, the spin
is not finite, and the orientation of the ball is lost. It stays lost if the ball is acquired again, or a spin is set. -/
theorem C133_lost {s : Ball} (hs : Reach s) (ha : s.acquired = false) (now now' : ℝ) (e f : Event) (ht : e.time = f.time)
    (hd : 4 ≤ distance e.pos f.pos) (q : Rot) :
    ∃ s', trackAll (s.acquire now) [e, f] = some s' ∧ ∀ t t', (s'.release now').getOrientation t = none ∧
      ((s'.release now').acquire t).getOrientation t' = none ∧ ((s'.release now').setSpin q t).getOrientation t' = none := by
  have hok := ok_of_reach hs
  obtain ⟨m, h1, -⟩ := trackAll_spec hok ha now e [f] (by simp [InOrder, ht])
  refine ⟨_, h1, ?_⟩
  intro t t'
  simp only [List.getLast_cons_cons, List.getLast_singleton]
  have hrel : ∀ s' : Ball, s'.acquired = true → s'.noTrackYet = false → s'.firstTrackPos = e.pos → s'.trackPos = f.pos → s'.trackMillis = 0 →
      (s'.release now').spin = none ∧ (s'.release now').acquired = false := by
    intro s' h1 h2 h3 h4 h5
    unfold Ball.release
    simp only [h1, h2, h3, h4, h5, Bool.not_true, Bool.false_eq_true, if_false]
    rw [if_neg (by rintro ⟨-, h6⟩; linarith)]
    simp [millisBack]
  have hr := hrel { s with
        baseOrientation := s.getFreeOrientation now
        acquired := true
        noTrackYet := false
        firstTrackTime := e.time
        firstTrackPos := e.pos
        firstTrackPoint := s.getBallPoint e.pos
        trackPos := f.pos
        trackMillis := f.time - e.time
        curveMem := m } rfl rfl rfl rfl (by simp [ht])
  generalize (Ball.release { s with
        baseOrientation := s.getFreeOrientation now
        acquired := true
        noTrackYet := false
        firstTrackTime := e.time
        firstTrackPos := e.pos
        firstTrackPoint := s.getBallPoint e.pos
        trackPos := f.pos
        trackMillis := f.time - e.time
        curveMem := m } now') = s2 at hr ⊢
  have hf : ∀ t, s2.getOrientation t = none := by
    intro t
    unfold Ball.getOrientation Ball.getFreeOrientation
    rw [hr.1, hr.2]; rfl
  refine ⟨hf t, ?_, ?_⟩
  · rw [(C132_acquire hr.2 t t').2, hf]
  · have e2 : (s2.setSpin q t).getOrientation t' = (s2.setSpin q t).getFreeOrientation t' := by
      unfold Ball.getOrientation
      have : (s2.setSpin q t).acquired = false := rfl
      rw [this]; rfl
    rw [e2]
    exact free_none (hf t) t'

/-- Such a case. -/
example (g : Ball) : ∃ s', trackAll ((Ball.new g).acquire 0) [⟨10, 10, 5⟩, ⟨10, 14, 5⟩] = some s' ∧
    ∀ t, (s'.release 1).getOrientation t = none := by
  obtain ⟨s', h1, h2⟩ := C133_lost (Reach.new g) rfl 0 1 ⟨10, 10, 5⟩ ⟨10, 14, 5⟩ rfl (by
    unfold distance Event.pos
    norm_num
    rw [show (16 : ℝ) = 4 ^ 2 by norm_num, Real.sqrt_sq (by norm_num)]) {}
  exact ⟨s', h1, fun t => (h2 t t).1⟩

/-! ### C134: memory of the movement of the mouse -/

/-- The last elements are kept in order. There is no failure of assertions. -/
theorem C134_sequence {α : Type} (capacity : ℕ) (h : 0 < capacity) (buffer : ℕ → α) (l : List α) :
    ∃ r, pushAll { buffer, capacity } l = some r ∧ contents r = lastN capacity l ∧
      ∀ l', ∃ r', pushAll r.clear l' = some r' ∧ contents r' = lastN capacity l' := by
  obtain ⟨r, h1, h2, h3, h4⟩ := pushAll_spec (r := { buffer, capacity }) ⟨h, Or.inl ⟨h, rfl⟩⟩ [] (by simp [contents, lastN]) l
  refine ⟨r, h1, h4, fun l' => ?_⟩
  obtain ⟨r', h5, -, -, h6⟩ := pushAll_spec (clear_ok h2).1 [] (by rw [(clear_ok h2).2]; simp [lastN]) l'
  have : r.clear.capacity = capacity := h3
  rw [this] at h6
  exact ⟨r', h5, h6⟩

/-- Two elements are kept. -/
example : ∃ r, pushAll ({ buffer := fun _ => 0, capacity := 2 } : Ring ℕ) [5, 6, 7] = some r ∧ contents r = [6, 7] := by
  obtain ⟨r, h1, h2, -⟩ := C134_sequence 2 (by decide) (fun _ => 0) [5, 6, 7]
  exact ⟨r, h1, h2⟩

/-- Values are determined by linear interpolation between some of the samples. Between the oldest one of those and the time of the last
sample, there is one at most `n` milliseconds before any other sample. Here, `n` is the smallest number such that
`n * (maxSamples - 1) ≥ millisBack`. -/
theorem C134_interpolation {millisBack maxSamples : ℕ} (hM : 2 ≤ maxSamples) (hB : 0 < millisBack) (l : List Sample) (ho : Ordered l)
    (hl : l ≠ []) :
    ∃ m n c, addAll (CurveMem.new millisBack maxSamples) l = some m ∧
      millisBack ≤ n * ((maxSamples : ℤ) - 1) ∧ (n - 1) * ((maxSamples : ℤ) - 1) < millisBack ∧
      c.Sublist l ∧ c ≠ [] ∧ c.length ≤ maxSamples ∧ c.Pairwise (fun a b => a.millis < b.millis) ∧
      (∀ x ∈ l, (∀ s, c.head? = some s → s.millis ≤ x.millis) → ∃ y ∈ c, y.millis ≤ x.millis ∧ x.millis < y.millis + n) ∧
      (∀ s, c.head? = some s → s = l.head hl ∨ s.millis < (l.getLast hl).millis - n * ((maxSamples : ℤ) - 2)) ∧
      ∀ t, t ≤ (l.getLast hl).millis - n + 1 → Interpolates c t (m.getValue t) := by
  obtain ⟨h1, h2, h3⟩ := barrier_new hM hB
  obtain ⟨m, h4, h5, h6, h7⟩ := addAll_ok (memOk_new (B := millisBack) hM) h3 l ho
  have hN : 0 < m.millisPerBarrier := by rw [h6]; exact h3
  rw [List.nil_append] at h5
  have hw := window h5 hN hl ho
  rw [h7] at hw
  have hcap : (CurveMem.new millisBack maxSamples).samples.capacity = maxSamples := rfl
  rw [hcap] at hw h7
  rw [← h6] at h1 h2
  refine ⟨m, m.millisPerBarrier, contents m.samples, h4, h1, h2, h5.sub, h5.nonempty hl, ?_, millis_lt h5 hN, ?_, ?_, ?_⟩
  · rw [length_contents]
    rcases h5.ring.state with h8 | h8 <;> omega
  · intro x hx hh
    obtain ⟨y, hy1, hy2, hy3⟩ := h5.dense x hx hh
    refine ⟨y, hy1, hy2, ?_⟩
    have h8 := Int.mul_ediv_add_emod x.millis m.millisPerBarrier
    have h9 := Int.emod_lt_of_pos x.millis hN
    have h10 := Int.mul_ediv_add_emod y.millis m.millisPerBarrier
    have h11 := Int.emod_nonneg y.millis hN.ne'
    rw [hy3] at h10
    linarith
  · intro s hs
    rcases hw.2.1 s hs with h8 | h8
    · exact Or.inl h8
    · right; linarith
  · intro t ht
    obtain ⟨y, hy1, hy2⟩ := hw.1
    exact getValue_spec h5 hN t ⟨y, hy1, by omega⟩

/-- As intended, with the numbers that are used by the trackball (100 milliseconds and 16 samples), and if the mouse moves with constant
velocity, the position of the mouse 100 milliseconds earlier is found, except that the position can be that of 99 milliseconds earlier. -/
theorem C134_window_partial (l : List Sample) (ho : Ordered l) (hl : l ≠ []) (h0 : (l.head hl).millis = 0) (start velocity : Vec2)
    (hv : ∀ s ∈ l, s.value = along start velocity s.millis) (hlast : 100 ≤ (l.getLast hl).millis) :
    ∃ m, addAll (CurveMem.new 100 16) l = some m ∧
      (m.getValue ((l.getLast hl).millis - 100) = along start velocity ((l.getLast hl).millis - 100 : ℤ) ∨
       m.getValue ((l.getLast hl).millis - 100) = along start velocity ((l.getLast hl).millis - 99 : ℤ)) := by
  obtain ⟨m, n, c, h1, h2, h3, h4, h5, -, h6, -, h7, h8⟩ := C134_interpolation (millisBack := 100) (maxSamples := 16) (by omega) (by omega) l ho hl
  have hn : n = 7 := by push_cast at h2 h3; omega
  subst hn
  have h9 := h8 ((l.getLast hl).millis - 100) (by omega)
  refine ⟨m, h1, ?_⟩
  by_cases hh : ∀ s, c.head? = some s → s.millis ≤ (l.getLast hl).millis - 100
  · left
    exact interpolates_along h9 (fun s hs => hv s (h4.subset hs)) hh
  · right
    push Not at hh
    obtain ⟨s, hs1, hs2⟩ := hh
    have hs3 : s.millis = (l.getLast hl).millis - 99 := by
      rcases h7 s hs1 with h10 | h10
      · rw [h10, h0] at hs2; omega
      · push_cast at h10; omega
    have hsc : s ∈ c := List.mem_of_head? hs1
    have hmin : ∀ x ∈ c, s.millis ≤ x.millis := by
      intro x hx
      cases c with
      | nil => cases hx
      | cons a t =>
        simp only [List.head?_cons, Option.some.injEq] at hs1
        subst hs1
        rcases List.mem_cons.mp hx with e | e
        · rw [e]
        · exact ((List.pairwise_cons.mp h6).1 x e).le
    have hval : m.getValue ((l.getLast hl).millis - 100) = s.value := by
      rcases h9 with ⟨x, h10, h11, -⟩ | ⟨x, h10, -, h12⟩ | ⟨pre, a, b, post, h10, h11, -⟩
      · have := hmin x h10; omega
      · rw [hs1] at h10; cases h10; exact h12
      · have := hmin a (by rw [h10]; simp); omega
    rw [hval, hv s (h4.subset hsc), hs3]

/-- The samples of the following example: 1 pixel per millisecond. -/
def exampleSamples : List Sample :=
  [0, 13, 20, 27, 34, 41, 48, 55, 62, 69, 76, 83, 90, 97, 104, 111, 112].map fun t => ⟨⟨((t : ℤ) : ℝ), 0⟩, t⟩

/-- Contrary to what is assumed in the code, it does not suffice that `n * (maxSamples - 1) ≥ millisBack`: the position 100 milliseconds
earlier is not always found, even when the mouse moves with constant velocity (1 pixel per millisecond). -/
theorem C134_window_too_short :
    Ordered exampleSamples ∧ (∀ s ∈ exampleSamples, s.value = along ⟨0, 0⟩ ⟨1, 0⟩ s.millis) ∧
    ∃ m, addAll (CurveMem.new 100 16) exampleSamples = some m ∧ m.getValue (112 - 100) = ⟨13, 0⟩ := by
  have ho : Ordered exampleSamples := by
    unfold Ordered exampleSamples
    rw [List.pairwise_map]
    refine ⟨by simp, ?_⟩
    intro s hs
    rw [List.mem_map] at hs
    obtain ⟨t, ht, rfl⟩ := hs
    revert t
    simp
  refine ⟨ho, ?_, ?_⟩
  · intro s hs
    unfold exampleSamples at hs
    rw [List.mem_map] at hs
    obtain ⟨t, ht, rfl⟩ := hs
    simp [along]
  · have hN : (CurveMem.new 100 16).millisPerBarrier = 7 := by simp [CurveMem.new]
    have hm0 := memOk_new (B := 100) (M := 16) (by omega)
    obtain ⟨m, h1, h2⟩ := addAll_all_kept (l0 := []) (m := CurveMem.new 100 16) hm0.ring (by simp [contents, lastN, CurveMem.new])
      (by intro s hs; cases hs) exampleSamples
      (by
        rw [List.nil_append, hN]
        unfold exampleSamples
        rw [List.pairwise_map]
        simp only
        decide)
      (fun s hs => ho.2 s hs)
    obtain ⟨m', h3, h4, h5, -⟩ := addAll_ok hm0 (by rw [hN]; decide) exampleSamples ho
    rw [h1] at h3
    cases h3
    rw [List.nil_append] at h2 h4
    refine ⟨m, h1, ?_⟩
    have hc : contents m.samples = [13, 20, 27, 34, 41, 48, 55, 62, 69, 76, 83, 90, 97, 104, 111, 112].map fun t => ⟨⟨((t : ℤ) : ℝ), 0⟩, t⟩ := by
      rw [h2]
      have : (CurveMem.new 100 16).samples.capacity = 16 := rfl
      rw [this]
      rfl
    have h6 := getValue_spec h4 (by rw [h5, hN]; decide) (112 - 100) ⟨⟨⟨((112 : ℤ) : ℝ), 0⟩, 112⟩, by rw [hc]; simp, by simp⟩
    rw [hc] at h6
    have hmin : ∀ x ∈ ([13, 20, 27, 34, 41, 48, 55, 62, 69, 76, 83, 90, 97, 104, 111, 112].map fun t => (⟨⟨((t : ℤ) : ℝ), 0⟩, t⟩ : Sample)), 13 ≤ x.millis := by
      intro x hx
      rw [List.mem_map] at hx
      obtain ⟨t, ht, rfl⟩ := hx
      revert t
      simp
    rcases h6 with ⟨x, h7, h8, -⟩ | ⟨x, h7, h8, h9⟩ | ⟨pre, a, b, post, h7, h8, -⟩
    · have := hmin x h7; omega
    · simp only [List.map_cons, List.head?_cons, Option.some.injEq] at h7
      rw [h9, ← h7]
      norm_num
    · have := hmin a (by rw [h7]; simp); omega

end Verif.Trackball
