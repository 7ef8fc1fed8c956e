import Verif.Rotation.Model

/-!
# Model of the virtual trackball

Model of `/repo/src/archon/render/virt_trackball.hpp`, `/repo/src/archon/render/virt_trackball.cpp`,
`/repo/src/archon/render/impl/finite_curve_memory.hpp`, and `/repo/src/archon/render/impl/finite_sequence_memory.hpp`. Arithmetic on
coordinates and angles is exact: such values are real numbers. Integers are unbounded.

Values that are not finite (infinity and NaN) are modelled by absence (`none`), see `getBallPoint`, `calcRotation`, and `release`.
-/

namespace Verif.Trackball

open Verif.Rotation

/-! ### Memory of the last elements of a sequence -/

/-- `FiniteSequenceMemory` (`/repo/src/archon/render/impl/finite_sequence_memory.hpp:37-61`). -/
structure Ring (α : Type) where
  buffer : ℕ → α
  capacity : ℕ
  size : ℕ := 0
  offset : ℕ := 0

/-- `FiniteSequenceMemory::push_back()` (`/repo/src/archon/render/impl/finite_sequence_memory.hpp:83-96`). The result is absent if the
assertion fails. -/
def Ring.pushBack {α : Type} (r : Ring α) (v : α) : Option (Ring α) :=
  if r.size = r.capacity then
    let buffer := Function.update r.buffer r.offset v
    let offset := r.offset + 1
    let offset := if offset = r.size then 0 else offset
    some { r with buffer, offset }
  else if r.offset = 0 then
    let buffer := Function.update r.buffer r.size v
    some { r with buffer, size := r.size + 1 }
  else none

/-- `FiniteSequenceMemory::clear()` (`/repo/src/archon/render/impl/finite_sequence_memory.hpp:99-104`). -/
def Ring.clear {α : Type} (r : Ring α) : Ring α := { r with offset := 0, size := 0 }

/-- `FiniteSequenceMemory::operator[]()` (`/repo/src/archon/render/impl/finite_sequence_memory.hpp:121-126`). -/
def Ring.get {α : Type} (r : Ring α) (i : ℕ) : α :=
  let top := r.size - r.offset
  r.buffer (if i < top then r.offset + i else i - top)

/-! ### Memory of the last part of a curve -/

/-- `math::Vector2`. -/
@[ext] structure Vec2 where
  x : ℝ
  y : ℝ

/-- `FiniteCurveMemory::Sample` (`/repo/src/archon/render/impl/finite_curve_memory.hpp:52-55`). -/
structure Sample where
  value : Vec2
  millis : ℤ

/-- `FiniteCurveMemory<math::Vector2>` (`/repo/src/archon/render/impl/finite_curve_memory.hpp:36-62`). -/
structure CurveMem where
  samples : Ring Sample
  millisPerBarrier : ℤ := 0
  lastBarrierIndex : ℤ := 0

/-- `FiniteCurveMemory::FiniteCurveMemory()` (`/repo/src/archon/render/impl/finite_curve_memory.hpp:74-80`), with
`core::int_div_round_up()` (`/repo/src/archon/core/integer.hpp:2048-2059`). -/
def CurveMem.new (millisBack maxSamples : ℕ) : CurveMem :=
  let a := millisBack
  let b := maxSamples - 1
  { samples := { buffer := fun _ => ⟨⟨0, 0⟩, 0⟩, capacity := maxSamples }
    millisPerBarrier := ((if a % b ≠ 0 then a / b + 1 else a / b : ℕ) : ℤ) }

/-- `FiniteCurveMemory::add_value()` (`/repo/src/archon/render/impl/finite_curve_memory.hpp:83-91`). -/
def CurveMem.addValue (m : CurveMem) (v : Vec2) (millis : ℤ) : Option CurveMem :=
  let barrierIndex := millis.tdiv m.millisPerBarrier
  if m.samples.size = 0 ∨ m.lastBarrierIndex < barrierIndex then
    (m.samples.pushBack ⟨v, millis⟩).map fun samples => { m with samples, lastBarrierIndex := barrierIndex }
  else some m

/-- `FiniteCurveMemory::clear()` (`/repo/src/archon/render/impl/finite_curve_memory.hpp:94-98`). -/
def CurveMem.clear (m : CurveMem) : CurveMem := { m with samples := m.samples.clear }

/-- Loop of `FiniteCurveMemory::lower_bound()` (`/repo/src/archon/render/impl/finite_curve_memory.hpp:129-140`). The first argument is an
upper bound on the number of iterations. -/
def CurveMem.lowerBoundLoop (m : CurveMem) (millis : ℤ) : ℕ → ℕ → ℕ → ℕ
  | 0, i, _ => i
  | fuel + 1, i, size =>
    if size > 0 then
      let half := size / 2
      let mid := i + half
      if (m.samples.get mid).millis < millis then m.lowerBoundLoop millis fuel (mid + 1) (size - (half + 1))
      else m.lowerBoundLoop millis fuel i half
    else i

/-- `FiniteCurveMemory::lower_bound()` (`/repo/src/archon/render/impl/finite_curve_memory.hpp:125-142`). -/
def CurveMem.lowerBound (m : CurveMem) (millis : ℤ) : ℕ := m.lowerBoundLoop millis m.samples.size 0 m.samples.size

/-- `core::lerp_a()` (`/repo/src/archon/core/math.hpp:216-221`), and `core::lerp()` (`/repo/src/archon/core/math.hpp:209-213`). -/
noncomputable def lerpA (x1 : ℤ) (y1 : Vec2) (x2 : ℤ) (y2 : Vec2) (x : ℤ) : Vec2 :=
  let x3 : ℝ := x1
  let t := (x - x3) / (x2 - x3)
  ⟨(1 - t) * y1.x + t * y2.x, (1 - t) * y1.y + t * y2.y⟩

/-- `FiniteCurveMemory::get_value()` (`/repo/src/archon/render/impl/finite_curve_memory.hpp:101-112`). -/
noncomputable def CurveMem.getValue (m : CurveMem) (millis : ℤ) : Vec2 :=
  let i := m.lowerBound millis
  if i = m.samples.size then ⟨0, 0⟩
  else
    let b := m.samples.get i
    if b.millis = millis ∨ i = 0 then b.value
    else
      let a := m.samples.get (i - 1)
      lerpA a.millis a.value b.millis b.value millis

/-! ### Trackball -/

/-- `g_millis_back` (`/repo/src/archon/render/virt_trackball.cpp:37`). -/
def millisBack : ℕ := 100

/-- `g_max_samples` (`/repo/src/archon/render/virt_trackball.cpp:41`). -/
def maxSamples : ℕ := 16

/-- `VirtualTrackball` (`/repo/src/archon/render/virt_trackball.hpp:209-229`). A rotation is absent if some of its components are not
finite. A point is absent if some of its components are NaN. Points in time are in seconds. -/
structure Ball where
  halfViewportSize : Vec2
  pixelAspectRatio : ℝ
  horzRadius : ℝ
  vertRadius : ℝ
  acquired : Bool
  releaseTime : ℝ
  baseOrientation : Option Rot
  spin : Option Rot
  noTrackYet : Bool
  firstTrackTime : ℤ
  firstTrackPos : Vec2
  firstTrackPoint : Option Vec
  trackMillis : ℤ
  trackPos : Vec2
  curveMem : CurveMem

/-- `VirtualTrackball::VirtualTrackball()` (`/repo/src/archon/render/virt_trackball.cpp:46-49`,
`/repo/src/archon/render/virt_trackball.hpp:209-229`). The argument provides the values of the data members that are not initialized. -/
def Ball.new (garbage : Ball) : Ball :=
  { garbage with
    halfViewportSize := ⟨1, 1⟩, pixelAspectRatio := 1, horzRadius := 1, vertRadius := 1, acquired := false, releaseTime := 0,
    baseOrientation := some {}, spin := some {}, curveMem := CurveMem.new millisBack maxSamples }

/-- `VirtualTrackball::update_radii()` (`/repo/src/archon/render/virt_trackball.hpp:288-293`). -/
noncomputable def Ball.updateRadii (s : Ball) : Ball :=
  let horzToVert := s.pixelAspectRatio
  let horzRadius := min s.halfViewportSize.x (s.halfViewportSize.y / horzToVert)
  { s with horzRadius, vertRadius := horzRadius * horzToVert }

/-- `VirtualTrackball::set_viewport_size()` (`/repo/src/archon/render/virt_trackball.cpp:52-59`). -/
noncomputable def Ball.setViewportSize (s : Ball) (width height : ℕ) : Ball :=
  { s with halfViewportSize := ⟨width / 2, height / 2⟩ }.updateRadii

/-- `VirtualTrackball::set_pixel_aspect_ratio()` (`/repo/src/archon/render/virt_trackball.cpp:62-66`). -/
noncomputable def Ball.setPixelAspectRatio (s : Ball) (ratio : ℝ) : Ball :=
  { s with pixelAspectRatio := ratio }.updateRadii

/-- `VirtualTrackball::get_ball_point()` (`/repo/src/archon/render/virt_trackball.hpp:313-328`). If a radius is zero, the division
produces infinity or NaN, and then some component of the result is NaN (infinity divided by infinity). -/
noncomputable def Ball.getBallPoint (s : Ball) (pos : Vec2) : Option Vec :=
  if s.horzRadius = 0 ∨ s.vertRadius = 0 then none
  else
    let p : Vec2 := ⟨(pos.x - s.halfViewportSize.x) / s.horzRadius, (s.halfViewportSize.y - pos.y) / s.vertRadius⟩
    let sq := p.x ^ 2 + p.y ^ 2
    if 1 < sq then
      let p : Vec2 := ⟨p.x / √sq, p.y / √sq⟩
      some ⟨p.x, p.y, √(1 - 1)⟩
    else some ⟨p.x, p.y, √(1 - sq)⟩

/-- `VirtualTrackball::calc_rotation()` (`/repo/src/archon/render/virt_trackball.hpp:331-339`). If a component of one of the points is NaN,
then so is the dot product, and the condition is false. -/
noncomputable def calcRotation : Option Vec → Option Vec → Rot
  | some a, some b =>
    let axis := cross a b
    let ss := axis.sqSum
    let dp := dot a b
    if ss ≠ 0 ∧ dp ≤ 1 then ⟨axis.div √ss, Real.arccos dp⟩ else {}
  | _, _ => {}

/-- `VirtualTrackball::get_free_orientation()` (`/repo/src/archon/render/virt_trackball.hpp:296-302`). If the angle of the spin is not
finite, neither are the components of the quaternion of the scaled spin. -/
noncomputable def Ball.getFreeOrientation (s : Ball) (time : ℝ) : Option Rot :=
  match s.spin with
  | none => none
  | some spin =>
    if spin.angle = 0 then s.baseOrientation
    else s.baseOrientation.map fun base => base + Rot.scale (time - s.releaseTime) spin

/-- `VirtualTrackball::get_track_orientation()` (`/repo/src/archon/render/virt_trackball.hpp:305-310`). -/
noncomputable def Ball.getTrackOrientation (s : Ball) : Option Rot :=
  if s.noTrackYet then s.baseOrientation
  else s.baseOrientation.map fun base => base + calcRotation s.firstTrackPoint (s.getBallPoint s.trackPos)

/-- `VirtualTrackball::get_orientation()` (`/repo/src/archon/render/virt_trackball.hpp:282-285`). -/
noncomputable def Ball.getOrientation (s : Ball) (now : ℝ) : Option Rot :=
  if s.acquired then s.getTrackOrientation else s.getFreeOrientation now

/-- `VirtualTrackball::acquire()` (`/repo/src/archon/render/virt_trackball.hpp:255-262`). -/
noncomputable def Ball.acquire (s : Ball) (now : ℝ) : Ball :=
  if s.acquired then s
  else { s with baseOrientation := s.getFreeOrientation now, acquired := true, noTrackYet := true }

/-- `m_spin.angle = 0`. The axis is finite in any case. -/
noncomputable def Ball.stop (s : Ball) : Ball :=
  { s with spin := some ⟨(s.spin.getD {}).axis, 0⟩ }

/-- `VirtualTrackball::set_orientation()` (`/repo/src/archon/render/virt_trackball.hpp:265-270`). -/
noncomputable def Ball.setOrientation (s : Ball) (rot : Rot) : Ball :=
  { ({ s with baseOrientation := some rot }).stop with acquired := false }

/-- `VirtualTrackball::set_spin()` (`/repo/src/archon/render/virt_trackball.hpp:273-279`). -/
noncomputable def Ball.setSpin (s : Ball) (spin : Rot) (now : ℝ) : Ball :=
  { s with baseOrientation := s.getOrientation now, releaseTime := now, acquired := false, spin := some spin }

/-- `VirtualTrackball::track()` (`/repo/src/archon/render/virt_trackball.cpp:69-94`). The result is absent if an assertion fails. -/
noncomputable def Ball.track (s : Ball) (x y : ℤ) (trackTime : ℤ) : Option Ball :=
  if !s.acquired then some s
  else
    let s := { s with trackPos := ⟨x, y⟩ }
    let (s, trackTime2) :=
      if s.noTrackYet then
        ({ s with
          firstTrackTime := trackTime
          firstTrackPos := s.trackPos
          firstTrackPoint := s.getBallPoint s.trackPos
          curveMem := s.curveMem.clear
          noTrackYet := false }, 0)
      else (s, trackTime - s.firstTrackTime)
    let s := { s with trackMillis := trackTime2 }
    (s.curveMem.addValue s.trackPos s.trackMillis).map fun curveMem => { s with curveMem }

/-- `math::len()` of the difference between two positions. -/
noncomputable def distance (a b : Vec2) : ℝ := √((a.x - b.x) ^ 2 + (a.y - b.y) ^ 2)

/-- `VirtualTrackball::release()` (`/repo/src/archon/render/virt_trackball.cpp:97-134`). If the number of milliseconds is zero, the spin is
multiplied by infinity, which makes its angle infinite or NaN. -/
noncomputable def Ball.release (s : Ball) (now : ℝ) : Ball :=
  if !s.acquired then s
  else
    let s := { s with releaseTime := now, acquired := false }
    if s.noTrackYet then s.stop
    else
      let lastPoint := s.getBallPoint s.trackPos
      let s := { s with baseOrientation := s.baseOrientation.map fun base => base + calcRotation s.firstTrackPoint lastPoint }
      if s.trackMillis < 200 ∧ distance s.firstTrackPos s.trackPos < 4 then s.stop
      else
        let millis : ℤ := millisBack
        let millis := if s.trackMillis < millis then s.trackMillis else millis
        let pos := s.curveMem.getValue (s.trackMillis - millis)
        let firstPoint := s.getBallPoint pos
        let spin := calcRotation firstPoint lastPoint
        { s with spin := if millis = 0 then none else some (Rot.scale (1000 / millis) spin) }

end Verif.Trackball
