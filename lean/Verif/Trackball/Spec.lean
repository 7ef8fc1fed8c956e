import Verif.Trackball.Model
import Verif.Rotation.Spec

/-!
# Specification of the virtual trackball
-/

namespace Verif.Trackball.Spec

open Verif.Rotation Verif.Rotation.Spec

/-- The elements in memory, oldest first. -/
def contents {α : Type} (r : Ring α) : List α := (List.range r.size).map r.get

/-- The last elements of a list. -/
def lastN {α : Type} (n : ℕ) (l : List α) : List α := l.drop (l.length - n)

/-- Add a number of elements. -/
def pushAll {α : Type} (r : Ring α) (l : List α) : Option (Ring α) := l.foldlM Ring.pushBack r

/-- Add a number of values to memory of curve. -/
def addAll (m : CurveMem) (l : List Sample) : Option CurveMem := l.foldlM (fun m s => m.addValue s.value s.millis) m

/-- The times of the samples are not decreasing, and not negative. -/
def Ordered (l : List Sample) : Prop := l.Pairwise (fun a b => a.millis ≤ b.millis) ∧ ∀ s ∈ l, 0 ≤ s.millis

/-- The position at the specified time when moving with constant velocity. -/
def along (start velocity : Vec2) (t : ℝ) : Vec2 := ⟨start.x + t * velocity.x, start.y + t * velocity.y⟩

/-- `v` is the position at time `t` when moving with constant velocity from one sample to the next, and starting in rest at the first. -/
def Interpolates (c : List Sample) (t : ℤ) (v : Vec2) : Prop :=
  (∃ s ∈ c, s.millis = t ∧ v = s.value) ∨
  (∃ s, c.head? = some s ∧ t < s.millis ∧ v = s.value) ∨
  (∃ pre a b post, c = pre ++ a :: b :: post ∧ a.millis < t ∧ t < b.millis ∧
    ∃ start velocity, along start velocity a.millis = a.value ∧ along start velocity b.millis = b.value ∧ along start velocity t = v)

/-- A mouse event. -/
structure Event where
  x : ℤ
  y : ℤ
  time : ℤ

/-- The position of a mouse event. -/
def Event.pos (e : Event) : Vec2 := ⟨e.x, e.y⟩

/-- Record a number of mouse events. -/
noncomputable def trackAll (s : Ball) (es : List Event) : Option Ball := es.foldlM (fun s e => s.track e.x e.y e.time) s

/-- The times of the events are not decreasing. -/
def InOrder (es : List Event) : Prop := es.Pairwise fun a b => a.time ≤ b.time

/-- Two orientations are the same if they have the same effect. -/
def SameOrientation (a b : Rot) : Prop := ∀ p, rotate a.axis a.angle p = rotate b.axis b.angle p

/-- The orientation is `a` followed by a rotation around an axis. -/
def Follows (r a : Rot) (axis : Vec) (angle : ℝ) : Prop := ∀ p, rotate r.axis r.angle p = rotate axis angle (rotate a.axis a.angle p)

/-- The rotation takes one point to another along the shortest path. -/
def TakesTo (axis : Vec) (angle : ℝ) (a b : Vec) : Prop :=
  UnitVec axis ∧ 0 ≤ angle ∧ angle ≤ Real.pi ∧ rotate axis angle a = b ∧ (angle ≠ 0 → dot axis a = 0 ∧ dot axis b = 0)

/-- States of the trackball that can be reached by calling the public functions. The axes of specified rotations must be unit vectors. -/
inductive Reach : Ball → Prop
  | new (garbage : Ball) : Reach (Ball.new garbage)
  | setViewportSize {s : Ball} (width height : ℕ) : Reach s → Reach (s.setViewportSize width height)
  | setPixelAspectRatio {s : Ball} (ratio : ℝ) : Reach s → Reach (s.setPixelAspectRatio ratio)
  | acquire {s : Ball} (now : ℝ) : Reach s → Reach (s.acquire now)
  | track {s s' : Ball} (x y time : ℤ) : Reach s → s.track x y time = some s' → Reach s'
  | release {s : Ball} (now : ℝ) : Reach s → Reach (s.release now)
  | setOrientation {s : Ball} {r : Rot} : UnitVec r.axis → Reach s → Reach (s.setOrientation r)
  | setSpin {s : Ball} {r : Rot} (now : ℝ) : UnitVec r.axis → Reach s → Reach (s.setSpin r now)

/-- The mouse events as samples. Times are relative to the time of the first event. -/
def samplesOf (e : Event) (es : List Event) : List Sample := es.map fun x => ⟨x.pos, x.time - e.time⟩

end Verif.Trackball.Spec
