import Verif.Timer.Model
/-!
The meaning of a point in time.
-/
namespace Verif.Timer.Spec

/-- The point in time in seconds. -/
def seconds (t : TimePoint) : ℚ := t.sec + t.nsec / 1000000000

/-- A point in time as delivered by the system. -/
def Normal (t : TimePoint) : Prop := 0 ≤ t.nsec ∧ t.nsec < 1000000000

end Verif.Timer.Spec
