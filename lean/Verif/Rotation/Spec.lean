import Verif.Rotation.Model
import Mathlib.Algebra.Quaternion

/-!
# Specification of quaternions and rotations
-/

namespace Verif.Rotation.Spec

open scoped Quaternion

/-- The quaternion in the sense of Mathlib (Hamilton's quaternions). -/
noncomputable def hamilton (q : Quat) : ℍ[ℝ] := ⟨q.w, q.v.x, q.v.y, q.v.z⟩

/-- The result of rotating a vector around an axis by an angle, according to the formula of Rodrigues. The axis must be a unit vector. The
rotation is counterclockwise when the axis points towards the observer. -/
noncomputable def rotate (axis : Vec) (angle : ℝ) (p : Vec) : Vec :=
  Vec.scale (Real.cos angle) p + Vec.scale (Real.sin angle) (cross axis p) + Vec.scale ((1 - Real.cos angle) * dot axis p) axis

/-- A unit vector. -/
def UnitVec (a : Vec) : Prop := dot a a = 1

/-- Matrix times vector. -/
noncomputable def mulVec (m : Mat) (p : Vec) : Vec := ⟨dot m.r0 p, dot m.r1 p, dot m.r2 p⟩

/-- The transposed matrix. -/
def transpose (m : Mat) : Mat := ⟨⟨m.r0.x, m.r1.x, m.r2.x⟩, ⟨m.r0.y, m.r1.y, m.r2.y⟩, ⟨m.r0.z, m.r1.z, m.r2.z⟩⟩

/-- Matrix times matrix. -/
noncomputable def mulMat (a b : Mat) : Mat :=
  ⟨mulVec (transpose b) a.r0, mulVec (transpose b) a.r1, mulVec (transpose b) a.r2⟩

/-- The identity matrix. -/
def identity : Mat := ⟨⟨1, 0, 0⟩, ⟨0, 1, 0⟩, ⟨0, 0, 1⟩⟩

/-- The determinant of a matrix. -/
noncomputable def det (m : Mat) : ℝ := dot m.r0 (cross m.r1 m.r2)

end Verif.Rotation.Spec
