import Mathlib.Analysis.SpecialFunctions.Complex.Arg

/-!
# Model of quaternions and rotations

Model of `/repo/src/archon/math/quaternion.hpp`, `/repo/src/archon/math/quaternion.cpp`, and `/repo/src/archon/math/rotation.hpp`, and of
the operations on vectors that are used there (`/repo/src/archon/math/vector.hpp`). Arithmetic is exact: components are real numbers.
-/

namespace Verif.Rotation

/-- `math::Vector<3, double>` (`/repo/src/archon/math/vector.hpp`). -/
@[ext] structure Vec where
  x : ℝ
  y : ℝ
  z : ℝ

/-- `operator+()` (`/repo/src/archon/math/vector.hpp:467-475`). -/
noncomputable instance : Add Vec := ⟨fun a b => ⟨a.x + b.x, a.y + b.y, a.z + b.z⟩⟩

/-- `operator-()` (`/repo/src/archon/math/vector.hpp:478-486`). -/
noncomputable instance : Sub Vec := ⟨fun a b => ⟨a.x - b.x, a.y - b.y, a.z - b.z⟩⟩

/-- `operator-()` (`/repo/src/archon/math/vector.hpp:489-496`). -/
noncomputable instance : Neg Vec := ⟨fun a => ⟨-a.x, -a.y, -a.z⟩⟩

/-- `operator*()` (`/repo/src/archon/math/vector.hpp:499-510`, both orders of operands). -/
noncomputable def Vec.scale (k : ℝ) (a : Vec) : Vec := ⟨k * a.x, k * a.y, k * a.z⟩

/-- `operator/()` (`/repo/src/archon/math/vector.hpp:521-528`). -/
noncomputable def Vec.div (a : Vec) (k : ℝ) : Vec := ⟨a.x / k, a.y / k, a.z / k⟩

/-- `sq_sum()` (`/repo/src/archon/math/vector.hpp:547-554`). -/
noncomputable def Vec.sqSum (a : Vec) : ℝ := a.x ^ 2 + a.y ^ 2 + a.z ^ 2

/-- `dot()` (`/repo/src/archon/math/vector.hpp:557-561` and `613-622`). -/
noncomputable def dot (a b : Vec) : ℝ := a.x * b.x + a.y * b.y + a.z * b.z

/-- `cross()` (`/repo/src/archon/math/vector.hpp:582-590`). -/
noncomputable def cross (a b : Vec) : Vec := ⟨a.y * b.z - a.z * b.y, a.z * b.x - a.x * b.z, a.x * b.y - a.y * b.x⟩

/-- `Quaternion` (`/repo/src/archon/math/quaternion.hpp:84-200`). -/
@[ext] structure Quat where
  w : ℝ
  v : Vec

/-- `operator+()` (`/repo/src/archon/math/quaternion.hpp:453-456`). -/
noncomputable instance : Add Quat := ⟨fun a b => ⟨a.w + b.w, a.v + b.v⟩⟩

/-- `operator-()` (`/repo/src/archon/math/quaternion.hpp:459-462`). -/
noncomputable instance : Sub Quat := ⟨fun a b => ⟨a.w - b.w, a.v - b.v⟩⟩

/-- `operator-()` (`/repo/src/archon/math/quaternion.hpp:465-468`). -/
noncomputable instance : Neg Quat := ⟨fun a => ⟨-a.w, -a.v⟩⟩

/-- `operator*()` (`/repo/src/archon/math/quaternion.hpp:471-476`). -/
noncomputable instance : Mul Quat := ⟨fun a b => ⟨a.w * b.w - dot a.v b.v, Vec.scale b.w a.v + Vec.scale a.w b.v + cross a.v b.v⟩⟩

/-- `sq_sum()` (`/repo/src/archon/math/quaternion.hpp:521-524`). -/
noncomputable def Quat.sqSum (a : Quat) : ℝ := a.w ^ 2 + a.v.sqSum

/-- `inv()` (`/repo/src/archon/math/quaternion.hpp:527-531`). -/
noncomputable def Quat.inv (a : Quat) : Quat :=
  let f := 1 / a.sqSum
  ⟨f * a.w, Vec.scale (-f) a.v⟩

/-- `operator/()` (`/repo/src/archon/math/quaternion.hpp:479-482`). -/
noncomputable instance : Div Quat := ⟨fun a b => a * b.inv⟩

/-- `conj()` (`/repo/src/archon/math/quaternion.hpp:485-488`). -/
noncomputable def Quat.conj (a : Quat) : Quat := ⟨a.w, -a.v⟩

/-- `conj()` (`/repo/src/archon/math/quaternion.hpp:491-499`). -/
noncomputable def Quat.conjBy (a b : Quat) : Quat :=
  let sbw := b.w ^ 2
  let sbv := b.v.sqSum
  ⟨(sbw + sbv) * a.w,
    Vec.scale (sbw - sbv) a.v + Vec.scale (2 * dot a.v b.v) b.v - Vec.scale (2 * b.w) (cross a.v b.v)⟩

/-- `conj()` (`/repo/src/archon/math/quaternion.hpp:502-506`). -/
noncomputable def Vec.conjBy (a : Vec) (b : Quat) : Vec :=
  Vec.scale (b.w ^ 2 - b.v.sqSum) a + Vec.scale (2 * dot a b.v) b.v - Vec.scale (2 * b.w) (cross a b.v)

/-- `len()` (`/repo/src/archon/math/quaternion.hpp:509-512`). -/
noncomputable def Quat.len (a : Quat) : ℝ := √a.sqSum

/-- `normalize()` (`/repo/src/archon/math/quaternion.hpp:515-518`). The length is converted to a quaternion
(`/repo/src/archon/math/quaternion.hpp:112`). -/
noncomputable def Quat.normalize (a : Quat) : Quat := a / ⟨a.len, ⟨0, 0, 0⟩⟩

/-- `Quaternion::from_axis_angle()` (`/repo/src/archon/math/quaternion.hpp:389-392`). -/
noncomputable def Quat.fromAxisAngle (axis : Vec) (angle : ℝ) : Quat := ⟨Real.cos (angle / 2), Vec.scale (Real.sin (angle / 2)) axis⟩

/-- `Quaternion::from_axis_cos_angle()` (`/repo/src/archon/math/quaternion.hpp:395-399`). -/
noncomputable def Quat.fromAxisCosAngle (axis : Vec) (cosAngle : ℝ) : Quat :=
  let k := (cosAngle + 1) / 2
  ⟨√k, Vec.scale (√(k - cosAngle)) axis⟩

/-- `std::atan2()`. A distinction between positive and negative zero is not made. -/
noncomputable def atan2 (y x : ℝ) : ℝ := Complex.arg ⟨x, y⟩

/-- `Quaternion::to_axis_angle()` (`/repo/src/archon/math/quaternion.hpp:402-413`). -/
noncomputable def Quat.toAxisAngle (q : Quat) : Vec × ℝ :=
  let s := q.v.sqSum
  if s ≠ 0 then
    let l := √s
    (q.v.div l, 2 * atan2 l q.w)
  else (⟨1, 0, 0⟩, 0)

/-- A 3-by-3 matrix given by its rows. -/
@[ext] structure Mat where
  r0 : Vec
  r1 : Vec
  r2 : Vec

/-- `Quaternion::to_rotation_matrix()` (`/repo/src/archon/math/quaternion.hpp:416-443`). -/
noncomputable def Quat.toRotationMatrix (q : Quat) : Mat :=
  let s := 2 / q.sqSum
  let w := q.w
  let x := q.v.x
  let y := q.v.y
  let z := q.v.z
  let sx := s * x
  let sy := s * y
  let sz := s * z
  let wsx := w * sx
  let xsx := x * sx
  let wsy := w * sy
  let xsy := x * sy
  let ysy := y * sy
  let wsz := w * sz
  let xsz := x * sz
  let ysz := y * sz
  let zsz := z * sz
  ⟨⟨1 - ysy - zsz, xsy - wsz, xsz + wsy⟩,
    ⟨xsy + wsz, 1 - xsx - zsz, ysz - wsx⟩,
    ⟨xsz - wsy, ysz + wsx, 1 - xsx - ysy⟩⟩

/-- `Quaternion::from_proper_euler_angles()` (`/repo/src/archon/math/quaternion.cpp:29-46`). -/
noncomputable def Quat.fromProperEulerAngles (alpha beta gamma : ℝ) : Quat :=
  let ca := Real.cos (0.5 * alpha)
  let sa := Real.sin (0.5 * alpha)
  let cb := Real.cos (0.5 * beta)
  let sb := Real.sin (0.5 * beta)
  let cg := Real.cos (0.5 * gamma)
  let sg := Real.sin (0.5 * gamma)
  let cc := ca * cg
  let ss := sa * sg
  let sc := sa * cg
  let cs := ca * sg
  ⟨(cc - ss) * cb, ⟨(cc + ss) * sb, (sc - cs) * sb, (sc + cs) * cb⟩⟩

/-- `Rotation` (`/repo/src/archon/math/rotation.hpp:60-147`). -/
@[ext] structure Rot where
  axis : Vec := ⟨1, 0, 0⟩
  angle : ℝ := 0

/-- `Rotation::from_versor()` (`/repo/src/archon/math/rotation.hpp:300-305`). -/
noncomputable def Rot.fromVersor (q : Quat) : Rot := ⟨q.toAxisAngle.1, q.toAxisAngle.2⟩

/-- `Rotation::to_versor()` (`/repo/src/archon/math/rotation.hpp:308-311`). -/
noncomputable def Rot.toVersor (r : Rot) : Quat := Quat.fromAxisAngle r.axis r.angle

/-- `operator+()` (`/repo/src/archon/math/rotation.hpp:321-324`). -/
noncomputable instance : Add Rot := ⟨fun a b => Rot.fromVersor (b.toVersor * a.toVersor)⟩

/-- `operator-()` (`/repo/src/archon/math/rotation.hpp:333-336`). -/
noncomputable instance : Neg Rot := ⟨fun a => ⟨a.axis, -a.angle⟩⟩

/-- `operator-()` (`/repo/src/archon/math/rotation.hpp:327-330`). -/
noncomputable instance : Sub Rot := ⟨fun a b => a + -b⟩

/-- `operator*()` (`/repo/src/archon/math/rotation.hpp:339-348`, both orders of operands). -/
noncomputable def Rot.scale (k : ℝ) (a : Rot) : Rot := ⟨a.axis, k * a.angle⟩

/-- `operator/()` (`/repo/src/archon/math/rotation.hpp:351-354`). -/
noncomputable def Rot.div (a : Rot) (k : ℝ) : Rot := ⟨a.axis, a.angle / k⟩

end Verif.Rotation
