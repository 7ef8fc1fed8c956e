import Verif.VisualSelect.Model

/-!
# What a user expects of the selection of visuals
-/

namespace Verif.VisualSelect

/-- The visual meets the requirements. Overlay planes and stereo visuals are never wanted. -/
structure Acceptable (params : Params) (v : Visual) : Prop where
  depth : ∀ d, params.depth = some d → v.depth = d
  cls : ∀ c, params.cls = some c → v.cls = c
  type : ∀ t, params.type = some t → v.visualId = t
  opengl : params.requireOpengl = true → v.openglSupported = true
  level : v.openglLevel = 0
  stereo : v.openglStereo = false
  depthBits : params.requireDepthBuffer = true → params.minDepthBits ≤ v.depthBits
  stencilBits : params.requireStencilBuffer = true → params.minStencilBits ≤ v.stencilBits
  accumBits : params.requireAccumBuffer = true → params.minAccumBits ≤ v.accumBits

/-- A criterion that applies only under a condition. -/
def only (c : Bool) (f : Visual → Int) : List (Visual → Int) := if c then [f] else []

/-- A score for having a certain property. -/
def yes (p : Visual → Bool) (v : Visual) : Int := if p v then 1 else 0

/-- Criteria by which acceptable visuals are compared, the most important one first. Each assigns a
score, and a higher score is better. -/
def criteria (screen : Screen) (params : Params) : List (Visual → Int) :=
  only params.preferDefaultType (yes fun v => v.visualId = screen.defaultVisual) ++
  only params.preferDefaultDepth (yes fun v => screen.defaultDepth ≤ v.depth) ++
  only params.preferDefaultDepth
    (fun v => if screen.defaultDepth ≤ v.depth then -v.depth else 0) ++
  [fun v : Visual => match v.cls with
    | .trueColor => (5 : Int) | .directColor => 4 | .staticColor => 3 | .pseudoColor => 2
    | .staticGray => 1 | .grayScale => 0] ++
  only params.preferDoubleBuffered (yes Visual.doubleBuffered) ++
  only params.requireOpengl (yes Visual.openglDoubleBuffered) ++
  [Visual.depth] ++
  only params.requireDepthBuffer Visual.depthBits ++
  only params.requireStencilBuffer Visual.stencilBits ++
  only params.requireAccumBuffer Visual.accumBits ++
  only params.preferDoubleBuffered Visual.perflevel ++
  only (!params.preferDoubleBuffered) (fun v => -yes Visual.doubleBuffered v) ++
  only (!params.requireOpengl) (fun v => -yes Visual.openglDoubleBuffered v) ++
  only (!params.requireDepthBuffer) (fun v => -v.depthBits) ++
  only (!params.requireStencilBuffer) (fun v => -v.stencilBits) ++
  only (!params.requireAccumBuffer) (fun v => -v.accumBits) ++
  [fun v : Visual => -v.numAuxBuffers] ++
  only (!params.requireOpengl) (yes fun v => !v.openglSupported)

/-- One visual is better than another one if it is better by some criterion, and equally good by all
the more important ones. -/
def Better (screen : Screen) (params : Params) (a b : Visual) : Prop :=
  ∃ xs f ys, criteria screen params = xs ++ f :: ys ∧ (∀ g ∈ xs, g a = g b) ∧ f b < f a

end Verif.VisualSelect
