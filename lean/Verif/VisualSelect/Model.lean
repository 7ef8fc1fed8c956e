import Mathlib.Data.List.Sort

/-!
# Model of the selection of X11 visuals

* `VisualFinder`, `x11::find_visual()`, and `x11::find_visuals()`:
  `src/archon/display/noinst/x11/support.cpp`

Simplifications: values of type `int` are unbounded; the class of a visual is one of the six classes
that exist.
-/

namespace Verif.VisualSelect

/-- Visual classes (`StaticGray`, `GrayScale`, ...) as in `XVisualInfo::c_class`. -/
inductive Class where
  | staticGray | grayScale | staticColor | pseudoColor | trueColor | directColor
deriving DecidableEq, Repr

/-- `x11::VisualSpec` and those parts of `XVisualInfo` that matter here
(`src/archon/display/noinst/x11/support.hpp:250-262`). -/
structure Visual where
  depth : Int
  cls : Class
  visualId : Nat
  doubleBuffered : Bool
  openglSupported : Bool
  openglDoubleBuffered : Bool
  openglStereo : Bool
  perflevel : Int
  openglLevel : Int
  numAuxBuffers : Int
  depthBits : Int
  stencilBits : Int
  accumBits : Int
deriving DecidableEq, Repr

/-- `x11::FindVisualParams` (`src/archon/display/noinst/x11/support.hpp:265-282`). -/
structure Params where
  depth : Option Int := none
  cls : Option Class := none
  type : Option Nat := none
  preferDefaultType : Bool := true
  preferDefaultDepth : Bool := true
  preferDoubleBuffered : Bool := true
  requireOpengl : Bool := false
  requireDepthBuffer : Bool := false
  requireStencilBuffer : Bool := false
  requireAccumBuffer : Bool := false
  minDepthBits : Int := 8
  minStencilBits : Int := 1
  minAccumBits : Int := 32

/-- The defaults of the screen (`src/archon/display/noinst/x11/support.cpp:221-226`). -/
structure Screen where
  defaultDepth : Int
  defaultVisual : Nat

/-- `VisualFinder::filter()` (`src/archon/display/noinst/x11/support.cpp:272-293`). -/
def filter (spec : Visual) (params : Params) : Bool :=
  if params.depth.isSome ∧ some spec.depth ≠ params.depth then false
  else if params.cls.isSome ∧ some spec.cls ≠ params.cls then false
  else if params.type.isSome ∧ some spec.visualId ≠ params.type then false
  else if params.requireOpengl ∧ ¬ spec.openglSupported then false
  else if spec.openglLevel ≠ 0 then false
  else if spec.openglStereo then false
  else if params.requireDepthBuffer ∧ spec.depthBits < params.minDepthBits then false
  else if params.requireStencilBuffer ∧ spec.stencilBits < params.minStencilBits then false
  else if params.requireAccumBuffer ∧ spec.accumBits < params.minAccumBits then false
  else true

/-- `VisualFinder::get_class_value()` (`src/archon/display/noinst/x11/support.cpp:439-457`). -/
def classValue : Class → Int
  | .staticGray => 1
  | .grayScale => 0
  | .staticColor => 3
  | .pseudoColor => 2
  | .trueColor => 5
  | .directColor => 4

/-- Conversion from `bool` to `int`. -/
def ofBool (b : Bool) : Int := if b then 1 else 0

/-- What is stored in `values_1` or `values_2` by `VisualFinder::less()` for one of the two visuals
(`src/archon/display/noinst/x11/support.cpp:296-431`). -/
def values (screen : Screen) (params : Params) (a : Visual) : List Int :=
  (if params.preferDefaultType then [ofBool (a.visualId == screen.defaultVisual)] else []) ++
  (if params.preferDefaultDepth then
    if a.depth ≥ screen.defaultDepth then [1, -a.depth] else [0, 0] else []) ++
  [classValue a.cls] ++
  (if params.preferDoubleBuffered then [ofBool a.doubleBuffered] else []) ++
  (if params.requireOpengl then [ofBool a.openglDoubleBuffered] else []) ++
  [a.depth] ++
  (if params.requireDepthBuffer then [a.depthBits] else []) ++
  (if params.requireStencilBuffer then [a.stencilBits] else []) ++
  (if params.requireAccumBuffer then [a.accumBits] else []) ++
  (if params.preferDoubleBuffered then [a.perflevel] else []) ++
  (if ¬ params.preferDoubleBuffered then [-ofBool a.doubleBuffered] else []) ++
  (if ¬ params.requireOpengl then [-ofBool a.openglDoubleBuffered] else []) ++
  (if ¬ params.requireDepthBuffer then [-a.depthBits] else []) ++
  (if ¬ params.requireStencilBuffer then [-a.stencilBits] else []) ++
  (if ¬ params.requireAccumBuffer then [-a.accumBits] else []) ++
  [-a.numAuxBuffers] ++
  (if ¬ params.requireOpengl then [if a.openglSupported then 0 else 1] else [])

/-- `std::lexicographical_compare()` as used at
`src/archon/display/noinst/x11/support.cpp:434-435`. -/
def lexLess : List Int → List Int → Bool
  | _, [] => false
  | [], _ :: _ => true
  | x :: xs, y :: ys => if x < y then true else if y < x then false else lexLess xs ys

/-- `VisualFinder::less()` (`src/archon/display/noinst/x11/support.cpp:296-436`). `none` means that
there is no room for all the values in the arrays (18 elements). -/
def less (screen : Screen) (params : Params) (a b : Visual) : Option Bool :=
  if (values screen params a).length ≤ 18 then
    some (lexLess (values screen params a) (values screen params b))
  else none

/-- The loop of `VisualFinder::find()` (`src/archon/display/noinst/x11/support.cpp:234-242`). `best`
is the best visual so far along with its index. -/
def findLoop (screen : Screen) (params : Params) :
    List Visual → Nat → Option (Nat × Visual) → Option (Option (Nat × Visual))
  | [], _, best => some best
  | spec :: specs, i, best =>
    if filter spec params then
      match best with
      | none => findLoop screen params specs (i + 1) (some (i, spec))
      | some b =>
        match less screen params b.2 spec with
        | none => none
        | some true => findLoop screen params specs (i + 1) (some (i, spec))
        | some false => findLoop screen params specs (i + 1) best
    else findLoop screen params specs (i + 1) best

/-- `VisualFinder::find()` (`src/archon/display/noinst/x11/support.cpp:229-250`). The inner result is
the index of the visual, if one was found. -/
def find (screen : Screen) (params : Params) (specs : List Visual) : Option (Option Nat) :=
  (findLoop screen params specs 0 none).map (Option.map Prod.fst)

/-- `VisualFinder::find_all()` (`src/archon/display/noinst/x11/support.cpp:253-269`). The result are
the indexes along with the visuals that they refer to. `std::stable_sort()` is a merge sort here; its
result is determined by its contract. `none` as for `less`. -/
def findAll (screen : Screen) (params : Params) (specs : List Visual) :
    Option (List (Nat × Visual)) :=
  let chosen := (specs.zipIdx.map fun p => (p.2, p.1)).filter fun p => filter p.2 params
  if chosen.all fun p => (less screen params p.2 p.2).isSome then
    some (chosen.mergeSort fun a b => !((less screen params a.2 b.2).getD false))
  else none

end Verif.VisualSelect
