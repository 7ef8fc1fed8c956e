import Verif.PixelBox.Props
/-!
Model of /repo/src/archon/font/loader_fallback.cpp: the reading of the font specification, the lookup of glyphs, and the
rendering of a glyph into a mask.

`I` is the number of value bits of `int`. Behavior that is undefined due to overflow is a distinct outcome.

Simplified: the file is a list of lines that are not blank after removal of comments (loader_fallback.cpp:166-171). What
the text parser makes of a line (modelled in `Verif.TextParser`) is part of the line, once for each kind of line that it
could be asked to be. The fields for style, render size, and baselines are left out as they are stored and not looked at.
Messages are left out. Code points are natural numbers. Rounding of the translation of the glyph is left out: the
translation is a pair of integers.
-/
namespace Verif.FallbackFont
open Verif.PixelBox Verif.Integer

/-- `Glyph`, without bearings: loader_fallback.cpp:97-115. -/
structure Glyph where
  box : Box
  horzAdvance : Int
  vertAdvance : Int
deriving DecidableEq, Repr

/-- A line, and what `TextParser::parse()` makes of it as a line with code point ranges (loader_fallback.cpp:185-194),
as a line with font metrics, with the width and height that are stored even if there is an error later in the line
(loader_fallback.cpp:223-242), as a line with the fallback glyph, that has no code points, and as a line with another
glyph, that has at least one code point (loader_fallback.cpp:259-290). -/
structure Line where
  name : String
  ranges : Option (List (Nat × Nat))
  metricsOk : Bool
  width : Int
  height : Int
  fallback : Option Glyph
  glyph : Option (Glyph × List Nat)

/-- The variables of `load_spec()`: loader_fallback.cpp:117-127 and 150-157. The map has the most recently added
association first. -/
structure State where
  name : Option String
  haveRanges : Bool
  ranges : List (Nat × Nat)
  haveMetrics : Bool
  width : Int
  height : Int
  haveFallback : Bool
  glyphs : List Glyph
  map : List (Nat × Nat)
  error : Bool

/-- The initial values: loader_fallback.cpp:150-157. -/
def State.init : State := ⟨none, false, [], false, 0, 0, false, [], [], false⟩

/-- The check of the order of code point ranges: loader_fallback.cpp:195-204. The result is whether there is no error. -/
def checkRanges : Option Nat → List (Nat × Nat) → Bool
  | _, [] => true
  | prev, (first, last) :: rest =>
    if prev.all (fun p => first > p) then checkRanges (some last) rest else false

/-- The addition of code points to the glyph map: loader_fallback.cpp:303-311. The result is the new map and whether
there was no error. -/
def emplaceAll (index : Nat) : List (Nat × Nat) → List Nat → List (Nat × Nat) × Bool
  | map, [] => (map, true)
  | map, c :: cs => if (map.lookup c).isSome then (map, false) else emplaceAll index ((c, index) :: map) cs

/-- What is done with a glyph that was parsed successfully: loader_fallback.cpp:291-312. -/
def addGlyph (I : Nat) (s : State) (g : Glyph) (cps : List Nat) : Option State := do
  let contained ← g.box.containedIn I ⟨0, 0, s.width, s.height⟩
  if !contained then some { s with error := true }
  else if g.horzAdvance < 0 ∨ g.vertAdvance < 0 then some { s with error := true }
  else
    let (map, ok) := emplaceAll s.glyphs.length s.map cps
    some { s with glyphs := s.glyphs ++ [g], map := map, error := s.error || !ok }

/-- The body of the loop of `load_spec()` for a line that is not blank: loader_fallback.cpp:172-330. -/
def step (I : Nat) (s : State) (l : Line) : Option State :=
  if s.haveMetrics then
    if s.haveFallback then
      match l.glyph with
      | some (g, cps) => addGlyph I s g cps
      | none => some { s with error := true }
    else
      let s := { s with haveFallback := true }
      match l.fallback with
      | some g => addGlyph I s g []
      | none => some { s with error := true }
  else if s.haveRanges then
    some { s with haveMetrics := true, width := l.width, height := l.height, error := s.error || !l.metricsOk }
  else if s.name.isSome then
    match l.ranges with
    | some rs => some { s with haveRanges := true, ranges := rs, error := s.error || !checkRanges none rs }
    | none => some { s with haveRanges := true, error := true }
  else some { s with name := some l.name }

/-- The loop of `load_spec()`: loader_fallback.cpp:166-331. -/
def run (I : Nat) : State → List Line → Option State
  | s, [] => some s
  | s, l :: ls => do run I (← step I s l) ls

/-- `Spec` after successful loading: loader_fallback.cpp:117-127. -/
structure Font where
  name : String
  ranges : List (Nat × Nat)
  width : Int
  height : Int
  glyphs : List Glyph
  map : List (Nat × Nat)

/-- `load_spec()`: loader_fallback.cpp:136-351. -/
def loadSpec (I : Nat) (lines : List Line) : Option (Option Font) := do
  let s ← run I State.init lines
  if s.error then some none
  else
    match s.name with
    | none => some none
    | some name =>
      if !s.haveMetrics then some none
      else if s.glyphs.length < 1 then some none
      else some (some ⟨name, s.ranges, s.width, s.height, s.glyphs, s.map⟩)

/-- `FaceImpl::find_glyph()`: loader_fallback.cpp:485-491. -/
def Font.findGlyph (f : Font) (c : Nat) : Nat :=
  match f.map.lookup c with
  | some i => i
  | none => 0

/-- `FaceImpl::load_glyph()`: loader_fallback.cpp:498-506. The result is `none` if an exception is thrown. -/
def Font.loadGlyph (f : Font) (i : Nat) : Option Glyph := f.glyphs[i]?

/-- The outcomes of rendering: undefined behavior, an exception due to overflow, or normal return. -/
inductive Outcome (α : Type) where
  | undefined
  | overflow
  | ok (a : α)

/-- `FaceImpl::do_render_glyph_mask()`: loader_fallback.cpp:537-555. The image with the glyphs and the mask are
functions of column and row. The reading of the block of luminances (modelled in `Verif.ImageReader`) is a copy of
pixels. -/
def renderMask {V : Type} (I : Nat) (glyph : Box) (left bottom : Int) (posX posY : Int) (w h : Int)
    (image mask : Int → Int → V) : Outcome (Int → Int → V) :=
  match arith I (intTy I) (bottom + glyph.h) with
  | none => .undefined
  | some top =>
    if ¬ (intTy I).In (posX + left) then .overflow
    else if ¬ (intTy I).In (posY - top) then .overflow
    else
      let x2 := posX + left
      let y2 := posY - top
      match Box.clip I ⟨0, 0, w, h⟩ ⟨x2, y2, glyph.w, glyph.h⟩ with
      | none => .undefined
      | some (false, _) => .ok mask
      | some (true, t) =>
        match PixelBox.sub I t.x x2, PixelBox.sub I t.y y2 with
        | some dx, some dy =>
          match arith I (intTy I) (glyph.x + dx), arith I (intTy I) (glyph.y + dy) with
          | some sx, some sy =>
            .ok (fun x y => if (t.x ≤ x ∧ x < t.x + t.w) ∧ (t.y ≤ y ∧ y < t.y + t.h) then
              image (sx + (x - t.x)) (sy + (y - t.y)) else mask x y)
          | _, _ => .undefined
        | _, _ => .undefined

end Verif.FallbackFont
