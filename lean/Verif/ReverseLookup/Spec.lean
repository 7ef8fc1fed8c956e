import Verif.ReverseLookup.Model
import Verif.PixelConvert.Spec
import Verif.KdTree.Spec
/-!
Specification of reverse palette lookup, and color distance.
-/
namespace Verif.ReverseLookup.Spec
open Verif.ReverseLookup Verif.PixelConvert Verif.PixelConvert.Spec

variable {α φ : Type}

/-- Square of the Euclidean distance between colors with the specified components. -/
def sqDist [CommRing φ] (a b : List φ) : φ := (List.zipWith (fun x y => (x - y) ^ 2) a b).sum

/-- The index is that of a color that is no further away than any other color of the palette. It is zero if there are no colors. Only
the first `k` components matter. -/
def Nearest [CommRing φ] [LinearOrder φ] (palette : List (List φ)) (k : Nat) (q : List φ) (index : Nat) : Prop :=
  (palette = [] ∧ index = 0) ∨ ∃ c, palette[index]? = some c ∧ ∀ c' ∈ palette, sqDist (c.take k) (q.take k) ≤ sqDist (c'.take k) (q.take k)

/-- The writer has the specified palette. -/
structure Has (w : Writer φ) (palette : List (List φ)) : Prop where
  size : w.size = palette.length
  cache : w.cache = palette.flatten
  ext : ∀ c ∈ palette, c.length = w.ext
  channels : 0 < w.numChannels
  levels : palette.length < 2 ^ w.maxLevels

/-- The pixel that is given as a query. -/
def pixel (q : Query α φ) : Pixel α :=
  ⟨q.comps.take q.route.origin.channels, if q.hasAlpha then q.comps[q.route.origin.channels]? else none⟩

/-- The color in the color space of the writer: color components multiplied by opacity, and opacity. -/
def native (ar : Arith φ) (q : Query α φ) : List φ :=
  let c := moved q.route ((pixel q).meaning ar q.repr)
  c.1 ++ [c.2]

/-- A color that is given in the right way, with enough room in the workspace. -/
structure QueryOk (ar : Arith φ) (w : Writer φ) (q : Query α φ) : Prop where
  lawful : Lawful ar q.repr
  route : RouteOk q.route
  comps : q.comps.length = q.route.origin.channels + q.hasAlpha.toNat
  pos : 0 < q.comps.length
  destin : q.route.destin.channels + 1 = w.ext
  room : Room (max q.comps.length w.ext) q.buffer

/-- The color is given with an alpha component, and the number of color components is the same as in the color space of the writer. -/
def InPlace (q : Query α φ) : Prop := q.hasAlpha = true ∧ q.route.origin.channels = q.route.destin.channels

end Verif.ReverseLookup.Spec
