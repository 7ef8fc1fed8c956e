import Verif.PixelConvert.Model
import Verif.KdTree.Model
/-!
Model of reverse palette lookup and of color distance in image writers: `image::Writer::reverse_palette_lookup_a()` and
`image::Writer::color_sqdist_a()` in src/archon/image/writer.hpp and writer.cpp.

The palette cache in floating-point form is a list of components. What it contains is the subject of the model of palettes
(Verif/Palette). Searching is that of the model of k-d trees (Verif/KdTree). Workspaces are memories of arbitrary initial contents.
Reading of a component that was never set, access out of bounds, and failed assertions are the outcome `none`.
-/
namespace Verif.ReverseLookup
open Verif.ImageIter Verif.PixelConvert

variable {α β φ : Type}

/-- The relevant part of the configuration of a writer: `has_indexed_color()`, `get_palette_size()`, `m_num_channels_ext`,
`has_alpha_channel()`, the palette cache (`get_palette_cache_f()`), and the maximum number of levels of the tree: writer.hpp:714-728,
kdtree.hpp:120-124. -/
structure Writer (φ : Type) where
  indexed : Bool
  size : Nat
  ext : Nat
  hasAlpha : Bool
  cache : List φ
  maxLevels : Nat

/-- `get_num_channels()`: reader.hpp:790-791 and 848-851. -/
def Writer.numChannels (w : Writer φ) : Nat := if w.hasAlpha then w.ext else w.ext - 1

/-- What the functions for k-d trees are instantiated with: writer.hpp:719-723, writer.cpp:343-349. Access to the palette cache is always inside
bounds, because the indexes are those in the tree. -/
def Writer.env [Zero φ] (w : Writer φ) : KdTree.Env Nat φ := ⟨w.numChannels, fun i c => w.cache.getD (i * w.ext + c) 0, w.maxLevels⟩

/-- `instantiate_palette_kdtree()`: writer.cpp:332-356. -/
def instantiateTree [Zero φ] (nth : Nat → Nat → Nat → List Nat → List Nat) (w : Writer φ) : Option (List Nat) :=
  KdTree.sort w.env nth (List.range w.size)

/-- `ensure_palette_kdtree()`: writer.hpp:706-711. The state is `m_palette_kdtree`. -/
def ensureTree [Zero φ] (nth : Nat → Nat → Nat → List Nat → List Nat) (w : Writer φ) (tree : Option (List Nat)) : Option (List Nat) :=
  match tree with
  | some t => some t
  | none => instantiateTree nth w

/-- `do_reverse_palette_lookup()`: writer.hpp:714-734. The components of the color are read before the search, unless there is nothing to
search. -/
def doLookup [CommRing φ] [LinearOrder φ] (sqrt : φ → φ) (w : Writer φ) (tree : List Nat) (color : Mem φ) : Option Nat := do
  let q ← (if tree.length = 0 then some [] else loadN color w.numChannels)
  let r ← KdTree.find w.env sqrt tree (fun i => q.getD i 0) none
  match r with
  | none => some 0
  | some (i, _) => some i

/-- `do_reverse_palette_lookup_a()`: writer.cpp:359-366. The result is the index and the new `m_palette_kdtree`. -/
def doLookupA [CommRing φ] [LinearOrder φ] (sqrt : φ → φ) (nth : Nat → Nat → Nat → List Nat → List Nat) (w : Writer φ)
    (tree : Option (List Nat)) (color : Mem φ) : Option (Nat × Option (List Nat)) :=
  if w.indexed then do
    let t ← ensureTree nth w tree
    let i ← doLookup sqrt w t color
    some (i, some t)
  else some (0, tree)

/-- `color_to_promoted_native()`: writer.hpp:737-749. The destination color space of the route is that of the writer. -/
def toNative (ar : Arith φ) (R : Repr α φ) (route : Route φ) (comps : Nat → Option α) (hasAlpha : Bool) (buffer : Mem φ) : Option (Mem φ) := do
  let n := route.origin.channels + hasAlpha.toNat
  let m ← compReprConvert ar R (floatRepr ar) R.toColor comps buffer n hasAlpha
  let alpha ← (if hasAlpha then load m ((n - 1 : Nat) : Int) else some ar.one)
  colorSpaceConvert route alpha m

/-- A color on any form, together with the initial contents of the workspace. -/
structure Query (α φ : Type) where
  repr : Repr α φ
  route : Route φ
  comps : List α
  hasAlpha : Bool
  buffer : Mem φ

/-- `reverse_palette_lookup_a()`: writer.hpp:663-674. -/
def lookup [CommRing φ] [LinearOrder φ] (ar : Arith φ) (sqrt : φ → φ) (nth : Nat → Nat → Nat → List Nat → List Nat) (w : Writer φ)
    (q : Query α φ) (tree : Option (List Nat)) : Option (Nat × Option (List Nat)) := do
  let m ← toNative ar q.repr q.route (fun i => q.comps[i]?) q.hasAlpha q.buffer
  doLookupA sqrt nth w tree m

/-- A sequence of lookups with the same writer. -/
def lookups [CommRing φ] [LinearOrder φ] (ar : Arith φ) (sqrt : φ → φ) (nth : Nat → Nat → Nat → List Nat → List Nat) (w : Writer φ) :
    List (Query α φ) → Option (List Nat) → Option (List Nat × Option (List Nat))
  | [], tree => some ([], tree)
  | q :: qs, tree => do
    let r ← lookup ar sqrt nth w q tree
    let rs ← lookups ar sqrt nth w qs r.2
    some (r.1 :: rs.1, rs.2)

/-- `do_color_sqdist_a()`: writer.cpp:369-377. -/
def doSqdist [CommRing φ] (w : Writer φ) (a b : Mem φ) : Option φ := do
  let ca ← loadN a w.ext
  let cb ← loadN b w.ext
  some ((List.zip ca cb).foldl (fun s p => s + (p.1 - p.2) * (p.1 - p.2)) 0)

/-- `color_sqdist_a()`: writer.hpp:685-703. The two parts of the workspace do not overlap. -/
def sqdist [CommRing φ] (ar : Arith φ) (w : Writer φ) (q : Query α φ) (q' : Query β φ) : Option φ := do
  let a ← toNative ar q.repr q.route (fun i => q.comps[i]?) q.hasAlpha q.buffer
  let b ← toNative ar q'.repr q'.route (fun i => q'.comps[i]?) q'.hasAlpha q'.buffer
  doSqdist w a b

end Verif.ReverseLookup
