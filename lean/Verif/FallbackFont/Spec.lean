import Verif.FallbackFont.Model
/-!
What a font specification describes, and what it means to draw a glyph.
-/
namespace Verif.FallbackFont.Spec
open Verif.PixelBox

/-- The box is within an image of the specified size. -/
def Within (b : Box) (w h : Int) : Prop := (0 ≤ b.x ∧ b.x + b.w ≤ w) ∧ (0 ≤ b.y ∧ b.y + b.h ≤ h)

/-- A glyph is acceptable for an image of the specified size. -/
def GlyphOk (g : Glyph) (w h : Int) : Prop := Within g.box w h ∧ 0 ≤ g.horzAdvance ∧ 0 ≤ g.vertAdvance

/-- The lines form a font specification: a line with the name, a line with code point ranges in ascending order without
overlap, a line with metrics, a line with the fallback glyph `g`, and a line for each of the glyphs `gs` with code points
that belong to no other glyph. -/
def Describes (lines : List Line) (name : String) (rs : List (Nat × Nat)) (w h : Int) (g : Glyph)
    (gs : List (Glyph × List Nat)) : Prop :=
  ∃ l1 l2 l3 l4 rest, lines = l1 :: l2 :: l3 :: l4 :: rest ∧
    l1.name = name ∧
    l2.ranges = some rs ∧ rs.Pairwise (fun a b => a.2 < b.1) ∧
    l3.metricsOk = true ∧ l3.width = w ∧ l3.height = h ∧
    l4.fallback = some g ∧ GlyphOk g w h ∧
    rest.map Line.glyph = gs.map some ∧ (∀ e ∈ gs, GlyphOk e.1 w h) ∧ (gs.map Prod.snd).flatten.Nodup

/-- What the line parser guarantees: the first code point of a range is not greater than the last. -/
def RangesOk (l : Line) : Prop := ∀ rs, l.ranges = some rs → ∀ r ∈ rs, r.1 ≤ r.2

/-- The glyph boxes have representable components and none of the sizes is extremely negative. -/
def BoxesOk (I : Nat) (lines : List Line) : Prop :=
  ∀ l ∈ lines, ∀ l' ∈ lines, ∀ g : Glyph, (l.fallback = some g ∨ ∃ cps, l.glyph = some (g, cps)) →
    (g.box.x ≤ 2 ^ I - 1 ∧ g.box.y ≤ 2 ^ I - 1) ∧
    (l'.width - g.box.w ≤ 2 ^ I - 1 ∧ l'.height - g.box.h ≤ 2 ^ I - 1)

end Verif.FallbackFont.Spec
