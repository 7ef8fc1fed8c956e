import Verif.Integer.Model
/-!
Model of /repo/src/archon/util/pixel_box.hpp, `pixel::Box`, and of what it uses of pixel_pos.hpp and pixel_size.hpp.

`I` is the number of value bits of `int`. Arithmetic of type `int` gives `none` if the result is not representable, as the
behavior is then undefined.
-/
namespace Verif.PixelBox
open Verif.Integer

/-- `pixel::Box` with `pixel::Pos` and `pixel::Size` unfolded: pixel_box.hpp:53-61, pixel_pos.hpp:54-62,
pixel_size.hpp:52-60. -/
structure Box where
  x : Int
  y : Int
  w : Int
  h : Int
deriving DecidableEq, Repr

/-- Subtraction of type `int`. -/
def sub (I : Nat) (a b : Int) : Option Int := arith I (intTy I) (a - b)

/-- `core::can_int_add()`: core/integer.hpp:1697-1700, for arguments of type `int`. -/
def canAdd (I : Nat) (a b : Int) : Option Bool := (tryAdd I (intTy I) (intTy I) a b).map Option.isSome

/-- `Box::is_valid()`: pixel_box.hpp:198-201, with `Size::is_valid()` (pixel_size.hpp:262-265) and `Pos::can_add()`
(pixel_pos.hpp:226-229). -/
def Box.isValid (I : Nat) (b : Box) : Option Bool :=
  if b.w ≥ 0 ∧ b.h ≥ 0 then do
    if ← canAdd I b.x b.w then canAdd I b.y b.h else some false
  else some false

/-- `Box::is_empty()`: pixel_box.hpp:204-207, with `Size::is_empty()` (pixel_size.hpp:274-277). -/
def Box.isEmpty (b : Box) : Bool := decide (b.w = 0 ∨ b.h = 0)

/-- The expression for one axis in `Box::intersects()`: pixel_box.hpp:212-215. -/
def intersectsAxis (I : Nat) (pos size pos' size' : Int) : Option Bool :=
  if pos < pos' then do
    let d ← sub I pos' pos
    some (decide (size > d ∧ size' > 0))
  else do
    let d ← sub I pos pos'
    some (decide (size' > d ∧ size > 0))

/-- `Box::intersects()`: pixel_box.hpp:210-217. -/
def Box.intersects (I : Nat) (a b : Box) : Option Bool := do
  let horz ← intersectsAxis I a.x a.w b.x b.w
  let vert ← intersectsAxis I a.y a.h b.y b.h
  some (horz && vert)

/-- The expression for one axis in `Box::contains()`: pixel_box.hpp:222-225. -/
def containsAxis (I : Nat) (pos size pos' size' : Int) : Option Bool :=
  if pos' ≥ pos ∧ size' ≤ size then do
    let d ← sub I pos' pos
    let e ← sub I size size'
    some (decide (d ≤ e))
  else some false

/-- `Box::contains()`: pixel_box.hpp:220-227. -/
def Box.contains (I : Nat) (a b : Box) : Option Bool := do
  let horz ← containsAxis I a.x a.w b.x b.w
  let vert ← containsAxis I a.y a.h b.y b.h
  some (horz && vert)

/-- `Box::contained_in()`: pixel_box.hpp:230-233. -/
def Box.containedIn (I : Nat) (a b : Box) : Option Bool := b.contains I a

/-- `Box::contains_pixel_at()`: pixel_box.hpp:236-239. -/
def Box.containsPixelAt (I : Nat) (a : Box) (x y : Int) : Option Bool := a.contains I ⟨x, y, 1, 1⟩

/-- The statement for one axis in `Box::clip()`: pixel_box.hpp:247-259 and 261-273. The result is `none` inside if the
function is to return `false`, otherwise the new `pos_2` and `size_2`. -/
def clipAxis (I : Nat) (pos size pos2 size2 : Int) : Option (Option (Int × Int)) :=
  if pos2 ≥ pos then do
    let d ← sub I pos2 pos
    let discr ← sub I size d
    if discr ≤ 0 ∨ size2 ≤ 0 then some none
    else some (some (pos2, min size2 discr))
  else do
    let d ← sub I pos pos2
    let discr ← sub I size2 d
    if discr ≤ 0 ∨ size ≤ 0 then some none
    else some (some (pos, min size discr))

/-- `Box::clip()`: pixel_box.hpp:242-277. The result is the returned value and the new value of `other`. -/
def Box.clip (I : Nat) (a b : Box) : Option (Bool × Box) := do
  match ← clipAxis I a.x a.w b.x b.w with
  | none => some (false, b)
  | some (x, w) =>
    match ← clipAxis I a.y a.h b.y b.h with
    | none => some (false, b)
    | some (y, h) => some (true, ⟨x, y, w, h⟩)

end Verif.PixelBox
