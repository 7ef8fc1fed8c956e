/-!
Model of `terminal::TextAttributes`: /repo/src/archon/core/terminal.hpp and /repo/src/archon/core/terminal.cpp.

The bit-fields are fields of a structure. Equality, which is equality of the memory of all the bit-fields, is equality of the structures. The
contents of the buffer is a list of characters.
-/
namespace Verif.Terminal

/-- `terminal::Weight`: terminal.hpp:47. -/
inductive Weight
  | normal
  | bold
  | faint
deriving DecidableEq, Repr

/-- `terminal::Color`: terminal.hpp:55. -/
inductive Color
  | black
  | red
  | green
  | yellow
  | blue
  | magenta
  | cyan
  | white
deriving DecidableEq, Repr

/-- `TextAttributes::Fields`: terminal.hpp:170-179. -/
structure TextAttributes where
  weight : Weight
  underline : Bool
  blink : Bool
  reverse : Bool
  hasColor : Bool
  color : Color
  hasBackgroundColor : Bool
  backgroundColor : Color
deriving DecidableEq, Repr

/-- `TextAttributes::TextAttributes()`: terminal.hpp:440-443. All bits are zero. -/
def TextAttributes.init : TextAttributes := ⟨.normal, false, false, false, false, .black, false, .black⟩

/-- The functions that change an attribute. -/
inductive Op
  | setWeight (w : Weight)
  | setUnderline (b : Bool)
  | setBlink (b : Bool)
  | setReverse (b : Bool)
  | setColor (c : Color)
  | unsetColor
  | setBackgroundColor (c : Color)
  | unsetBackgroundColor
deriving DecidableEq, Repr

/-- `set_weight()`, `set_underline()`, `set_blink()`, `set_reverse()`, `set_color()`, `unset_color()`, `set_background_color()`, and
`unset_background_color()`: terminal.hpp:320-369. -/
def TextAttributes.apply (a : TextAttributes) : Op → TextAttributes
  | .setWeight w => { a with weight := w }
  | .setUnderline b => { a with underline := b }
  | .setBlink b => { a with blink := b }
  | .setReverse b => { a with reverse := b }
  | .setColor c => { a with hasColor := true, color := c }
  | .unsetColor => { a with hasColor := false, color := .black }
  | .setBackgroundColor c => { a with hasBackgroundColor := true, backgroundColor := c }
  | .unsetBackgroundColor => { a with hasBackgroundColor := false, backgroundColor := .black }

/-- The attributes after the specified changes have been made to attributes that were default constructed. -/
def TextAttributes.make (ops : List Op) : TextAttributes := ops.foldl TextAttributes.apply .init

/-- What has been written to the buffer, and whether there was an argument (`curr` and `nonfirst_arg`): terminal.cpp:41-46. -/
abbrev Writer := List Char × Bool

/-- `add_arg()`: terminal.cpp:47-52. -/
def addArg (s : Writer) (arg : List Char) : Writer :=
  let (buffer, nonfirst) := s
  let buffer := if nonfirst then buffer ++ [';'] else buffer
  (buffer ++ arg, true)

/-- `add_weight()`: terminal.cpp:53-65. -/
def addWeight (dst : TextAttributes) (s : Writer) : Writer :=
  match dst.weight with
  | .normal => addArg s ['2', '2']
  | .bold => addArg s ['1']
  | .faint => addArg s ['2']

/-- `add_underline()`: terminal.cpp:66-73. -/
def addUnderline (dst : TextAttributes) (s : Writer) : Writer := if !dst.underline then addArg s ['2', '4'] else addArg s ['4']

/-- `add_blink()`: terminal.cpp:74-81. -/
def addBlink (dst : TextAttributes) (s : Writer) : Writer := if !dst.blink then addArg s ['2', '5'] else addArg s ['5']

/-- `add_reverse()`: terminal.cpp:82-89. -/
def addReverse (dst : TextAttributes) (s : Writer) : Writer := if !dst.reverse then addArg s ['2', '7'] else addArg s ['7']

/-- `add_color()`: terminal.cpp:90-122. -/
def addColor (dst : TextAttributes) (s : Writer) : Writer :=
  if dst.hasColor then
    match dst.color with
      | .black => addArg s ['3', '0']
      | .red => addArg s ['3', '1']
      | .green => addArg s ['3', '2']
      | .yellow => addArg s ['3', '3']
      | .blue => addArg s ['3', '4']
      | .magenta => addArg s ['3', '5']
      | .cyan => addArg s ['3', '6']
      | .white => addArg s ['3', '7']
  else addArg s ['3', '9']

/-- `add_background_color()`: terminal.cpp:123-155. -/
def addBackgroundColor (dst : TextAttributes) (s : Writer) : Writer :=
  if dst.hasBackgroundColor then
    match dst.backgroundColor with
      | .black => addArg s ['4', '0']
      | .red => addArg s ['4', '1']
      | .green => addArg s ['4', '2']
      | .yellow => addArg s ['4', '3']
      | .blue => addArg s ['4', '4']
      | .magenta => addArg s ['4', '5']
      | .cyan => addArg s ['4', '6']
      | .white => addArg s ['4', '7']
  else addArg s ['4', '9']

/-- Which attributes differ: terminal.cpp:163-170. -/
def changeWeight (src dst : TextAttributes) : Bool := dst.weight != src.weight
@[inherit_doc changeWeight] def changeUnderline (src dst : TextAttributes) : Bool := dst.underline != src.underline
@[inherit_doc changeWeight] def changeBlink (src dst : TextAttributes) : Bool := dst.blink != src.blink
@[inherit_doc changeWeight] def changeReverse (src dst : TextAttributes) : Bool := dst.reverse != src.reverse
@[inherit_doc changeWeight] def changeColor (src dst : TextAttributes) : Bool := dst.hasColor != src.hasColor || dst.color != src.color
@[inherit_doc changeWeight] def changeBackgroundColor (src dst : TextAttributes) : Bool :=
  dst.hasBackgroundColor != src.hasBackgroundColor || dst.backgroundColor != src.backgroundColor

/-- `size_1`: terminal.cpp:156-157, 172-184, 194. -/
def size1 (src dst : TextAttributes) : Nat :=
  let w := if dst.weight != .normal then 2 else 3
  let u := if dst.underline then 2 else 3
  let b := if dst.blink then 2 else 3
  let r := if dst.reverse then 2 else 3
  (if changeWeight src dst then w else 0) + (if changeUnderline src dst then u else 0) + (if changeBlink src dst then b else 0) +
    (if changeReverse src dst then r else 0) + (if changeColor src dst then 3 else 0) + (if changeBackgroundColor src dst then 3 else 0)

/-- `size_2`: terminal.cpp:186-191, 197. -/
def size2 (dst : TextAttributes) : Nat :=
  1 + (if dst.weight != .normal then 2 else 0) + (if dst.underline then 2 else 0) + (if dst.blink then 2 else 0) +
    (if dst.reverse then 2 else 0) + (if dst.hasColor then 3 else 0) + (if dst.hasBackgroundColor then 3 else 0)

/-- `TextAttributes::change()`: terminal.cpp:36-232. The result is what is written to the buffer. -/
def change (src dst : TextAttributes) : List Char :=
  if dst = src then []
  else
    let s : Writer := (['\x1b', '['], false)
    let s :=
      if size1 src dst ≤ size2 dst then
        let s := if changeWeight src dst then addWeight dst s else s
        let s := if changeUnderline src dst then addUnderline dst s else s
        let s := if changeBlink src dst then addBlink dst s else s
        let s := if changeReverse src dst then addReverse dst s else s
        let s := if changeColor src dst then addColor dst s else s
        if changeBackgroundColor src dst then addBackgroundColor dst s else s
      else
        let s := addArg s []
        let s := if dst.weight != .normal then addWeight dst s else s
        let s := if dst.underline then addUnderline dst s else s
        let s := if dst.blink then addBlink dst s else s
        let s := if dst.reverse then addReverse dst s else s
        let s := if dst.hasColor then addColor dst s else s
        if dst.hasBackgroundColor then addBackgroundColor dst s else s
    s.1 ++ ['m']

/-- `min_change_buffer_size()`: terminal.hpp:420-437. -/
def minChangeBufferSize : Nat := 3 + 1 + 3 + 3 + 3 + 3 + 3 + 3 - 1

/-- An escape sequence with one argument, as it is in terminal.hpp. -/
def esc (arg : List Char) : List Char := '\x1b' :: '[' :: arg ++ ['m']

/-- `seq::reset()`: terminal.hpp:222-225. -/
def seqReset : List Char := esc []

/-- `seq::set_weight()`, `seq::set_underline()`, `seq::set_blink()`, `seq::set_reverse()`, `seq::set_color()`, `seq::reset_color()`,
`seq::set_background_color()`, and `seq::reset_background_color()`: terminal.hpp:228-317. -/
def seqOf : Op → List Char
  | .setWeight w =>
    match w with
    | .normal => esc ['2', '2']
    | .bold => esc ['1']
    | .faint => esc ['2']
  | .setUnderline b => if b then esc ['4'] else esc ['2', '4']
  | .setBlink b => if b then esc ['5'] else esc ['2', '5']
  | .setReverse b => if b then esc ['7'] else esc ['2', '7']
  | .setColor c =>
    match c with
    | .black => esc ['3', '0']
    | .red => esc ['3', '1']
    | .green => esc ['3', '2']
    | .yellow => esc ['3', '3']
    | .blue => esc ['3', '4']
    | .magenta => esc ['3', '5']
    | .cyan => esc ['3', '6']
    | .white => esc ['3', '7']
  | .unsetColor => esc ['3', '9']
  | .setBackgroundColor c =>
    match c with
    | .black => esc ['4', '0']
    | .red => esc ['4', '1']
    | .green => esc ['4', '2']
    | .yellow => esc ['4', '3']
    | .blue => esc ['4', '4']
    | .magenta => esc ['4', '5']
    | .cyan => esc ['4', '6']
    | .white => esc ['4', '7']
  | .unsetBackgroundColor => esc ['4', '9']

end Verif.Terminal
