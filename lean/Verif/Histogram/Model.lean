import Mathlib.Data.Rat.Floor
import Mathlib.Algebra.Order.Field.Rat

/-!
# Model of histogram

Model of `/repo/src/archon/core/histogram.hpp`. Values are finite, and arithmetic is exact: values are rational numbers.
-/

namespace Verif.Histogram

/-- `Histogram` (`/repo/src/archon/core/histogram.hpp:115-119`). Counters of type `long long` are unbounded. -/
structure Hist where
  base : ℚ
  scale : ℚ
  bins : List ℕ
  under : ℕ := 0
  over : ℕ := 0

/-- `Histogram::Histogram()` (`/repo/src/archon/core/histogram.hpp:133-140`). -/
def Hist.new (a b : ℚ) (numBins : ℕ) : Hist :=
  { base := a, scale := numBins / (b - a), bins := List.replicate numBins 0 }

/-- `Histogram::add()` (`/repo/src/archon/core/histogram.hpp:143-161`). The first argument is the maximum value of type `std::size_t`.
Conversion to that type, which takes place before the check, is undefined behavior if the truncated value is out of range. In that case,
the result is absent. -/
def Hist.add (maxSize : ℕ) (h : Hist) (val : ℚ) : Option Hist :=
  let val2 := h.scale * (val - h.base)
  if 0 ≤ val2 then
    let val3 := ⌊val2⌋
    if (maxSize : ℤ) < val3 then none
    else
      let val4 := val3.toNat
      if val3 ≤ (maxSize : ℤ) ∧ val4 < h.bins.length then some { h with bins := h.bins.modify val4 (· + 1) }
      else some { h with over := h.over + 1 }
  else some { h with under := h.under + 1 }

/-- Addition of several values. -/
def Hist.addAll (maxSize : ℕ) : List ℚ → Hist → Option Hist
  | [], h => some h
  | val :: rest, h => (h.add maxSize val).bind (Hist.addAll maxSize rest)

/-- A value as it is formatted by `Histogram::print()`: infinity is used as outer limit (`/repo/src/archon/core/histogram.hpp:202-208`). -/
inductive Value where
  | minusInfinity
  | finite (val : ℚ)
  | plusInfinity

/-- Formatting of values, with and without explicit plus sign, and of counts, by means of an output stream with a particular locale. -/
structure Format where
  value : (showpos : Bool) → Value → List Char
  count : ℕ → List Char

/-- The texts of a line, and the count that determines the length of the bar (`/repo/src/archon/core/histogram.hpp:226-230`). -/
structure BinTexts where
  a : List Char
  b : List Char
  count : List Char
  n : ℕ

/-- Whether plus signs are shown (`/repo/src/archon/core/histogram.hpp:268-272`). -/
def Hist.showpos (h : Hist) (includeUnderOver : Bool) : Bool := includeUnderOver || decide (h.base < 0)

/-- The texts for the regular bins (`/repo/src/archon/core/histogram.hpp:280-285`). -/
def Hist.binTexts (F : Format) (h : Hist) (showpos : Bool) : ℕ → List ℕ → List Char → List BinTexts
  | _, [], _ => []
  | i, n :: rest, fromText =>
    let toText := F.value showpos (.finite (h.base + (i + 1) * (1 / h.scale)))
    { a := fromText, b := toText, count := F.count n, n } :: h.binTexts F showpos (i + 1) rest toText

/-- The texts for all lines (`/repo/src/archon/core/histogram.hpp:268-291`, and `355-360`). Since infinity is available, and the range is
finite, the outer bins are included precisely when asked for (`/repo/src/archon/core/histogram.hpp:209-210`). -/
def Hist.texts (F : Format) (h : Hist) (includeUnderOver : Bool) : List BinTexts :=
  let showpos := h.showpos includeUnderOver
  let base := F.value showpos (.finite h.base)
  let last := F.value showpos (.finite (h.base + h.bins.length * (1 / h.scale)))
  if includeUnderOver then
    { a := F.value showpos .minusInfinity, b := base, count := F.count h.under, n := h.under } ::
      (h.binTexts F showpos 0 h.bins base ++
        [{ a := if h.bins = [] then base else last, b := F.value showpos .plusInfinity, count := F.count h.over, n := h.over }])
  else h.binTexts F showpos 0 h.bins base

/-- The maximum count (`/repo/src/archon/core/histogram.hpp:212-219`). -/
def Hist.maxCount (h : Hist) : ℕ := h.bins.foldl (fun m n => if n ≤ m then m else n) (max h.under h.over)

/-- The width of a column (`/repo/src/archon/core/histogram.hpp:251-266`). -/
def columnWidth (l : List (List Char)) : ℕ := l.foldl (fun w s => if s.length > w then s.length else w) 0

/-- The lambda function `deduct` (`/repo/src/archon/core/histogram.hpp:320-327`). -/
def deduct (size n : ℤ) : ℤ := if size ≥ n then size - n else 0

/-- `std::round()` for non-negative arguments. -/
def roundNonNeg (x : ℚ) : ℕ := ⌊x + 1 / 2⌋.toNat

/-- Left-adjusted output with `std::setw()`. -/
def padRight (w : ℕ) (s : List Char) : List Char := s ++ List.replicate (w - s.length) ' '

/-- Right-adjusted output with `std::setw()`. -/
def padLeft (w : ℕ) (s : List Char) : List Char := List.replicate (w - s.length) ' ' ++ s

/-- The widths of the columns, and of the area for the bars. -/
structure Layout where
  fromWidth : ℕ
  toWidth : ℕ
  countWidth : ℕ
  maxBarSize : ℤ

/-- Determination of layout (`/repo/src/archon/core/histogram.hpp:251-266` and `319-333`). -/
def layout (texts : List BinTexts) (width : ℤ) : Layout :=
  let fromWidth := columnWidth (texts.map (·.a))
  let toWidth := columnWidth (texts.map (·.b))
  let countWidth := columnWidth (texts.map (·.count))
  { fromWidth, toWidth, countWidth
    maxBarSize := deduct (deduct (deduct (deduct (deduct (deduct width fromWidth) 4) toWidth) 3) countWidth) 3 }

/-- The length of a bar (`/repo/src/archon/core/histogram.hpp:334` and `349`). When the maximum count is zero, the scale is infinity or not
a number. The count is zero too, so the product is not a number, and the conversion to `int` is undefined behavior. In that case, the
result is absent. -/
def barSize (maxBarSize : ℤ) (maxCount n : ℕ) : Option ℕ :=
  if maxCount = 0 then none else some (roundNonNeg (n * ((maxBarSize : ℚ) / maxCount)))

/-- The lambda function `format_bin` (`/repo/src/archon/core/histogram.hpp:340-353`), without the terminating newline character. -/
def formatBin (l : Layout) (maxCount : ℕ) (texts : BinTexts) : Option (List Char) :=
  (barSize l.maxBarSize maxCount texts.n).map fun size =>
    padRight l.fromWidth texts.a ++ [' ', '-', '>', ' '] ++ padRight l.toWidth texts.b ++ [' ', ':', ' '] ++
      padLeft l.countWidth texts.count ++ [' ', '|'] ++ padRight l.maxBarSize.toNat (List.replicate size '#') ++ ['|']

/-- `Histogram::print()` (`/repo/src/archon/core/histogram.hpp:194-361`). The result is the list of lines. It is absent in case of undefined
behavior. -/
def Hist.print (F : Format) (h : Hist) (width : ℤ) (includeUnderOver : Bool) : Option (List (List Char)) :=
  let texts := h.texts F includeUnderOver
  texts.mapM (formatBin (layout texts width) h.maxCount)

end Verif.Histogram
