import Mathlib.Data.List.Basic

/-!
# Model of parser for EDID

Model of `/repo/src/archon/display/noinst/edid.cpp`. A byte is a natural number less than 256 (values of type `char` are converted to
`unsigned char` in the code where that makes a difference).
-/

namespace Verif.Edid

/-- Reading outside the specified data is undefined behavior, in which case the result is absent. -/
abbrev M := Option

/-- `data[i]` -/
def read (data : List ℕ) (i : ℕ) : M ℕ := data[i]?

/-- `EdidInfo` (`/repo/src/archon/display/noinst/edid.hpp:36-39`). The name is given by an offset and a size. -/
structure Info where
  major : ℕ
  minor : ℕ
  monitorName : Option (ℕ × ℕ)
deriving DecidableEq

/-- The loop that computes the checksum (`/repo/src/archon/display/noinst/edid.cpp:45-49`). The first argument is the number of remaining
iterations. The result is the bits in use, and the sum, which is at most 128 * 255, so there is no overflow. -/
def sumLoop (data : List ℕ) : ℕ → ℕ → ℕ → ℕ → M (ℕ × ℕ)
  | 0, _, usedBits, checksum => some (usedBits, checksum)
  | k + 1, i, usedBits, checksum => do
    let val ← read data i
    sumLoop data k (i + 1) (usedBits ||| val) (checksum + val)

/-- The loop that finds the end of the name (`/repo/src/archon/display/noinst/edid.cpp:69-70`). The first argument is the number of
remaining iterations. -/
def nameLoop (data : List ℕ) (base : ℕ) : ℕ → ℕ → M ℕ
  | 0, n => some n
  | k + 1, n => do
    let c ← read data (base + 5 + n)
    if c ≠ 0x0A then nameLoop data base k (n + 1) else some n

/-- The body of the loop over descriptors (`/repo/src/archon/display/noinst/edid.cpp:58-90`). The state is the monitor name and the string
data. `transcode` is `m_transcoder.transcode_l()`. -/
def descriptor (transcode : List ℕ → List ℕ) (data : List ℕ) (j : ℕ) (s : Option (ℕ × ℕ) × List ℕ) : M (Option (ℕ × ℕ) × List ℕ) := do
  let base := 54 + j * 18
  let b0 ← read data base
  let isMonitorDescriptor ← if b0 = 0 then (do let b1 ← read data (base + 1); pure (decide (b1 = 0))) else pure false
  if isMonitorDescriptor then
    let type ← read data (base + 3)
    if type = 0xFC then
      let n ← nameLoop data base 13 0
      let str1 := (data.drop (base + 5)).take n
      let str2 := transcode str1
      let stringDataOffset := s.2.length
      let stringData := s.2 ++ str2
      pure (some (stringDataOffset, stringData.length - stringDataOffset), stringData)
    else pure s
  else pure s

/-- The loop over descriptors (`/repo/src/archon/display/noinst/edid.cpp:58-90`). -/
def descriptors (transcode : List ℕ → List ℕ) (data : List ℕ) : ℕ → ℕ → Option (ℕ × ℕ) × List ℕ → M (Option (ℕ × ℕ) × List ℕ)
  | 0, _, s => some s
  | k + 1, j, s => do
    let s ← descriptor transcode data j s
    descriptors transcode data k (j + 1) s

/-- `EdidParser::parse()` (`/repo/src/archon/display/noinst/edid.cpp:38-100`). The result is the updated info and string data, or nothing if
false is returned, in which case neither is changed. -/
def parse (transcode : List ℕ → List ℕ) (data : List ℕ) (stringData : List ℕ) : M (Option (Info × List ℕ)) := do
  if data.length ≥ 128 then
    let (usedBits, checksum) ← sumLoop data 128 0 0 0
    if (usedBits ||| 255) = 255 ∧ checksum % 256 = 0 then
      let major ← read data 18
      let minor ← read data 19
      if major > 1 ∨ (major = 1 ∧ minor ≥ 4) then
        let (monitorName, stringData) ← descriptors transcode data 4 0 (none, stringData)
        pure (some ({ major, minor, monitorName }, stringData))
      else pure none
    else pure none
  else pure none

end Verif.Edid
