/-
Model of /repo/src/archon/core/base64.hpp and base64.cpp.

Characters and bytes are natural numbers (`unsigned char` values). `std::size_t` is `Nat` except in
`encodeBufferSize`, where the maximum is a parameter. A failed `ARCHON_ASSERT` or an out-of-range
array access is the outcome `none`.

`data` is the list `[data_begin, data_end)`, `cap` is `buffer_end - buffer_begin`, and `out` is the
list of characters written so far. The `goto` structure of the code is kept: the label `output` is
`encOutput`/`decOutput`, the label `input` is `encInput`/`decInput`.
-/
namespace Verif.Base64

/-- base64.hpp:47-51 -/
structure EncCfg where
  urlSafe : Bool := false
  usePadding : Bool := false
  lineSize : Nat := 0
deriving DecidableEq, Repr

/-- base64.hpp:59 -/
inductive Padding where
  | allow | reject | require
deriving DecidableEq, Repr

/-- base64.hpp:58-63 -/
structure DecCfg where
  urlSafe : Bool := false
  padding : Padding := .allow
  allowWs : Bool := false
deriving DecidableEq, Repr

/-- base64.cpp:77-82 (the 62 alphanumeric characters, as character codes). -/
def alnum : List Nat := [
  'A', 'B', 'C', 'D', 'E', 'F', 'G', 'H', 'I', 'J', 'K', 'L', 'M', 'N', 'O', 'P',
  'Q', 'R', 'S', 'T', 'U', 'V', 'W', 'X', 'Y', 'Z', 'a', 'b', 'c', 'd', 'e', 'f',
  'g', 'h', 'i', 'j', 'k', 'l', 'm', 'n', 'o', 'p', 'q', 'r', 's', 't', 'u', 'v',
  'w', 'x', 'y', 'z', '0', '1', '2', '3', '4', '5', '6', '7', '8', '9'].map Char.toNat

/-- `g_base64_chars`, `g_base64url_chars`: base64.cpp:33-46; selection at line 267. -/
def encChars (urlSafe : Bool) : List Nat :=
  alnum ++ (if urlSafe then ['-', '_'] else ['+', '/']).map Char.toNat

/-- `decode_char()`: base64.cpp:100-253 with the table of lines 69-97. -/
def decodeChar (ch : Nat) : Nat :=
  if ch ∈ alnum then alnum.idxOf ch
  else if ch = '+'.toNat then 128 + 62
  else if ch = '-'.toNat then 192 + 62
  else if ch = '/'.toNat then 128 + 63
  else if ch = '_'.toNat then 192 + 63
  else if ch = '='.toNat then 64
  else if ch = ' '.toNat ∨ ch = '\t'.toNat ∨ ch = '\n'.toNat then 65
  else 66

/-! ### Encoder -/

/-- State of `IncrementalEncoder` (base64.hpp:186-190); the configuration is a separate argument.
`hold` is `m_hold_buffer` (4 elements). -/
structure EncSt where
  holdingOutput : Bool
  holdingSize : Nat
  hold : List Nat
  lineSize : Nat
deriving DecidableEq, Repr

/-- base64.hpp:187-190, 450-453. The initial contents of the hold buffer is irrelevant (indeterminate
in the code); it is a parameter here. -/
def EncSt.init (hold : List Nat) : EncSt := ⟨false, 0, hold, 0⟩

/-- What happens at the label `output`: either the buffer is full (`return false`, line 333), or
control goes to the label `input` with the remaining capacity. -/
inductive EncOutRes where
  | full (s : EncSt) (out : List Nat)
  | toInput (s : EncSt) (cap : Nat) (out : List Nat)
deriving DecidableEq, Repr

/-- Label `output`: base64.cpp:307-333. -/
def encOutput (cfg : EncCfg) : Nat → EncSt → List Nat → Option EncOutRes
  | 0, s, out => if s.holdingOutput then some (.full s out) else none
  | cap + 1, s, out =>
    if !s.holdingOutput then none
    else if cfg.lineSize = 0 ∨ s.lineSize < cfg.lineSize then
      if s.holdingSize = 0 then none
      else
        match s.hold[4 - s.holdingSize]? with
        | none => none
        | some ch =>
          let out := out ++ [ch]
          let s := { s with holdingSize := s.holdingSize - 1 }
          if cfg.lineSize = 0 then
            if s.holdingSize > 0 then encOutput cfg cap s out
            else some (.toInput { s with holdingOutput := false } cap out)
          else
            let s := { s with lineSize := s.lineSize + 1 }
            if s.holdingSize > 0 ∨ s.lineSize = cfg.lineSize then encOutput cfg cap s out
            else some (.toInput { s with holdingOutput := false } cap out)
    else
      let out := out ++ ['\n'.toNat]
      let s := { s with lineSize := 0 }
      if s.holdingSize > 0 then encOutput cfg cap s out
      else some (.toInput { s with holdingOutput := false } cap out)

/-- `chars[(batch >> ((3 - i) * 6)) & 0b111111]`: base64.cpp:301, 348, 355. -/
def encSextet (cfg : EncCfg) (batch i : Nat) : Option Nat :=
  (encChars cfg.urlSafe)[(batch >>> ((3 - i) * 6)) &&& 63]?

/-- Label `batch`: base64.cpp:292-305. -/
def encBatch (cfg : EncCfg) (s : EncSt) : Option EncSt :=
  if s.holdingOutput = false ∧ s.holdingSize = 3 then do
    let b0 ← s.hold[0]?
    let b1 ← s.hold[1]?
    let b2 ← s.hold[2]?
    let batch := ((0 ||| b0 <<< 16) ||| b1 <<< 8) ||| b2 <<< 0
    let c0 ← encSextet cfg batch 0
    let c1 ← encSextet cfg batch 1
    let c2 ← encSextet cfg batch 2
    let c3 ← encSextet cfg batch 3
    some { s with
      hold := (((s.hold.set 0 c0).set 1 c1).set 2 c2).set 3 c3
      holdingSize := 4
      holdingOutput := true }
  else none

/-- Label `partial`: base64.cpp:335-364. -/
def encPartial (cfg : EncCfg) (s : EncSt) : Option EncSt :=
  if s.holdingOutput = false ∧ (s.holdingSize = 1 ∨ s.holdingSize = 2) then do
    let b0 ← s.hold[0]?
    let b1 ← s.hold[1]?
    let batch := if s.holdingSize > 1 then b0 <<< 16 ||| b1 <<< 8 else b0 <<< 16
    let c0 ← encSextet cfg batch 0
    let c1 ← encSextet cfg batch 1
    let c2 ← encSextet cfg batch 2
    if s.holdingSize > 1 then
      -- n = 3
      if !cfg.usePadding then
        some { s with
          hold := ((s.hold.set 1 c0).set 2 c1).set 3 c2
          holdingSize := 3, holdingOutput := true }
      else
        some { s with
          hold := (((s.hold.set 0 c0).set 1 c1).set 2 c2).set 3 '='.toNat
          holdingSize := 4, holdingOutput := true }
    else
      -- n = 2
      if !cfg.usePadding then
        some { s with
          hold := (s.hold.set 2 c0).set 3 c1
          holdingSize := 2, holdingOutput := true }
      else
        some { s with
          hold := (((s.hold.set 0 c0).set 1 c1).set 2 '='.toNat).set 3 '='.toNat
          holdingSize := 4, holdingOutput := true }
  else none

/-- Result of one call of the incremental encoder: return value, new state, unconsumed input,
produced output. -/
structure EncRes where
  done : Bool
  st : EncSt
  rest : List Nat
  out : List Nat
deriving DecidableEq, Repr

/-- Label `finalize`: base64.cpp:367-374. -/
def encFinalize (cfg : EncCfg) (cap : Nat) (s : EncSt) (out : List Nat) : EncRes :=
  if cfg.lineSize = 0 ∨ s.lineSize = 0 then ⟨true, s, [], out⟩
  else if cap ≠ 0 then ⟨true, s, [], out ++ ['\n'.toNat]⟩
  else ⟨false, s, [], out⟩

/-- Label `input`: base64.cpp:272-290. `uchar(ch) <= 255` (line 276) always holds for 8-bit
characters. After `partial` and `output` (end of input) control reaches `input` again with nothing
held, and thus `finalize`; reaching it with something held is shown as `none` (and is proved
impossible). -/
def encInput (cfg : EncCfg) (eoi : Bool) :
    List Nat → Nat → EncSt → List Nat → Option EncRes
  | ch :: rest, cap, s, out =>
    if s.holdingOutput ∨ s.holdingSize ≥ 4 then none
    else
      let s := { s with hold := s.hold.set s.holdingSize ch, holdingSize := s.holdingSize + 1 }
      if s.holdingSize < 3 then encInput cfg eoi rest cap s out
      else
        match encBatch cfg s with
        | none => none
        | some s =>
          match encOutput cfg cap s out with
          | none => none
          | some (.full s out) => some ⟨false, s, rest, out⟩
          | some (.toInput s cap out) => encInput cfg eoi rest cap s out
  | [], cap, s, out =>
    if s.holdingOutput then none
    else if !eoi then some ⟨false, s, [], out⟩
    else if s.holdingSize > 0 then
      match encPartial cfg s with
      | none => none
      | some s =>
        match encOutput cfg cap s out with
        | none => none
        | some (.full s out) => some ⟨false, s, [], out⟩
        | some (.toInput s cap out) =>
          if s.holdingOutput ∨ s.holdingSize > 0 then none else some (encFinalize cfg cap s out)
    else some (encFinalize cfg cap s out)

/-- `IncrementalEncoder::encode()`: base64.cpp:259-375. -/
def encodeCall (cfg : EncCfg) (s : EncSt) (data : List Nat) (eoi : Bool) (cap : Nat) :
    Option EncRes :=
  if s.hold.length ≥ 4 ∧ (s.holdingOutput = true ∨ s.holdingSize < 3) then
    if s.holdingOutput then
      match encOutput cfg cap s [] with
      | none => none
      | some (.full s out) => some ⟨false, s, data, out⟩
      | some (.toInput s cap out) => encInput cfg eoi data cap s out
    else encInput cfg eoi data cap s []
  else none

/-- `encode_buffer_size()`: base64.hpp:415-436. `maxSize` is the maximum of `std::size_t`; `none` is
the thrown `std::length_error`. -/
def encodeBufferSize (maxSize : Nat) (cfg : EncCfg) (dataSize : Nat) : Option Nat :=
  let extra := dataSize / 3
  let rest := dataSize - extra * 3
  let extra := if rest > 0 then (if cfg.usePadding then extra + 1 + (3 - rest) else extra + 1) else extra
  if dataSize + extra ≤ maxSize then
    let size := dataSize + extra
    if cfg.lineSize = 0 then some size
    else
      let extra := size / cfg.lineSize
      let rest := size - extra * cfg.lineSize
      let extra := if rest > 0 then extra + 1 else extra
      if size + extra ≤ maxSize then some (size + extra) else none
  else none

/-- Outcome of the one-shot functions. -/
inductive Outcome where
  | ok (bytes : List Nat)
  | throws
  | abort
deriving DecidableEq, Repr

/-- `BasicEncoder::encode()` for `char`: base64.hpp:312-323 together with `encode()` of lines
240-256. `bufSize` is the size of the caller's buffer before the call (`Buffer::reserve` makes it at
least the requested size, here exactly the maximum of the two). -/
def encodeOneShot (maxSize : Nat) (cfg : EncCfg) (hold : List Nat) (data : List Nat) (bufSize : Nat) :
    Outcome :=
  match encodeBufferSize maxSize cfg data.length with
  | none => .throws
  | some n =>
    let cap := max n bufSize
    match encodeCall cfg (EncSt.init hold) data true cap with
    | none => .abort
    | some r =>
      if r.done then .ok r.out
      else if r.out.length = cap then .abort
      else .ok []

/-! ### Decoder -/

/-- State of `IncrementalDecoder`: base64.hpp:206-209. -/
structure DecSt where
  holdingOutput : Bool
  paddingSize : Nat
  holdingSize : Nat
  hold : List Nat
deriving DecidableEq, Repr

/-- base64.hpp:206-209, 456-459. -/
def DecSt.init (hold : List Nat) : DecSt := ⟨false, 0, 0, hold⟩

/-- `valid_partial` lambda: base64.cpp:384-391. Reads of the hold buffer are in range whenever it has
4 elements. -/
def validPartial (s : DecSt) : Bool :=
  if s.holdingSize > 2 then (s.hold.getD 2 0) &&& 3 == 0
  else if s.holdingSize > 1 then (s.hold.getD 1 0) &&& 15 == 0
  else false

/-- Lines 401-403: whether the character with table value `val` is a regular character. -/
def isRegular (cfg : DecCfg) (val : Nat) : Bool :=
  let special := (val &&& 128) != 0
  let discr := (val &&& 64) != 0
  (special && cfg.urlSafe) == discr

/-- Why a call returned. The code returns only `true` (for `done`) or `false` (for all others). -/
inductive Why where
  | done | full | needInput | bad | premature
deriving DecidableEq, Repr

/-- Result of one call of the incremental decoder. -/
structure DecRes where
  why : Why
  st : DecSt
  rest : List Nat
  out : List Nat
deriving DecidableEq, Repr

/-- See `EncOutRes`. -/
inductive DecOutRes where
  | full (s : DecSt) (out : List Nat)
  | toInput (s : DecSt) (cap : Nat) (out : List Nat)
deriving DecidableEq, Repr

/-- Label `output`: base64.cpp:464-476. -/
def decOutput : Nat → DecSt → List Nat → Option DecOutRes
  | cap, s, out =>
    if s.holdingOutput = true ∧ 0 < s.holdingSize ∧ s.holdingSize ≤ 3 then
      match cap with
      | 0 => some (.full s out)
      | cap + 1 =>
        match s.hold[4 - s.holdingSize]? with
        | none => none
        | some ch =>
          let out := out ++ [ch]
          let s := { s with holdingSize := s.holdingSize - 1 }
          if s.holdingSize > 0 then decOutput cap s out
          else some (.toInput { s with holdingOutput := false } cap out)
    else none

/-- Label `batch`: base64.cpp:447-461. -/
def decBatch (s : DecSt) : Option DecSt :=
  if s.holdingOutput = false ∧ s.holdingSize = 4 then do
    let v0 ← s.hold[0]?
    let v1 ← s.hold[1]?
    let v2 ← s.hold[2]?
    let v3 ← s.hold[3]?
    let batch := (((0 ||| v0 <<< 18) ||| v1 <<< 12) ||| v2 <<< 6) ||| v3 <<< 0
    some { s with
      hold := ((s.hold.set 1 ((batch >>> 16) &&& 255)).set 2 ((batch >>> 8) &&& 255)).set 3
        ((batch >>> 0) &&& 255)
      holdingSize := 3
      holdingOutput := true }
  else none

/-- Label `partial`: base64.cpp:478-494. -/
def decPartial (s : DecSt) : Option DecSt :=
  if s.holdingOutput = false ∧ (s.holdingSize = 2 ∨ s.holdingSize = 3) ∧ validPartial s = true then do
    let v0 ← s.hold[0]?
    let v1 ← s.hold[1]?
    let v2 ← s.hold[2]?
    let batch := if s.holdingSize > 2 then ((0 ||| v0 <<< 18) ||| v1 <<< 12) ||| v2 <<< 6
      else (0 ||| v0 <<< 18) ||| v1 <<< 12
    if s.holdingSize = 2 then
      -- n = 1
      some { s with
        hold := s.hold.set 3 ((batch >>> 16) &&& 255), holdingSize := 1, holdingOutput := true }
    else
      -- n = 2
      some { s with
        hold := (s.hold.set 2 ((batch >>> 16) &&& 255)).set 3 ((batch >>> 8) &&& 255)
        holdingSize := 2, holdingOutput := true }
  else none

/-- Padding loop: base64.cpp:423-433 when the current character is `=`. The character is *not*
consumed (no `++data_begin`), so that the code runs through lines 398-433 again with the same
character: with `m_padding_size` increased until `m_holding_size + m_padding_size` is 4 (`goto
partial`). After `partial` and `output`, `input` is reached with nothing held and the same `=`, which
is then bad input (`valid_partial` is false). -/
def decPadding (cfg : DecCfg) (data : List Nat) : Nat → Nat → DecSt → List Nat → Option DecRes
  | 0, _, _, _ => none
  | fuel + 1, cap, s, out =>
    if cfg.padding ≠ .reject ∧ validPartial s = true then
      let s := { s with paddingSize := s.paddingSize + 1 }
      if s.holdingSize + s.paddingSize < 4 then decPadding cfg data fuel cap s out
      else
        match decPartial s with
        | none => none
        | some s =>
          match decOutput cap s out with
          | none => none
          | some (.full s out) => some ⟨.full, s, data, out⟩
          | some (.toInput s cap out) => decPadding cfg data fuel cap s out
    else some ⟨.bad, s, data, out⟩

/-- Label `input`: base64.cpp:396-445. -/
def decInput (cfg : DecCfg) (eoi : Bool) :
    List Nat → Nat → DecSt → List Nat → Option DecRes
  | ch :: rest, cap, s, out =>
    if s.holdingOutput ∨ s.holdingSize ≥ 4 then none
    else
      let val := decodeChar ch
      if isRegular cfg val then
        if s.paddingSize = 0 then
          let s := { s with hold := s.hold.set s.holdingSize (val &&& 63), holdingSize := s.holdingSize + 1 }
          if s.holdingSize < 4 then decInput cfg eoi rest cap s out
          else
            match decBatch s with
            | none => none
            | some s =>
              match decOutput cap s out with
              | none => none
              | some (.full s out) => some ⟨.full, s, rest, out⟩
              | some (.toInput s cap out) => decInput cfg eoi rest cap s out
        else some ⟨.bad, s, ch :: rest, out⟩
      else if val = 65 then
        if cfg.allowWs then decInput cfg eoi rest cap s out
        else some ⟨.bad, s, ch :: rest, out⟩
      else if val = 64 then decPadding cfg (ch :: rest) 4 cap s out
      else some ⟨.bad, s, ch :: rest, out⟩
  | [], cap, s, out =>
    if s.holdingOutput then none
    else if !eoi then some ⟨.needInput, s, [], out⟩
    else if s.paddingSize = 0 then
      if cfg.padding ≠ .require ∧ validPartial s = true then
        match decPartial s with
        | none => none
        | some s =>
          match decOutput cap s out with
          | none => none
          | some (.full s out) => some ⟨.full, s, [], out⟩
          | some (.toInput s _ out) =>
            -- back at `input` with nothing held (lines 436-443)
            if s.holdingOutput ∨ s.holdingSize > 0 ∨ s.paddingSize ≠ 0 then none
            else some ⟨.done, s, [], out⟩
      else if s.holdingSize = 0 then some ⟨.done, s, [], out⟩
      else some ⟨.premature, s, [], out⟩
    else some ⟨.premature, s, [], out⟩

/-- `IncrementalDecoder::decode()`: base64.cpp:378-496. -/
def decodeCall (cfg : DecCfg) (s : DecSt) (data : List Nat) (eoi : Bool) (cap : Nat) :
    Option DecRes :=
  if s.holdingOutput then
    match decOutput cap s [] with
    | none => none
    | some (.full s out) => some ⟨.full, s, data, out⟩
    | some (.toInput s cap out) => decInput cfg eoi data cap s out
  else decInput cfg eoi data cap s []

/-- `decode_buffer_size()`: base64.hpp:439-447. -/
def decodeBufferSize (dataSize : Nat) : Nat :=
  let extra := dataSize / 4
  let rest := dataSize - extra * 4
  let extra := if rest > 0 then extra + 1 else extra
  dataSize - extra

/-- `decode()`: base64.hpp:277-293. Result: `some (some bytes)` on success, `some none` on failure
together with the value of `insufficient_buffer_space`. -/
def decodeSpan (cfg : DecCfg) (hold data : List Nat) (cap : Nat) : Option (Except Bool (List Nat)) :=
  match decodeCall cfg (DecSt.init hold) data true cap with
  | none => none
  | some r => if r.why = .done then some (.ok r.out) else some (.error (r.out.length == cap))

/-- `BasicDecoder::decode()` for `char`: base64.hpp:369-380, 411. `bufSize` as in `encodeOneShot`. -/
def decodeOneShot (cfg : DecCfg) (hold data : List Nat) (bufSize : Nat) : Outcome :=
  match decodeSpan cfg hold data (max (decodeBufferSize data.length) bufSize) with
  | none => .abort
  | some (.ok bytes) => .ok bytes
  | some (.error insufficient) => if insufficient then .abort else .throws

end Verif.Base64
