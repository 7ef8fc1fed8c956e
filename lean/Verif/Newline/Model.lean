/-
Model of the newline codec: /repo/src/archon/core/newline_codec.cpp.

Representation: `data[data_offset ..]` is a list of characters, the offset is a running count.
The part of the buffer that has been written so far, `buffer[0 .. j)`, is the list `out`
(so `j = out.length`), and `n` is `buffer.size()`. Contents of the buffer beyond `j` are not
modelled. Every write is preceded by the capacity check of the code.
-/
namespace Verif.Newline

/-- Loop variables of `decode()`: newline_codec.cpp:39-41 (`i`, `buffer[0..j)`, `k`). -/
structure DecState where
  i : Nat
  out : List Char
  clear : Nat
deriving Repr, DecidableEq

/-- The loop of `decode()`: newline_codec.cpp:42-64. The list argument is `data[i ..]`. -/
def decodeLoop (n : Nat) (endOfData : Bool) (clearOffset : Nat) :
    List Char → DecState → DecState
  | [], s => s
  | ch :: rest, s =>
    if s.out.length < n then
      if ch ≠ '\r' then
        decodeLoop n endOfData clearOffset rest { s with i := s.i + 1, out := s.out ++ [ch] }
      else
        match rest with
        | ch2 :: rest2 =>
          if ch2 = '\n' then
            decodeLoop n endOfData clearOffset rest2
              { i := s.i + 2, out := s.out ++ ['\n'], clear := clearOffset + (s.out.length + 1) }
          else
            decodeLoop n endOfData clearOffset (ch2 :: rest2)
              { s with i := s.i + 1, out := s.out ++ [ch] }
        | [] =>
          if endOfData then
            decodeLoop n endOfData clearOffset [] { s with i := s.i + 1, out := s.out ++ [ch] }
          else s
    else s

/-- `decode()`: newline_codec.cpp:32-68. `none` is a failed assertion (lines 35-36).
`buffer` is the contents of the whole buffer on entry; the result holds the final values of
`data_offset`, `buffer[0 .. buffer_offset)` and `clear`. -/
def decode (data : List Char) (dataOffset : Nat) (endOfData : Bool) (buffer : List Char)
    (bufferOffset : Nat) (clearOffset clear : Nat) : Option DecState :=
  if dataOffset ≤ data.length ∧ bufferOffset ≤ buffer.length then
    some (decodeLoop buffer.length endOfData clearOffset (data.drop dataOffset)
      { i := dataOffset, out := buffer.take bufferOffset, clear := clear })
  else none

/-- Loop variables of `encode()`: newline_codec.cpp:78-79. -/
structure EncState where
  i : Nat
  out : List Char
deriving Repr, DecidableEq

/-- The loop of `encode()`: newline_codec.cpp:80-94. -/
def encodeLoop (n : Nat) : List Char → EncState → EncState
  | [], s => s
  | ch :: rest, s =>
    if ch ≠ '\n' then
      if s.out.length = n then s
      else encodeLoop n rest { i := s.i + 1, out := s.out ++ [ch] }
    else
      if n - s.out.length < 2 then s
      else encodeLoop n rest { i := s.i + 1, out := s.out ++ ['\r'] ++ ['\n'] }

/-- `encode()`: newline_codec.cpp:71-97. -/
def encode (data : List Char) (dataOffset : Nat) (buffer : List Char) (bufferOffset : Nat) :
    Option EncState :=
  if dataOffset ≤ data.length ∧ bufferOffset ≤ buffer.length then
    some (encodeLoop buffer.length (data.drop dataOffset)
      { i := dataOffset, out := buffer.take bufferOffset })
  else none

/-- The loop of `simul_decode()`: newline_codec.cpp:104-129. The result is the final `i`, or
`none` if the function returns `false`. -/
def simulLoop (bufferSize : Nat) : List Char → (i j : Nat) → Option Nat
  | [], i, j => if j < bufferSize then none else some i
  | ch :: rest, i, j =>
    if j < bufferSize then
      if ch ≠ '\r' then
        simulLoop bufferSize rest (i + 1) (j + 1)
      else
        match rest with
        | ch2 :: rest2 =>
          if ch2 = '\n' then simulLoop bufferSize rest2 (i + 2) (j + 1)
          else simulLoop bufferSize (ch2 :: rest2) (i + 1) (j + 1)
        | [] => simulLoop bufferSize [] (i + 1) (j + 1)
    else some i

/-- `simul_decode()`: newline_codec.cpp:100-132. Outer `none`: failed assertion (line 102).
Inner `none`: the function returns `false` and leaves `data_offset` unchanged. -/
def simulDecode (data : List Char) (dataOffset bufferSize : Nat) : Option (Option Nat) :=
  if dataOffset ≤ data.length then
    some (simulLoop bufferSize (data.drop dataOffset) dataOffset 0)
  else none

end Verif.Newline
