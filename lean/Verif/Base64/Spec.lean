/-
Specification of Base64 (RFC 4648), independent of the incremental codec.
Bytes are numbers below 256, characters are character codes.
-/
namespace Verif.Base64.Spec

/-- RFC 4648, tables 1 and 2. -/
def alphabet (urlSafe : Bool) (v : Nat) : Nat :=
  if v < 26 then 'A'.toNat + v
  else if v < 52 then 'a'.toNat + (v - 26)
  else if v < 62 then '0'.toNat + (v - 52)
  else if v = 62 then (if urlSafe then '-'.toNat else '+'.toNat)
  else (if urlSafe then '_'.toNat else '/'.toNat)

/-- The 6-bit groups of a byte string: each 24-bit group is a 4-digit number in base 64; a final
group of 8 or 16 bits is extended with zero bits to 12 or 18 bits. -/
def sextets : List Nat → List Nat
  | [] => []
  | [a] => let n := a * 16; [n / 64, n % 64]
  | [a, b] => let n := (a * 256 + b) * 4; [n / 4096, n / 64 % 64, n % 64]
  | a :: b :: c :: t =>
    let n := (a * 256 + b) * 256 + c
    [n / 262144, n / 4096 % 64, n / 64 % 64, n % 64] ++ sextets t

/-- Encoding without line breaks. -/
def encodeText (urlSafe pad : Bool) (bytes : List Nat) : List Nat :=
  (sextets bytes).map (alphabet urlSafe) ++
    (if pad then List.replicate ((3 - bytes.length % 3) % 3) '='.toNat else [])

/-- Break text into lines of `n` characters, each line (also the last) terminated by a newline; no
line breaks if `n` is zero. -/
def breakLines (n : Nat) (s : List Nat) : List Nat :=
  if _h : n = 0 ∨ s = [] then s
  else s.take n ++ ['\n'.toNat] ++ breakLines n (s.drop n)
termination_by s.length
decreasing_by
  simp only [not_or] at _h
  have := List.length_pos_iff.mpr _h.2
  simp only [List.length_drop]
  omega

/-- The complete encoding. -/
def encode (urlSafe pad : Bool) (lineSize : Nat) (bytes : List Nat) : List Nat :=
  breakLines lineSize (encodeText urlSafe pad bytes)

/-- White space as accepted by the decoder. -/
def isSpace (c : Nat) : Bool := c == ' '.toNat || c == '\t'.toNat || c == '\n'.toNat

/-- Text with white space removed. -/
def stripSpace (s : List Nat) : List Nat := s.filter (fun c => !isSpace c)

def IsBytes (l : List Nat) : Prop := ∀ b ∈ l, b < 256

end Verif.Base64.Spec
