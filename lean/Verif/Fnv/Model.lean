import Verif.Integer.Model
/-!
Model of /repo/src/archon/core/hash_fnv.hpp, `Hash_FNV_1a_32`.

`I` is the number of value bits of `int`, `W` the number of bits of `std::uint_fast32_t` (which is assumed not to be
narrower than `int`), and `B` the number of bits of a byte. The state is the value of `m_hash`, less than `2^W`.
-/
namespace Verif.Fnv
open Verif.Integer

/-- The initial value of `m_hash`: hash_fnv.hpp:95. -/
def init : Nat := 2166136261

/-- `add_octet()`: hash_fnv.hpp:157-164. -/
def addOctet (W : Nat) (m v : Nat) : Nat := ((m ^^^ v) * 16777619) % 2 ^ W

/-- The loops of `add_byte()` and `add_int()`, and the line that follows it: hash_fnv.hpp:112-121 and 130-138. The first
argument bounds the number of turns, `n` is `width - offset`. -/
def addLoop (W : Nat) : Nat → (n v m : Nat) → Nat
  | 0, _, v, m => addOctet W m (v % 2 ^ W)
  | fuel + 1, n, v, m =>
    if n > 8 then addLoop W fuel (n - 8) (v >>> 8) (addOctet W m ((v &&& 0xFF) % 2 ^ W))
    else addOctet W m (v % 2 ^ W)

/-- `add_byte()`: hash_fnv.hpp:107-122. -/
def addByte (B W : Nat) (m b : Nat) : Nat := addLoop W B B b m

/-- `add_int()`: hash_fnv.hpp:125-139. -/
def addInt (I W : Nat) (T : Ty) (m : Nat) (x : Int) : Nat :=
  addLoop W T.width T.width (toUnsigned (promote I T) x).toNat m

/-- `add_obj()`: hash_fnv.hpp:142-148. The argument is the bytes in memory. -/
def addObj (B W : Nat) (m : Nat) (bytes : List Nat) : Nat := bytes.foldl (addByte B W) m

/-- `get()`: hash_fnv.hpp:151-154. -/
def get (m : Nat) : Nat := m &&& 0xFFFFFFFF

end Verif.Fnv
