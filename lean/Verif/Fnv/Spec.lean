import Verif.Integer.Spec
/-!
The 32-bit FNV-1a hash function, as published (http://www.isthe.com/chongo/tech/comp/fnv/index.html), and the octets of
a value.
-/
namespace Verif.Fnv.Spec

/-- The hash of a sequence of octets. -/
def fnv1a (octets : List Nat) : Nat :=
  octets.foldl (fun h o => ((h ^^^ o) * 16777619) % 2 ^ 32) 2166136261

/-- The octets of a value with the given number of bits, least significant first: octet `k` has bits `8k` to `8k + 7`. -/
def octets (width v : Nat) : List Nat := (List.range ((width + 7) / 8)).map fun k => v / 256 ^ k % 256

/-- What a client can digest: a byte, an integer of a particular type, or an object, as the bytes of its memory. -/
inductive Call where
  | byte (b : Nat)
  | int (T : Verif.Integer.Ty) (x : Int)
  | obj (bytes : List Nat)

/-- The octets of what is digested. `B` is the number of bits of a byte. -/
def Call.octets (B : Nat) : Call → List Nat
  | .byte b => Spec.octets B b
  | .int T x => Spec.octets T.width (x % 2 ^ T.width).toNat
  | .obj bytes => bytes.flatMap (Spec.octets B)

/-- Values are in range. -/
def Call.Valid (B : Nat) : Call → Prop
  | .byte b => b < 2 ^ B
  | .int T x => 0 < T.width ∧ Verif.Integer.Spec.Fits T x
  | .obj bytes => ∀ b ∈ bytes, b < 2 ^ B

end Verif.Fnv.Spec
