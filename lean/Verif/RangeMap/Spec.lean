/-
Specification of range maps: a history of updates determines the value of each key.
-/
namespace Verif.RangeMap.Spec

/-- An update of all keys in the range `[first, last]`, or a defragmentation. -/
inductive Op (T : Type) where
  | update (first last : Int) (f : T → T)
  | assign (first last : Int) (v : T)
  | defrag

/-- The range of an operation is not empty, and is within the values of the key type. -/
def Op.Valid {T : Type} (lo hi : Int) : Op T → Prop
  | .update a b _ => lo ≤ a ∧ a ≤ b ∧ b ≤ hi
  | .assign a b _ => lo ≤ a ∧ a ≤ b ∧ b ≤ hi
  | .defrag => True

/-- The effect of an operation on the value of key `k`; `none` if no update covered the key so far. -/
def Op.apply {T : Type} (dflt : T) (k : Int) : Op T → Option T → Option T
  | .update a b f, v => if a ≤ k ∧ k ≤ b then some (f (v.getD dflt)) else v
  | .assign a b x, v => if a ≤ k ∧ k ≤ b then some x else v
  | .defrag, v => v

/-- The value of a key after a history. -/
def value {T : Type} (dflt : T) (ops : List (Op T)) (k : Int) : Option T :=
  ops.foldl (fun v op => op.apply dflt k v) none

end Verif.RangeMap.Spec
