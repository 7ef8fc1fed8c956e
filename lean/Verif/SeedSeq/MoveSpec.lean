import Verif.SeedSeq.MoveModel
/-!
What is expected of moving of seed sequences: an object has a seed sequence, and moving transfers it.
-/
namespace Verif.SeedSeq.Spec

/-- The seed sequences of named objects. -/
abbrev Seeds := Nat → List Nat

def put (s : Seeds) (i : Nat) (v : List Nat) : Seeds := fun k => if k = i then v else s k

def exec (s : Seeds) : Op → Seeds
  | .default i => put s i []
  | .copy i v => put s i v
  | .noCopy i v => put s i v
  | .noCopyA i vs => put s i vs.flatten
  | .moveCtor i j => put (put s i (s j)) j []
  | .moveAssign i j => put (put s i (s j)) j []

def execAll (s : Seeds) (ops : List Op) : Seeds := ops.foldl exec s

/-- Whether an object has a single seed sequence, which is either copied, or specified directly by the caller. -/
abbrev Single := Nat → Bool

def single (s : Single) (i : Nat) (b : Bool) : Single := fun k => if k = i then b else s k

def execSingle (s : Single) : Op → Single
  | .default i => single s i false
  | .copy i v => single s i (decide (v ≠ []))
  | .noCopy i _ => single s i true
  | .noCopyA i _ => single s i false
  | .moveCtor i j => single (single s i (s j)) j false
  | .moveAssign i j => single (single s i (s j)) j false

/-- Moving is between different objects. -/
def Distinct : Op → Prop
  | .moveCtor i j => i ≠ j
  | .moveAssign i j => i ≠ j
  | _ => True

/-- An object that has a single seed sequence is assigned to only from such objects. -/
def Allowed (s : Single) : List Op → Prop
  | [] => True
  | op :: ops => Distinct op ∧ (∀ i j, op = .moveAssign i j → s i = true → s j = true) ∧ Allowed (execSingle s op) ops

end Verif.SeedSeq.Spec
