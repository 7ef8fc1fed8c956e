/-!
Model of construction and moving of seed sequences: /repo/src/archon/core/random.hpp:495-521, 604-658, /repo/src/archon/core/random.cpp:71-81.

Memory that is referred to by the caller's spans is assumed to stay unchanged, so a span is represented by its contents.
-/
namespace Verif.SeedSeq

/-- The members of an object: random.hpp:186-188. -/
structure Obj where
  /-- Whether `m_seq_owner` is set. -/
  owner : Bool
  /-- `m_seq`. -/
  seq : List Nat
  /-- `m_seq_seq`: `none` if it refers to `m_seq` of the same object. -/
  seqs : Option (List (List Nat))
  deriving DecidableEq

/-- The default constructor: random.hpp:166. -/
def Obj.default : Obj := ⟨false, [], some []⟩

/-- Construction with copying: random.hpp:504-521, 637-655. -/
def Obj.copy (v : List Nat) : Obj := if v.length > 0 then ⟨true, v, none⟩ else .default

/-- `no_copy()`: random.hpp:495-501. -/
def Obj.noCopy (v : List Nat) : Obj := ⟨false, v, none⟩

/-- `no_copy_a()`: random.cpp:71-81. The check of the sum of the sizes is left out. -/
def Obj.noCopyA (vs : List (List Nat)) : Obj := ⟨false, [], some vs⟩

/-- `param()`: random.hpp:596-601. -/
def Obj.param (o : Obj) : List Nat := (o.seqs.getD [o.seq]).flatten

/-- `init(SeedSeq&&)`: random.hpp:618-634, for two different objects. The result is the two objects. `none` stands for a failed assertion. -/
def Obj.moveInit (this other : Obj) : Option (Obj × Obj) :=
  match other.seqs with
  | none => some (⟨other.owner, other.seq, none⟩, ⟨false, [], some []⟩)
  | some vs =>
    if other.owner = false ∧ other.seq = [] then some ({ this with seqs := some vs }, { other with seqs := some [] })
    else none

/-- `init(SeedSeq&&)`: random.hpp:618-634, when both are the same object. -/
def Obj.moveSelf (o : Obj) : Option Obj :=
  match o.seqs with
  | none => some ⟨o.owner, [], some []⟩
  | some _ => if o.owner = false ∧ o.seq = [] then some { o with seqs := some [] } else none

/-- The operations on named objects. -/
inductive Op where
  /-- Creation of an object (with destruction of the previous one). -/
  | default (i : Nat)
  | copy (i : Nat) (v : List Nat)
  | noCopy (i : Nat) (v : List Nat)
  | noCopyA (i : Nat) (vs : List (List Nat))
  /-- Move construction: random.hpp:604-608. -/
  | moveCtor (i j : Nat)
  /-- Move assignment: random.hpp:611-615. -/
  | moveAssign (i j : Nat)

/-- Named objects. -/
abbrev Store := Nat → Obj

def Store.put (s : Store) (i : Nat) (o : Obj) : Store := fun k => if k = i then o else s k

/-- The effect of an operation. In a move construction, the new object is different from the source. -/
def exec (s : Store) : Op → Option Store
  | .default i => some (s.put i .default)
  | .copy i v => some (s.put i (.copy v))
  | .noCopy i v => some (s.put i (.noCopy v))
  | .noCopyA i vs => some (s.put i (.noCopyA vs))
  | .moveCtor i j => if i = j then none else do
    let (a, b) ← Obj.moveInit .default (s j)
    some ((s.put i a).put j b)
  | .moveAssign i j =>
    if i = j then do some (s.put i (← (s i).moveSelf))
    else do
      let (a, b) ← Obj.moveInit (s i) (s j)
      some ((s.put i a).put j b)

def execAll (s : Store) : List Op → Option Store
  | [] => some s
  | op :: ops => do execAll (← exec s op) ops

end Verif.SeedSeq
