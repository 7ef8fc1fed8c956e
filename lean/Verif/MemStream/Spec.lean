/-!
# Specification of stream buffers that read from, and write to memory

This file does not refer to the model.
-/

namespace Verif.MemStream.Spec

variable {α : Type}

/-- A file of limited size. -/
structure File (α : Type) where
  /-- Contents of file -/
  content : List α
  /-- Reading or writing position -/
  pos : Nat
  /-- Maximum size of file -/
  cap : Nat

/-- Write to file at writing position. What does not fit is left out. The result is the number of
characters written. -/
def File.write (f : File α) (s : List α) : Nat × File α :=
  let t := s.take (f.cap - f.pos)
  (t.length,
    { f with
      content := f.content.take f.pos ++ t ++ f.content.drop (f.pos + t.length)
      pos := f.pos + t.length })

/-- Change the writing position, when the new one is in range. If it is beyond the end of the file, the
file is extended. -/
def File.seek (zero : α) (f : File α) (target : Int) : Option Nat × File α :=
  if 0 ≤ target ∧ target ≤ f.cap then
    (some target.toNat,
      { f with
        content := f.content ++ List.replicate (target.toNat - f.content.length) zero
        pos := target.toNat })
  else
    (none, f)

/-- What can be requested of a file opened for writing. -/
inductive Op (α : Type) where
  | write (s : List α)
  | seekBeg (off : Int)
  | seekCur (off : Int)
  | seekEnd (off : Int)

/-- Carry out request. The result is the number of characters written, or the new position, or `none` if
the request failed. -/
def File.step (zero : α) (f : File α) : Op α → Option Nat × File α
  | .write s => let r := f.write s; (some r.1, r.2)
  | .seekBeg off => f.seek zero off
  | .seekCur off => f.seek zero (f.pos + off)
  | .seekEnd off => f.seek zero (f.content.length + off)

/-- Carry out requests. -/
def File.run (zero : α) (f : File α) : List (Op α) → List (Option Nat) × File α
  | [] => ([], f)
  | op :: ops =>
    let r := f.step zero op
    let r' := r.2.run zero ops
    (r.1 :: r'.1, r'.2)

end Verif.MemStream.Spec
