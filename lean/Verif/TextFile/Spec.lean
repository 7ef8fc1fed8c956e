import Verif.TextFile.Model

/-!
# What text files, and implementations of text files, are supposed to do
-/

namespace Verif.TextFile

variable {α σ : Type}

/-- The mode of a text file implementation (`/repo/src/archon/core/text_file_impl_concept.hpp:137-151`). -/
inductive Mode where
  | neutral
  | reading
  | writing
  deriving DecidableEq

/-- What a text file implementation looks like from the outside: the text as it will be when everything has been written, the position of the
logical file pointer, the distance to the read-ahead pointer, and the mode. -/
structure View (α : Type) where
  content : List α
  pos : ℕ
  ahead : ℕ
  mode : Mode

/-- The requirements on a text file implementation (`/repo/src/archon/core/text_file_impl_concept.hpp:154-326`). `disk` is what has actually
been written, and `ok` is the invariant of the implementation. -/
structure Conforms [Inhabited α] (I : Impl α σ) (view : σ → View α) (disk : σ → List α) (ok : σ → Prop) : Prop where
  ahead : ∀ s, ok s → (view s).mode ≠ .reading → (view s).ahead = 0
  disk : ∀ s, ok s → (view s).mode ≠ .writing → disk s = (view s).content
  write : ∀ s n₀ data, ok s → (view s).mode ≠ .reading → ∃ b n s', I.write s n₀ data = some (b, n, s') ∧ ok s' ∧
    view s' = ⟨overwrite (view s).content (view s).pos (data.take n), (view s).pos + n, 0, .writing⟩ ∧ (b = true → n = data.length) ∧
    (b = false → n < data.length ∨ data = [] ∧ n = 0)
  flush : ∀ s, ok s → (view s).mode = .writing → ∃ b s', I.flush s = some (b, s') ∧ ok s' ∧
    view s' = { view s with mode := if b then .neutral else .writing }
  tellWrite : ∀ s, ok s → (view s).mode ≠ .reading → ∃ r s', I.tellWrite s = some (r, s') ∧ ok s' ∧ view s' = view s ∧
    ∀ pos, r = some pos → pos = (view s).pos
  reopen : ∀ s file, ok s → ok (I.reopen s file) ∧ view (I.reopen s file) = ⟨file.content, file.pos, 0, .neutral⟩
  readAhead : ∀ s size, ok s → (view s).mode ≠ .writing → ∃ r s', I.readAhead s size = some (r, s') ∧ ok s' ∧
    view s' = { view s with ahead := (view s).ahead + (r.getD []).length, mode := .reading } ∧
    ∀ l, r = some l → l <+: (view s).content.drop ((view s).pos + (view s).ahead) ∧ l.length ≤ size ∧
      (l = [] → size = 0 ∨ (view s).content.length ≤ (view s).pos + (view s).ahead)
  advance : ∀ s n, ok s → (view s).mode ≠ .writing → n ≤ (view s).ahead → ∃ s', I.advance s n = some s' ∧ ok s' ∧
    view s' = { view s with pos := (view s).pos + n, ahead := (view s).ahead - n }
  advanceAll : ∀ s, ok s → (view s).mode ≠ .writing → ∃ s', I.advanceAll s = some s' ∧ ok s' ∧
    view s' = { view s with pos := (view s).pos + (view s).ahead, ahead := 0 }
  discard : ∀ s, ok s → (view s).mode ≠ .writing → ∃ b s', I.discard s = some (b, s') ∧ ok s' ∧
    view s' = if b then { view s with ahead := 0, mode := .neutral } else view s
  tellRead : ∀ s, ok s → (view s).mode ≠ .writing → ∃ r s', I.tellRead s = some (r, s') ∧ ok s' ∧ view s' = view s ∧
    ∀ pos, r = some pos → pos = (view s).pos
  seek : ∀ s pos, ok s → (view s).mode ≠ .writing → ∃ b s', I.seek s pos = some (b, s') ∧ ok s' ∧
    view s' = if b then { view s with pos := pos, ahead := 0, mode := .neutral } else view s

/-! ## Text files -/

/-- An ideal file: text and position. -/
structure Ideal (α : Type) where
  content : List α
  pos : ℕ

/-- Operations on a text file. -/
inductive Op (α : Type) where
  | read (size : ℕ)
  | readSome (size : ℕ)
  | write (data : List α)
  | flush
  | tell
  | seek (pos : ℕ)

/-- Outcomes of operations on a text file. The number of characters written is known also on failure. -/
inductive Outcome (α : Type) where
  | read (success : Bool) (l : List α)
  | readSome (r : Option (List α))
  | write (success : Bool) (n : ℕ)
  | flush (success : Bool)
  | tell (r : Option ℕ)
  | seek (success : Bool)

/-- The outcomes that are allowed, and the effects of operations on the ideal file. -/
def Allowed [Inhabited α] (f : Ideal α) : Op α → Outcome α → Ideal α → Prop
  | .read size, .read success l, f' => f' = ⟨f.content, f.pos + l.length⟩ ∧ l <+: f.content.drop f.pos ∧ l.length ≤ size ∧
      (success = true → l = (f.content.drop f.pos).take size)
  | .readSome size, .readSome (some l), f' => f' = ⟨f.content, f.pos + l.length⟩ ∧ l <+: f.content.drop f.pos ∧ l.length ≤ size ∧
      (l = [] → size = 0 ∨ f.content.length ≤ f.pos)
  | .readSome _, .readSome none, f' => f' = f
  | .write data, .write success n, f' => f' = ⟨overwrite f.content f.pos (data.take n), f.pos + n⟩ ∧ (success = true → n = data.length) ∧
      (success = false → n < data.length ∨ data = [])
  | .flush, .flush _, f' => f' = f
  | .tell, .tell r, f' => f' = f ∧ ∀ pos, r = some pos → pos = f.pos
  | .seek pos, .seek success, f' => f' = if success then ⟨f.content, pos⟩ else f
  | _, _, _ => False

/-- Perform an operation on a text file. -/
def Text.run (I : Impl α σ) (s : Text σ) : Op α → Option (Outcome α × Text σ)
  | .read size => (s.tryRead I size).map (fun r => (.read r.1 r.2.1, r.2.2))
  | .readSome size => (s.tryReadSome I size).map (fun r => (.readSome r.1, r.2))
  | .write data => (s.tryWrite I 0 data).map (fun r => (.write r.1 r.2.1, r.2.2))
  | .flush => (s.tryFlush I.toWriteOps).map (fun r => (.flush r.1, r.2))
  | .tell => (s.tryTell I).map (fun r => (.tell r.1, r.2))
  | .seek pos => (s.trySeek I pos).map (fun r => (.seek r.1, r.2))

/-- Perform operations on a text file. -/
def Text.runAll (I : Impl α σ) : Text σ → List (Op α) → Option (List (Outcome α) × Text σ)
  | s, [] => some ([], s)
  | s, op :: ops => do
    let (o, s) ← s.run I op
    let (os, s) ← Text.runAll I s ops
    some (o :: os, s)

/-- A sequence of allowed outcomes. -/
def AllowedAll [Inhabited α] : Ideal α → List (Op α) → List (Outcome α) → Ideal α → Prop
  | f, [], [], f' => f' = f
  | f, op :: ops, o :: os, f' => ∃ g, Allowed f op o g ∧ AllowedAll g ops os f'
  | _, _, _, _ => False

/-- The invariant of a text file. -/
structure Text.Ok (view : σ → View α) (ok : σ → Prop) (s : Text σ) : Prop where
  impl : ok s.impl
  excl : ¬ (s.reading = true ∧ s.writing = true)
  reading : (view s.impl).mode = .reading → s.reading = true
  writing : (view s.impl).mode = .writing ↔ s.writing = true

/-- The ideal file that corresponds to a text file. -/
def Text.ideal (view : σ → View α) (s : Text σ) : Ideal α := ⟨(view s.impl).content, (view s.impl).pos + (view s.impl).ahead⟩

end Verif.TextFile
