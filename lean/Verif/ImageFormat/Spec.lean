import Verif.ImageFormat.Model
import Verif.FlatMap.Spec

/-!
# What the registry, and file format detection, are supposed to do
-/

namespace Verif.ImageFormat

variable {F K α σ β : Type}

/-- Register file formats one after the other. -/
def registerAll (lt : K → K → Bool) (I : Info F K) : List F → Registry F K → Option (Option (Registry F K))
  | [], r => some (some r)
  | f :: fs, r => do
    match ← r.register lt I f with
    | some r => registerAll lt I fs r
    | none => some none

/-- The formats that list a particular key, in order. A format that lists the key several times, occurs several times. -/
def having [DecidableEq K] (keys : F → List K) (fs : List F) (key : K) : List F :=
  fs.flatMap (fun f => ((keys f).filter (fun k => decide (k = key))).map (fun _ => f))

/-- A possible outcome of a program when `input` is what there is to read. There are many possible outcomes because the pieces that are
delivered can have any size, and, if `mayFail` is true, because reading can fail. -/
inductive Possible (mayFail : Bool) : Prog α β → List α → β → Prop where
  | done (b : β) (input : List α) : Possible mayFail (.done b) input b
  | piece {size : ℕ} {next : Option (List α) → Prog α β} {b : β} (l rest : List α) (hs : l.length ≤ size)
      (hl : l = [] → size = 0 ∨ rest = []) (h : Possible mayFail (next (some l)) rest b) : Possible mayFail (.read size next) (l ++ rest) b
  | failure {size : ℕ} {next : Option (List α) → Prog α β} {b : β} (input : List α) (hf : mayFail = true)
      (h : Possible mayFail (next none) input b) : Possible mayFail (.read size next) input b

/-- Reading from the source never fails. -/
def NeverFails (R : Streams.Reader α σ) (ok : σ → Prop) : Prop := ∀ s size r s', ok s → R s size = some (r, s') → r ≠ none

/-- The file formats to be tried, in order: those that go with the MIME type, then those that go with the filename extension, and then
everything else. -/
def candidates [DecidableEq F] (byMime byExt all : List F) : List F :=
  byMime ++ byExt.filter (fun f => decide (f ∉ byMime)) ++ all.filter (fun f => decide (f ∉ byMime ∧ f ∉ byExt))

/-- The correct results of loading with file format detection. Everybody gets to see all of the input. -/
def Correct (mayFail : Bool) (S : Skills F α β) (cands : List F) (input : List α) : Result F β → Prop
  | .loaded f b => ∃ pre post, cands = pre ++ f :: post ∧ (∀ g ∈ pre, Possible mayFail (S.recognize g) input false) ∧
      Possible mayFail (S.recognize f) input true ∧ Possible mayFail (S.load f) input b
  | .detectionFailed => ∀ g ∈ cands, Possible mayFail (S.recognize g) input false
  | .unavailable => False

end Verif.ImageFormat
