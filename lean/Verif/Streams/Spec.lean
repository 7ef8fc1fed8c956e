import Verif.Streams.Model

/-!
# What sources and sinks are supposed to do
-/

namespace Verif.Streams

variable {α σ : Type}

/-! ## Sources -/

/-- What a source does when `rest` is what remains to be read (`/repo/src/archon/core/source.hpp:57-106`). -/
def Conforms (R : Reader α σ) (rest : σ → List α) (ok : σ → Prop) : Prop :=
  ∀ s size, ok s → ∃ r s', R s size = some (r, s') ∧ ok s' ∧ rest s = r.getD [] ++ rest s' ∧
    ∀ l, r = some l → l.length ≤ size ∧ (l = [] → size = 0 ∨ rest s = [])

/-- A request to read: either as much as possible (`try_read()`), or at least something (`try_read_some()`). -/
structure Req where
  all : Bool
  size : ℕ

/-- The outcome of a request to read. -/
structure Got (α : Type) where
  success : Bool
  data : List α

/-- The outcomes that are allowed when `rest` remains to be read before, and `rest'` after. -/
structure Allowed (rest : List α) (q : Req) (o : Got α) (rest' : List α) : Prop where
  data : rest = o.data ++ rest'
  size : o.data.length ≤ q.size
  all : o.success = true → q.all = true → o.data = rest.take q.size
  some : o.success = true → o.data = [] → q.size = 0 ∨ rest = []
  none : o.success = false → q.all = false → o.data = []

/-- Make a request. -/
def ask (R : Reader α σ) (s : σ) (q : Req) : Option (Got α × σ) :=
  if q.all then (tryRead R s q.size).map (fun r => (⟨r.1, r.2.1⟩, r.2.2))
  else (R s q.size).map (fun r => (⟨r.1.isSome, r.1.getD []⟩, r.2))

/-- Make requests. -/
def askAll (R : Reader α σ) : σ → List Req → Option (List (Got α) × σ)
  | s, [] => some ([], s)
  | s, q :: qs => do
    let (o, s) ← ask R s q
    let (os, s) ← askAll R s qs
    some (o :: os, s)

/-- A sequence of allowed outcomes. -/
def AllowedAll : List α → List Req → List (Got α) → List α → Prop
  | rest, [], [], rest' => rest' = rest
  | rest, q :: qs, o :: os, rest' => ∃ m, Allowed rest q o m ∧ AllowedAll m qs os rest'
  | _, _, _, _ => False

/-! ## Rewindable sources -/

/-- Operations on a rewindable source. -/
inductive Op where
  | read (q : Req)
  | rewind
  | release

/-- An ideal rewindable source: everything there is to read, the position, and whether the source was released. -/
structure Tape (α : Type) where
  all : List α
  pos : ℕ
  released : Bool

/-- The outcomes that are allowed. Rewinding is allowed only when the source is not released. -/
def AllowedOp (t : Tape α) : Op → Option (Got α) → Tape α → Prop
  | .read q, some o, t' => t' = { t with pos := t.pos + o.data.length } ∧ Allowed (t.all.drop t.pos) q o (t.all.drop t'.pos)
  | .rewind, none, t' => t.released = false ∧ t' = { t with pos := 0 }
  | .release, none, t' => t' = { t with released := true }
  | _, _, _ => False

/-- A sequence of allowed outcomes. -/
def AllowedOps : Tape α → List Op → List (Option (Got α)) → Tape α → Prop
  | t, [], [], t' => t' = t
  | t, op :: ops, o :: os, t' => ∃ m, AllowedOp t op o m ∧ AllowedOps m ops os t'
  | _, _, _, _ => False

/-- Perform an operation on a rewindable source. -/
def Rewindable.run (R : Reader α σ) (grow : ℕ → ℕ) (s : Rewindable α σ) : Op → Option (Option (Got α) × Rewindable α σ)
  | .read q => (ask (rewindable R grow) s q).map (fun r => (some r.1, r.2))
  | .rewind => s.rewind.map (fun s => (none, s))
  | .release => some (none, s.release)

/-- Perform operations on a rewindable source. -/
def Rewindable.runAll (R : Reader α σ) (grow : ℕ → ℕ) : Rewindable α σ → List Op → Option (List (Option (Got α)) × Rewindable α σ)
  | s, [] => some ([], s)
  | s, op :: ops => do
    let (o, s) ← s.run R grow op
    let (os, s) ← Rewindable.runAll R grow s ops
    some (o :: os, s)

/-- No rewinding after release. -/
def Proper : Bool → List Op → Prop
  | _, [] => True
  | released, .rewind :: ops => released = false ∧ Proper released ops
  | _, .release :: ops => Proper true ops
  | released, .read _ :: ops => Proper released ops

/-! ## Sinks -/

/-- Operations on a buffered sink. -/
inductive SinkOp (α : Type) where
  | write (data : List α)
  | flush

/-- Outcomes of operations on a buffered sink. -/
inductive SinkOut where
  | write (success : Bool) (n : ℕ)
  | flush (success : Bool)

/-- Perform an operation on a buffered sink. -/
def BufSink.run [Inhabited α] (s : BufSink α) : SinkOp α → Option (SinkOut × BufSink α)
  | .write data => (s.tryWrite data).map (fun r => (.write r.1 r.2.1, r.2.2))
  | .flush => s.tryFlush.map (fun r => (.flush r.1, r.2))

/-- Perform operations on a buffered sink. -/
def BufSink.runAll [Inhabited α] : BufSink α → List (SinkOp α) → Option (List SinkOut × BufSink α)
  | s, [] => some ([], s)
  | s, op :: ops => do
    let (o, s) ← s.run op
    let (os, s) ← BufSink.runAll s ops
    some (o :: os, s)

/-- The outcomes that are allowed, and what has been accepted in total after each of the operations. -/
def Accepts : List α → List (SinkOp α) → List SinkOut → List α → Prop
  | acc, [], [], acc' => acc' = acc
  | acc, .write data :: ops, .write success n :: os, acc' =>
    (if success then n = data.length else n < data.length) ∧ Accepts (acc ++ data.take n) ops os acc'
  | acc, .flush :: ops, .flush _ :: os, acc' => Accepts acc ops os acc'
  | _, _, _, _ => False

end Verif.Streams
