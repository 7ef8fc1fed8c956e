import Verif.TextCodec.Model
import Verif.Newline.Spec
/-!
What is required of a character codec (char_codec_concept.hpp:107-310), and what it means to process some data in full.
-/
namespace Verif.TextCodec.Spec
open Verif.Newline.Spec

/-- What comes next for a character codec: there is nothing more to be done, the data is invalid, or the codec advances, which means that it consumes
`n` elements, produces `out`, and changes the shift state. -/
inductive Next (σ β : Type)
  | stop
  | invalid
  | advance (out : List β) (n : Nat) (state : σ)

/-- A character encoding: what comes next, given a shift state and remaining data. -/
abbrev Coding (σ α β : Type) := σ → List α → Next σ β

variable {σ α β : Type}

/-- Processing of data in full, without consideration of buffers. The arguments are the shift state, the remaining data, and the output, before
and after, and whether the data is valid. -/
inductive Full (next : Coding σ α β) : σ → List α → List β → σ → List α → List β → Bool → Prop
  | stop {s i o} : next s i = .stop → Full next s i o s i o true
  | invalid {s i o} : next s i = .invalid → Full next s i o s i o false
  | advance {s i o out n s1 s' i' o' ok} : next s i = .advance out n s1 → n ≤ i.length → Full next s1 (i.drop n) (o ++ out) s' i' o' ok →
      Full next s i o s' i' o' ok

/-- What an operation of a character codec may do when there is room for `avail` elements. It stops due to lack of space if there is not enough space in order
to advance, and it may also do so when there is no space left and it is not complete. -/
inductive Run (next : Coding σ α β) (avail : Nat) : σ → List α → List β → σ → List α → List β → Status → Prop
  | stop {s i o} : next s i = .stop → Run next avail s i o s i o .complete
  | invalid {s i o} : next s i = .invalid → Run next avail s i o s i o .error
  | space {s i o out n s1} : next s i = .advance out n s1 → avail < o.length + out.length → Run next avail s i o s i o .space
  | full {s i o} : next s i ≠ .stop → o.length = avail → Run next avail s i o s i o .space
  | advance {s i o out n s1 s' i' o' st} : next s i = .advance out n s1 → o.length + out.length ≤ avail →
      Run next avail s1 (i.drop n) (o ++ out) s' i' o' st → Run next avail s i o s' i' o' st

/-- The operation is one for the specified encoding. -/
def Conforms (op : Op σ α β) (next : Coding σ α β) : Prop :=
  ∀ (s : σ) (data : List α) (avail : Nat), (op s data avail).consumed ≤ data.length ∧
    Run next avail s data [] (op s data avail).state (data.drop (op s data avail).consumed) (op s data avail).out (op s data avail).status

/-- `unshift()` of a character codec: `seq` is the sequence that returns to the initial shift state. It may be produced in several steps, and all of what
remains is produced when there is room for it. -/
def ConformsUnshift (op : σ → Nat → UnshiftResult σ β) (seq : σ → List β) : Prop :=
  ∀ (s : σ) (avail : Nat), (op s avail).out.length ≤ avail ∧ (op s avail).out ++ seq (op s avail).state = seq s ∧
    ((op s avail).complete = true → seq (op s avail).state = []) ∧ ((op s avail).complete = false → avail < (seq s).length)

/-- Decoding does not depend on what follows: when more data follows, valid sequences remain so, and so do invalid sequences. The first argument of `next`
says whether there is no more data. -/
structure Stable (next : Bool → Coding σ α β) : Prop where
  advance : ∀ (e : Bool) (s : σ) (i j : List α) (out : List β) (n : Nat) (s1 : σ), next false s i = .advance out n s1 →
    n ≤ i.length ∧ next e s (i ++ j) = .advance out n s1
  invalid : ∀ (e : Bool) (s : σ) (i j : List α), next false s i = .invalid → next e s (i ++ j) = .invalid

/-- The encoding consumes something whenever it advances. -/
def Progress (next : Coding σ α β) : Prop :=
  ∀ (s : σ) (i : List α) (out : List β) (n : Nat) (s1 : σ), next s i = .advance out n s1 → 0 < n ∧ n ≤ i.length

/-- An operation for the specified encoding, which shows that there is one: it advances for as long as there is space. -/
def greedy (next : Coding σ α β) (avail : Nat) : (fuel : Nat) → σ → List α → List β → (consumed : Nat) → Result σ β
  | 0, s, _, o, c => ⟨s, c, o, .complete⟩
  | fuel + 1, s, i, o, c =>
    match next s i with
    | .stop => ⟨s, c, o, .complete⟩
    | .invalid => ⟨s, c, o, .error⟩
    | .advance out n s1 => if o.length + out.length ≤ avail then greedy next avail fuel s1 (i.drop n) (o ++ out) (c + n) else ⟨s, c, o, .space⟩

/-- The part of data in Windows text form that can be translated: a final CR must wait for what follows, if anything follows. -/
def body (endOfData : Bool) (data : List Char) : List Char :=
  if endOfData = false ∧ data.getLast? = some '\r' then data.dropLast else data

/-- The part that must wait. -/
def held (endOfData : Bool) (data : List Char) : List Char :=
  if endOfData = false ∧ data.getLast? = some '\r' then ['\r'] else []

/-- Decoding of data that arrives in pieces with the specified decoder (`decode`), which is told whether there is no more data. What is not consumed is put
before the next piece. -/
def session {δ : Type} (decode : Bool → List Char → δ → Option (Bool × List Char × δ)) : (pieces : List (List Char)) → (rest : List Char) → δ →
    Option (Bool × δ)
  | [], rest, d =>
    match decode true rest d with
    | none => none
    | some (ok, _, d2) => some (ok, d2)
  | piece :: pieces, rest, d =>
    match decode false (rest ++ piece) d with
    | none => none
    | some (false, _, d2) => some (false, d2)
    | some (true, rest2, d2) => session decode pieces rest2 d2

end Verif.TextCodec.Spec
