import Verif.FlatMap.Model
import Verif.Streams.Model

/-!
# Model of the registry of image file formats, and of file format detection

Model of `/repo/src/archon/image/file_format_registry.hpp` and `.cpp`, `/repo/src/archon/image/load.cpp`, and of the selection of file format in
`/repo/src/archon/image/save.cpp`, on top of the models of flat maps in `Verif.FlatMap`, and of rewindable sources in `Verif.Streams`. `F` is
the type of references to file format objects, and `K` is the type of strings. The limit on the number of file formats in the registry (the
maximum value of type `int`) is not modelled. Exceptions thrown by file formats are not modelled. The default registry is a particular registry.
The result of an operation is `none` in case of undefined behavior, failed assertions, and when bounds on numbers of iterations are reached.
-/

namespace Verif.ImageFormat

open Verif.Streams (Reader Rewindable rewindable)

variable {F K α σ β : Type}

/-! ## Registry -/

/-- What a file format says about itself (`/repo/src/archon/image/file_format.hpp:72-94`). -/
structure Info (F K : Type) where
  ident : F → K
  exts : F → List K
  mimes : F → List K

/-- `FileFormatRegistry` (`/repo/src/archon/image/file_format_registry.hpp:50-135`). -/
structure Registry (F K : Type) where
  formats : List F := []
  map : List (K × ℕ) := []
  byExt : List (K × ℕ) := []
  byMime : List (K × ℕ) := []

/-- The loops in `FileFormatRegistry::register_file_format()` (`/repo/src/archon/image/file_format_registry.cpp:156-159`). -/
def addAll (lt : K → K → Bool) (index : ℕ) : List K → List (K × ℕ) → Option (List (K × ℕ))
  | [], es => some es
  | k :: ks, es => do
    let (es, _) ← FlatMap.insertMulti lt es k index
    addAll lt index ks es

/-- Whether `FileFormatRegistry::register_file_format()` believes that an entry was inserted into the map from identifiers to file formats
(`/repo/src/archon/image/file_format_registry.cpp:150-151`). It looks at the returned iterator, which is a pointer, and that pointer is never
null. The second argument says whether an entry was in fact inserted. -/
def believedInserted (_position : ℕ) (_inserted : Bool) : Bool := true

/-- `FileFormatRegistry::register_file_format()` (`/repo/src/archon/image/file_format_registry.cpp:136-160`). The inner `none` is
`std::invalid_argument`. -/
def Registry.register (lt : K → K → Bool) (I : Info F K) (r : Registry F K) (f : F) : Option (Option (Registry F K)) := do
  let index := r.formats.length
  let (map, pos, inserted) ← FlatMap.insert lt r.map (I.ident f) index
  if believedInserted pos inserted then do
    let byExt ← addAll lt index (I.exts f) r.byExt
    let byMime ← addAll lt index (I.mimes f) r.byMime
    some (some { formats := r.formats ++ [f], map, byExt, byMime })
  else some none

/-- `FileFormatRegistry::lookup()` (`/repo/src/archon/image/file_format_registry.cpp:75-83`). The inner `none` is null. -/
def Registry.lookup (lt : K → K → Bool) (r : Registry F K) (ident : K) : Option (Option F) := do
  let i ← FlatMap.find lt r.map ident
  if i ≠ r.map.length then do
    let e ← r.map[i]?
    let f ← r.formats[e.2]?
    some (some f)
  else some none

/-- `FileFormatRegistry::lookup_by_mime_type()` with one result (`/repo/src/archon/image/file_format_registry.cpp:86-96`), and
`FileFormatRegistry::lookup_by_extension()` with one result (`/repo/src/archon/image/file_format_registry.cpp:111-121`). The inner `none` is
null. -/
def Registry.first (lt : K → K → Bool) (r : Registry F K) (es : List (K × ℕ)) (key : K) : Option (Option F) := do
  let (b, e) ← FlatMap.equalRange lt es key
  if b ≠ e then do
    let x ← es[b]?
    let f ← r.formats[x.2]?
    some (some f)
  else some none

/-- The loops in `FileFormatRegistry::lookup_by_mime_type()` (`/repo/src/archon/image/file_format_registry.cpp:104-107`), and
`FileFormatRegistry::lookup_by_extension()` (`/repo/src/archon/image/file_format_registry.cpp:129-132`). -/
def Registry.collect (r : Registry F K) : List (K × ℕ) → Option (List F)
  | [] => some []
  | e :: es => do
    let f ← r.formats[e.2]?
    let fs ← r.collect es
    some (f :: fs)

/-- `FileFormatRegistry::lookup_by_mime_type()` with a tray (`/repo/src/archon/image/file_format_registry.cpp:99-108`), and
`FileFormatRegistry::lookup_by_extension()` with a tray (`/repo/src/archon/image/file_format_registry.cpp:124-133`). -/
def Registry.every (lt : K → K → Bool) (r : Registry F K) (es : List (K × ℕ)) (key : K) : Option (List F) := do
  let (b, e) ← FlatMap.equalRange lt es key
  r.collect ((es.take e).drop b)

/-- `FileFormatRegistry::lookup_by_mime_type()` with a tray (`/repo/src/archon/image/file_format_registry.cpp:99-108`). -/
def Registry.everyByMime (lt : K → K → Bool) (r : Registry F K) (mime : K) : Option (List F) := r.every lt r.byMime mime

/-- `FileFormatRegistry::lookup_by_extension()` with a tray (`/repo/src/archon/image/file_format_registry.cpp:124-133`). -/
def Registry.everyByExt (lt : K → K → Bool) (r : Registry F K) (ext : K) : Option (List F) := r.every lt r.byExt ext

/-- `FileFormatRegistry::lookup_by_mime_type()` (`/repo/src/archon/image/file_format_registry.cpp:86-96`). -/
def Registry.firstByMime (lt : K → K → Bool) (r : Registry F K) (mime : K) : Option (Option F) := r.first lt r.byMime mime

/-- `FileFormatRegistry::lookup_by_extension()` (`/repo/src/archon/image/file_format_registry.cpp:111-121`). -/
def Registry.firstByExt (lt : K → K → Bool) (r : Registry F K) (ext : K) : Option (Option F) := r.first lt r.byExt ext

/-! ## Loading -/

/-- What a file format does with a source: any program that reads from the source. `Source::try_read()` is a loop over
`Source::try_read_some()`, so only the latter is needed. -/
inductive Prog (α β : Type) where
  | done (b : β)
  | read (size : ℕ) (next : Option (List α) → Prog α β)

/-- Execution of a program on a source. -/
def Prog.run (R : Reader α σ) : Prog α β → σ → Option (β × σ)
  | .done b, s => some (b, s)
  | .read size next, s => (R s size).bind (fun r => (next r.1).run R r.2)

/-- What a file format can do (`/repo/src/archon/image/file_format.hpp:104-131`). `β` is the type of results of
`try_load()`. -/
structure Skills (F α β : Type) where
  recognize : F → Prog α Bool
  load : F → Prog α β

/-- `Source::try_read()` (`/repo/src/archon/core/source.cpp:35-51`) as a part of a program. The first number is a bound on the number of
iterations, and the list is what was read so far. What remains to be done gets to know whether reading succeeded, and what was read. -/
def Prog.readAll (next : Bool → List α → Prog α β) : ℕ → List α → ℕ → Prog α β
  | 0, sofar, _ => next false sofar
  | fuel + 1, sofar, size => .read size (fun r =>
    match r with
    | some l =>
      if l.length ≠ 0 ∧ l.length < size then readAll next fuel (sofar ++ l) (size - l.length)
      else next true (sofar ++ l)
    | none => next false sofar)

/-- Recognition of a file format by a signature at the beginning, such as `recognize()` for the PNG format
(`/repo/src/archon/image/file_format_png.cpp:151-162`). -/
def bySignature [DecidableEq α] (sig : List α) : Prog α Bool :=
  Prog.readAll (fun success l => .done (success && decide (l = sig))) (sig.length + 1) [] sig.length

/-- The loop over file formats in `try_load_a()` (`/repo/src/archon/image/load.cpp:96-105`, `112-121`, and `126-136`). `checked` is the set of
file formats that have already been checked. -/
def tryAll [DecidableEq F] (R : Reader α σ) (grow : ℕ → ℕ) (S : Skills F α β) (checked : List F) :
    List F → Rewindable α σ → Option (Option F × Rewindable α σ)
  | [], s => some (none, s)
  | f :: fs, s =>
    if f ∈ checked then tryAll R grow S checked fs s
    else do
      let (success, s) ← (S.recognize f).run (rewindable R grow) s
      let s ← s.rewind
      if success then some (some f, s) else tryAll R grow S checked fs s

/-- Look something up, unless the key is empty (`/repo/src/archon/image/load.cpp:92-95` and `108-111`, and
`/repo/src/archon/image/save.cpp:56-57` and `61-62`). -/
def unlessEmpty {γ : Type} (key : Option K) (otherwise : γ) (look : K → Option γ) : Option γ :=
  match key with
  | some key => look key
  | none => some otherwise

/-- Search for a file format in `try_load_a()` (`/repo/src/archon/image/load.cpp:88-137`). An empty MIME type, and an empty filename extension
are represented by `none`. The set of file formats that were checked (`FlatSet`) is represented by a list. -/
def detect [DecidableEq F] (lt : K → K → Bool) (R : Reader α σ) (grow : ℕ → ℕ) (S : Skills F α β) (r : Registry F K) (mime ext : Option K)
    (s : Rewindable α σ) : Option (Option F × Rewindable α σ) := do
  let checked : List F := []
  let tray ← unlessEmpty mime [] (r.everyByMime lt)
  let (found, s) ← tryAll R grow S checked tray s
  match found with
  | some f => some (some f, s)
  | none =>
    let checked := checked ++ tray
    let tray ← unlessEmpty ext [] (r.everyByExt lt)
    let (found, s) ← tryAll R grow S checked tray s
    match found with
    | some f => some (some f, s)
    | none =>
      let checked := checked ++ tray
      tryAll R grow S checked r.formats s

/-- Results of `try_load_a()`. -/
inductive Result (F β : Type) where
  | loaded (f : F) (b : β)
  | detectionFailed
  | unavailable

/-- `try_load_a()` (`/repo/src/archon/image/load.cpp:80-149`). An empty file format identifier is represented by `none`. The final state of
the source is left out. -/
def tryLoad [DecidableEq F] (lt : K → K → Bool) (R : Reader α σ) (grow : ℕ → ℕ) (S : Skills F α β) (r : Registry F K) (ident mime ext : Option K)
    (s : σ) : Option (Result F β) :=
  match ident with
  | none => do
    let (found, s) ← detect lt R grow S r mime ext { sub := s }
    match found with
    | none => some .detectionFailed
    | some f => do
      let s := s.release
      let (b, _) ← (S.load f).run (rewindable R grow) s
      some (.loaded f b)
  | some ident => do
    let found ← r.lookup lt ident
    match found with
    | some f => do
      let (b, _) ← (S.load f).run R s
      some (.loaded f b)
    | none => some .unavailable

/-! ## Saving -/

/-- Results of `detect_file_format()`. -/
inductive Choice (F : Type) where
  | format (f : F)
  | detectionFailed
  | unavailable
  deriving DecidableEq

/-- `detect_file_format()` (`/repo/src/archon/image/save.cpp:49-74`). Empty strings are represented by `none`. -/
def chooseForSaving (lt : K → K → Bool) (r : Registry F K) (ident mime ext : Option K) : Option (Choice F) :=
  match ident with
  | none => do
    let found ← unlessEmpty mime none (r.firstByMime lt)
    match found with
    | some f => some (.format f)
    | none => do
      let found ← unlessEmpty ext none (r.firstByExt lt)
      match found with
      | some f => some (.format f)
      | none => some .detectionFailed
  | some ident => do
    let found ← r.lookup lt ident
    match found with
    | some f => some (.format f)
    | none => some .unavailable

end Verif.ImageFormat
