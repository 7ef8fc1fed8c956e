import Verif.CliSpec.Format
/-!
Model of the registration of keywords and options in /repo/src/archon/cli/impl/spec.hpp.

The outcome `none` is an index out of range. Failed memory allocation and overflow of `std::size_t` are not modelled.
-/
namespace Verif.CliSpec

open Verif.CliPattern

/-- `Spec::OptionForm`: spec.hpp:112-115. -/
structure Form where
  isLong : Bool
  lexeme : Str
deriving DecidableEq, Repr

/-- `Spec::ArgSpec`: spec.hpp:118-122. -/
structure ArgSpec where
  allow : Bool
  require : Bool
deriving DecidableEq, Repr

/-- `Spec::ProtoOption`: spec.hpp:131-134. Where the code has `std::size_t(-1)`, the model has `none`. -/
structure Proto where
  patternIndex : Option Nat
  optionIndex : Option Nat
deriving DecidableEq, Repr

/-- `Spec::Option`: spec.hpp:146-152. The forms are an index range. Of the attributes, only two matter here. The description and the
function are left out. -/
structure OptionInfo where
  formsOffset : Nat
  formsSize : Nat
  arg : ArgSpec
  shortCircuit : Bool
  furtherArgs : Bool
deriving DecidableEq, Repr

/-- `Spec`: spec.hpp:92-108. Maps are lists of pairs with distinct keys. -/
structure Registry where
  keywords : List Str
  protos : List Proto
  forms : List Form
  options : List OptionInfo
  keywordMap : List (Str × Nat)
  shortMap : List (Nat × Nat)
  longMap : List (Str × Nat)
deriving DecidableEq, Repr

/-- `std::map::emplace()`: The new map, the value for the key, and whether the key was inserted. -/
def emplace {κ : Type} [BEq κ] (m : List (κ × Nat)) (k : κ) (v : Nat) : List (κ × Nat) × Nat × Bool :=
  match m.lookup k with
  | some v' => (m, v', false)
  | none => ((k, v) :: m, v, true)

/-- `Spec::ensure_keyword()`: spec.hpp:183-199. -/
def Registry.ensureKeyword (r : Registry) (lexeme : Str) : Registry × Nat :=
  match emplace r.keywordMap lexeme r.keywords.length with
  | (m, i, true) => ({ r with keywordMap := m, keywords := r.keywords ++ [lexeme] }, i)
  | (m, i, false) => ({ r with keywordMap := m }, i)

/-- The lookup and registration in `Spec::ensure_pattern_option()`: spec.hpp:205-231. -/
def Registry.ensureProto (r : Registry) (form : Form) : Option (Registry × Nat) :=
  if !form.isLong then do
    let c ← form.lexeme[1]?
    match emplace r.shortMap c r.protos.length with
    | (m, i, true) => some ({ r with shortMap := m, protos := r.protos ++ [⟨none, none⟩] }, i)
    | (m, i, false) => some ({ r with shortMap := m }, i)
  else if 2 ≤ form.lexeme.length then
    match emplace r.longMap (form.lexeme.drop 2) r.protos.length with
    | (m, i, true) => some ({ r with longMap := m, protos := r.protos ++ [⟨none, none⟩] }, i)
    | (m, i, false) => some ({ r with longMap := m }, i)
  else none

/-- The check of the option in `Spec::ensure_pattern_option()`: spec.hpp:239-246. -/
def Registry.refError (r : Registry) (proto : Proto) : Option (Option RecError) :=
  match proto.optionIndex with
  | none => some none
  | some j => do
    let option ← r.options[j]?
    if option.arg.allow then some (some .refTakesArg)
    else if option.shortCircuit then some (some .refShortCircuit)
    else if option.furtherArgs then some (some .refFurtherArgs)
    else some none

/-- `Spec::ensure_pattern_option()`: spec.hpp:202-250. -/
def Registry.ensurePatternOption (r : Registry) (form : Form) (patternIndex : Nat) : Option (Except RecError (Registry × Nat)) := do
  let (r, i) ← r.ensureProto form
  let proto ← r.protos[i]?
  match ← r.refError proto with
  | some err => some (.error err)
  | none =>
    let proto := if proto.patternIndex = none then { proto with patternIndex := some patternIndex } else proto
    some (.ok ({ r with protos := r.protos.set i proto }, i))

/-- `Spec::find_keyword()`: spec.hpp:389-397. -/
def Registry.findKeyword (r : Registry) (name : Str) : Option Nat := r.keywordMap.lookup name

/-- `Spec::find_proto_option()` for short options: spec.hpp:400-408. -/
def Registry.findShort (r : Registry) (name : Nat) : Option Nat := r.shortMap.lookup name

/-- `Spec::find_proto_option()` for long options: spec.hpp:411-419. -/
def Registry.findLong (r : Registry) (name : Str) : Option Nat := r.longMap.lookup name

end Verif.CliSpec
