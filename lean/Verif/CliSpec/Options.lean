import Verif.CliSpec.Registry
import Verif.CliSpec.Parser
/-!
Model of the declaration of options: `SpecParser::parse_option_forms()` and `SpecParser::parse_option_arg()` in
/repo/src/archon/cli/impl/spec_parser.hpp, `Spec::add_option()` in /repo/src/archon/cli/impl/spec.hpp, and the constructor of
`BasicProcessor` in /repo/src/archon/cli/processor.hpp.

The outcome `none` is a violated assertion, an index out of range, or that the limit on the depth of recursion was too low. Attributes are
32-bit integers. Of an option action, only `allow_arg()` and `require_arg()` matter here. The description of an option, and the name of the
argument, are left out.
-/
namespace Verif.CliSpec

/-- `get_option_forms()`: spec_parser.hpp:900-922. The result is whether it succeeded, and the contents of the buffer. -/
def getOptionForms (nodes : List Node) : Nat → Nat → List Form → Option (Bool × List Form)
  | 0, _, _ => none
  | fuel + 1, nodeIndex, buffer => do
    let node ← nodes[nodeIndex]?
    match node.type with
    | .shortOption => some (true, buffer ++ [⟨false, node.lexeme⟩])
    | .longOption => some (true, buffer ++ [⟨true, node.lexeme⟩])
    | .sequence => do
      let (good, buffer) ← getOptionForms nodes fuel node.left buffer
      if good then getOptionForms nodes fuel node.right buffer else some (false, buffer)
    | .keyword | .valueSlot | .optionality | .repetition | .juxtaposition | .alternatives => some (false, buffer)

/-- `get_option_arg_spec()`: spec_parser.hpp:926-951. The inner `none` is the result `false`, in which case the argument specification is not
used. -/
def getOptionArgSpec (nodes : List Node) : Nat → Nat → Bool → Option (Option ArgSpec)
  | 0, _, _ => none
  | fuel + 1, nodeIndex, optional => do
    let node ← nodes[nodeIndex]?
    match node.type with
    | .valueSlot => some (some ⟨true, !optional⟩)
    | .optionality => if !optional then getOptionArgSpec nodes fuel node.left true else some none
    | .keyword | .shortOption | .longOption | .repetition | .juxtaposition | .alternatives | .sequence => some none

/-- `parse_option_forms()` up to the registration of the forms: spec_parser.hpp:251-265. -/
def parseOptionForms (env : Env) (fuel : Nat) (forms : Str) : Option (PRes (List Form)) :=
  match resetParser env forms with
  | .error err => some (.error err)
  | .ok (false, _) => some (.ok [])
  | .ok (true, st) =>
    match parseAll env fuel st with
    | .error err => some (.error err)
    | .ok (result, st) => do
      let (good, buffer) ← getOptionForms st.nodes fuel result.nodeIndex []
      some (if good then .ok buffer else .error (.error .syntaxError))

/-- `parse_option_arg()`: spec_parser.hpp:269-283. -/
def parseOptionArg (env : Env) (fuel : Nat) (arg : Str) : Option (PRes ArgSpec) :=
  match resetParser env arg with
  | .error err => some (.error err)
  | .ok (false, _) => some (.ok ⟨false, false⟩)
  | .ok (true, st) =>
    match parseAll env fuel st with
    | .error err => some (.error err)
    | .ok (result, st) => do
      match ← getOptionArgSpec st.nodes fuel result.nodeIndex false with
      | some a => some (.ok a)
      | none => some (.error (.error .syntaxError))

/-- What is reported by `add_option()`: spec.hpp:307-328 and 354-355. -/
inductive OptError where
  | noForms | badAttr | argShortCircuit | argFurtherArgs | argNotAccepted | argNotOptional
  | formReuse (lexeme : Str) (ordinal : Nat)
deriving DecidableEq, Repr

/-- `Spec::add_option_forms()`: spec.hpp:253-259. The result includes the offset and the size of the range. -/
def Registry.addOptionForms (r : Registry) (forms : List Form) : Registry × Nat × Nat :=
  ({ r with forms := r.forms ++ forms }, r.forms.length, forms.length)

/-- `Spec::get_option_forms()`: spec.hpp:443-447. -/
def Registry.getOptionForms (r : Registry) (offset size : Nat) : Option (List Form) :=
  if offset + size ≤ r.forms.length then some ((r.forms.drop offset).take size) else none

/-- `find()` in `Spec::add_option()`: spec.hpp:334-349. -/
def Registry.findForm (r : Registry) (form : Form) : Option (Option Nat) :=
  if !form.isLong then do
    let c ← form.lexeme[1]?
    some (r.shortMap.lookup c)
  else if 2 ≤ form.lexeme.length then some (r.longMap.lookup (form.lexeme.drop 2))
  else none

/-- The first loop over the forms in `Spec::add_option()`: spec.hpp:331-356. -/
def Registry.findReuse (r : Registry) : List Form → Option (Option OptError)
  | [] => some none
  | form :: forms => do
    match ← r.findForm form with
    | none => r.findReuse forms
    | some i => do
      let proto ← r.protos[i]?
      let j ← proto.optionIndex
      some (some (.formReuse form.lexeme (1 + j)))

/-- The second loop over the forms in `Spec::add_option()`: spec.hpp:364-374. -/
def Registry.registerForms (r : Registry) (protoIndex : Nat) : List Form → Option Registry
  | [] => some r
  | form :: forms =>
    if !form.isLong then do
      let c ← form.lexeme[1]?
      { r with shortMap := (emplace r.shortMap c protoIndex).1 }.registerForms protoIndex forms
    else if 2 ≤ form.lexeme.length then
      { r with longMap := (emplace r.longMap (form.lexeme.drop 2) protoIndex).1 }.registerForms protoIndex forms
    else none

/-- The checks of attributes and argument in `Spec::add_option()`: spec.hpp:307-329. The attributes are 1 (short circuit), 2 (further
arguments are values), and 4 (unlisted): /repo/src/archon/cli/attributes.hpp:73-85. -/
def checkOption (formsSize : Nat) (arg : ArgSpec) (attr : BitVec 32) (allowArg requireArg : Bool) : Option OptError :=
  if formsSize = 0 then some .noForms
  else if attr &&& ~~~ (1 ||| 2 ||| 4) ≠ 0 then some .badAttr
  else if arg.allow then
    if attr &&& 1 ≠ 0 then some .argShortCircuit
    else if attr &&& 2 ≠ 0 then some .argFurtherArgs
    else if !allowArg then some .argNotAccepted
    else if !arg.require && requireArg then some .argNotOptional
    else none
  else none

/-- `Spec::add_option()`: spec.hpp:293-375. The assertion that there are no patterns is left out here. -/
def Registry.addOption (r : Registry) (formsOffset formsSize : Nat) (arg : ArgSpec) (attr : BitVec 32) (allowArg requireArg : Bool) :
    Option (Except OptError Registry) :=
  match checkOption formsSize arg attr allowArg requireArg with
  | some err => some (.error err)
  | none => do
    let forms ← r.getOptionForms formsOffset formsSize
    match ← r.findReuse forms with
    | some err => some (.error err)
    | none => do
      let r' ← Registry.registerForms { r with
        options := r.options ++ [⟨formsOffset, formsSize, arg, decide (attr &&& 1 ≠ 0), decide (attr &&& 2 ≠ 0)⟩]
        protos := r.protos ++ [⟨none, some r.options.length⟩] } r.protos.length forms
      some (.ok r')

/-- A declaration of an option, `BasicSpec::Option`: /repo/src/archon/cli/spec.hpp:505-511. -/
structure OptionDecl where
  forms : Str
  arg : Str
  attr : BitVec 32
  allowArg : Bool
  requireArg : Bool

/-- What goes wrong in a specification. The number is the index of the option or the pattern. -/
inductive DeclError where
  | forms (index : Nat) (err : ParseError)
  | arg (index : Nat) (err : ParseError)
  | option (index : Nat) (err : OptError)
deriving DecidableEq, Repr

/-- One iteration of the loop over options in the constructor of `BasicProcessor`: processor.hpp:606-628. -/
def declareOption (env : Env) (fuel : Nat) (r : Registry) (index : Nat) (d : OptionDecl) : Option (Except DeclError Registry) := do
  if index = r.options.length then
    match ← parseOptionForms env fuel d.forms with
    | .error .unfinished => none
    | .error (.error err) => some (.error (.forms index err))
    | .ok forms => do
      let (r, offset, size) := r.addOptionForms forms
      match ← parseOptionArg env fuel d.arg with
      | .error .unfinished => none
      | .error (.error err) => some (.error (.arg index err))
      | .ok arg => do
        match ← r.addOption offset size arg d.attr d.allowArg d.requireArg with
        | .error err => some (.error (.option index err))
        | .ok r => some (.ok r)
  else none

/-- The loop over options in the constructor of `BasicProcessor`: processor.hpp:603-629. -/
def declareOptions (env : Env) (fuel : Nat) : Registry → Nat → List OptionDecl → Option (Except DeclError Registry)
  | r, _, [] => some (.ok r)
  | r, index, d :: ds => do
    match ← declareOption env fuel r index d with
    | .error err => some (.error err)
    | .ok r => declareOptions env fuel r (index + 1) ds

/-- A `Spec` object as it is constructed: spec.hpp:163-167. -/
def emptyRegistry : Registry := ⟨[], [], [], [], [], [], []⟩

end Verif.CliSpec
