import Verif.CliPattern.Descs
/-!
Model of the check of the parameters of a pattern function in /repo/src/archon/cli/impl/pattern_func_checker.hpp, and of the parsing of
arguments in `PatternArgsParser` in /repo/src/archon/cli/impl/pattern_args_parser.hpp.

The outcome `none` is a violated assertion or an index out of range. Types are C++ types of function parameters. In the C++ code, the
functions are templates over these types, so here, they are functions that are generated from types.
-/
namespace Verif.CliPattern

/-- Types of parameters of pattern functions. -/
inductive Ty where
  | bool
  /-- `std::size_t` -/
  | size
  /-- A type that has no special meaning, such as `int` -/
  | other
  | optional (τ : Ty)
  | vector (τ : Ty)
  /-- `ts` is a list of types. -/
  | variant (ts : Ty)
  /-- `std::tuple`, `std::pair`, `std::array`, or `std::monostate`. `ts` is a list of types. -/
  | tuple (ts : Ty)
  /-- The empty list of types. -/
  | nil
  | cons (τ ts : Ty)
deriving DecidableEq, Repr

/-- A function that checks a type against an element, and a function that checks it against a sequence of elements. -/
structure Checker where
  param : Elem → Option Bool
  tuple : Seq → Option Bool

/-- The search for the parameters among the elements of a sequence: pattern_func_checker.hpp:304-313. The first argument is the number of
remaining elements. -/
def paramElems (t : Tables) : Nat → Nat → Option (List Elem)
  | 0, _ => some []
  | n + 1, i => do
    let elem ← t.elems[i]?
    let rest ← paramElems t n (i + 1)
    some (if elem.isParam then elem :: rest else rest)

/-- `for_each_type_alt_a()` with `ParamFunc` in `check_tuple()`: pattern_func_checker.hpp:315. -/
def checkEach : List Checker → List Elem → Option Bool
  | [], _ => some true
  | c :: cs, elems => do
    let elem ← elems.head?
    if ← c.param elem then checkEach cs elems.tail else some false

/-- `PatternFuncChecker::check_tuple()`: pattern_func_checker.hpp:296-318. -/
def checkTuple (t : Tables) (cs : List Checker) (seq : Seq) : Option Bool := do
  if seq.numParams = cs.length then do
    let elems ← paramElems t seq.numElems seq.elemsOffset
    if elems.length = cs.length then checkEach cs elems else none
  else some false

/-- The search for the first parameter among the elements of a sequence: pattern_func_checker.hpp:114-120 and 350-361. The first argument is
the number of remaining elements. -/
def firstParam (t : Tables) : Nat → Nat → Option (Option Elem)
  | 0, _ => some none
  | n + 1, i => do
    let elem ← t.elems[i]?
    if elem.isParam then some (some elem) else firstParam t n (i + 1)

/-- `PatternFuncParamChecker::check()` for types without a specialization: pattern_func_checker.hpp:98-128. -/
def checkScalar (t : Tables) (τ : Ty) (elem : Elem) : Option Bool := do
  if elem.type = .sym then some true
  else if !elem.isParam then none
  else match τ with
    | .bool => some (decide (elem.type = .opt) && elem.collapsible)
    | .size =>
      if elem.type = .rep ∨ elem.type = .alt then some elem.collapsible
      else if elem.type = .opt then do
        let seq ← t.seqs[elem.index]?
        if seq.numParams = 1 then do
          match ← firstParam t seq.numElems seq.elemsOffset with
          | some elem2 => some (decide (elem2.type = .rep) && elem2.collapsible)
          | none => some false
        else some false
      else some false
    | _ => some false

/-- `PatternFuncChecker::check_opt_param()`: pattern_func_checker.hpp:321-331. -/
def checkOptParam (t : Tables) (c : Checker) (elem : Elem) : Option Bool := do
  if elem.type = .opt then do
    let seq ← t.seqs[elem.index]?
    c.tuple seq
  else some false

/-- `PatternFuncChecker::check_rep_param()`: pattern_func_checker.hpp:334-365. -/
def checkRepParam (t : Tables) (c : Checker) (elem : Elem) : Option Bool := do
  if elem.type = .rep then do
    let seq ← t.seqs[elem.index]?
    c.tuple seq
  else if elem.type = .opt then do
    let seq ← t.seqs[elem.index]?
    if seq.numParams = 1 then do
      match ← firstParam t seq.numElems seq.elemsOffset with
      | some elem2 =>
        if elem2.type = .rep then do
          let seq2 ← t.seqs[elem2.index]?
          c.tuple seq2
        else some false
      | none => some false
    else some false
  else some false

/-- `for_each_type_alt_a()` with `BranchFunc` in `check_alt_param()`: pattern_func_checker.hpp:265-276 and 377. -/
def checkBranches (t : Tables) : List Checker → Nat → Option Bool
  | [], _ => some true
  | c :: cs, i => do
    let seq ← t.seqs[i]?
    if ← c.tuple seq then checkBranches t cs (i + 1) else some false

/-- `PatternFuncChecker::check_alt_param()`: pattern_func_checker.hpp:368-382. -/
def checkAltParam (t : Tables) (cs : List Checker) (elem : Elem) : Option Bool := do
  if elem.type = .alt then do
    let alt ← t.alts[elem.index]?
    if alt.numSeqs = cs.length then checkBranches t cs alt.seqsOffset else some false
  else some false

/-- A type that is not a tuple is checked against a sequence as a tuple of one: pattern_func_checker.hpp:185-188. -/
def single (t : Tables) (param : Elem → Option Bool) : Checker :=
  ⟨param, checkTuple t [⟨param, fun _ => none⟩]⟩

mutual
/-- `PatternFuncParamChecker` and `PatternFuncTupleChecker` for a type: pattern_func_checker.hpp:87-246. -/
def checker (t : Tables) : Ty → Checker
  | .optional τ => single t (checkOptParam t (checker t τ))
  | .vector τ => single t (checkRepParam t (checker t τ))
  | .variant ts => single t (checkAltParam t (checkers t ts))
  | .tuple ts => ⟨checkScalar t (.tuple ts), checkTuple t (checkers t ts)⟩
  | .bool => single t (checkScalar t .bool)
  | .size => single t (checkScalar t .size)
  | _ => single t (checkScalar t .other)

/-- `PatternFuncParamChecker` and `PatternFuncTupleChecker` for each type in a list of types. -/
def checkers (t : Tables) : Ty → List Checker
  | .cons τ ts => checker t τ :: checkers t ts
  | _ => []
end

/-- `PatternFuncChecker::check()` for a function whose parameters have the types `ts`: pattern_func_checker.hpp:287-293. -/
def checkFunc (t : Tables) (ts : Ty) (seqIndex : Nat) : Option Bool := do
  let seq ← t.seqs[seqIndex]?
  checkTuple t (checkers t ts) seq

/-- Values of parameters. -/
inductive Val where
  | bool (b : Bool)
  | size (n : Nat)
  /-- The result of parsing the argument at index `a`. -/
  | arg (a : Nat)
  /-- The argument at index `a` could not be parsed. -/
  | bad (a : Nat)
  /-- `std::optional` without a value -/
  | absent
  /-- `std::optional` with a value -/
  | present (v : Val)
  /-- `vs` is a list of values. -/
  | vec (vs : Val)
  | variant (i : Nat) (v : Val)
  /-- `vs` is a list of values. -/
  | tuple (vs : Val)
  /-- The empty list of values. -/
  | nil
  | cons (v vs : Val)
deriving DecidableEq, Repr

/-- What a parsing function does: It consumes descriptors, and produces a value. Also, the indexes of arguments with parse errors. -/
abbrev ArgParser := List Desc → Option (Val × List Desc × List Nat)

/-- `State::next()`: pattern_args_parser.hpp:438-444. The element is looked up in the table. -/
def nextDesc (t : Tables) : List Desc → Option (Elem × Nat × List Desc)
  | desc :: descs => do
    let elem ← t.elems[desc.elemIndex]?
    some (elem, desc.value, descs)
  | [] => none

/-- `regular` in `State::parse_elem()`: pattern_args_parser.hpp:421-435. Parsing of a value is represented by the parameter `good`. -/
def parseRegular (good : Ty → Nat → Bool) (numArgs : Nat) (τ : Ty) (elem : Elem) (value : Nat) (descs : List Desc) :
    Option (Val × List Desc × List Nat) :=
  if elem.type = .sym then
    if value < numArgs then some (if good τ value then (.arg value, descs, []) else (.bad value, descs, [value])) else none
  else none

/-- `State::parse_elem()` for types without a special meaning: pattern_args_parser.hpp:390-436. -/
def parseOther (t : Tables) (good : Ty → Nat → Bool) (numArgs : Nat) (τ : Ty) : ArgParser := fun descs => do
  let (elem, value, descs) ← nextDesc t descs
  parseRegular good numArgs τ elem value descs

/-- `State::parse_elem()` for `bool`: pattern_args_parser.hpp:393-400. -/
def parseBool (t : Tables) (good : Ty → Nat → Bool) (numArgs : Nat) : ArgParser := fun descs => do
  let (elem, value, descs) ← nextDesc t descs
  if elem.type ≠ .opt then parseRegular good numArgs .bool elem value descs
  else if elem.collapsible then some (.bool (decide (0 < value)), descs, [])
  else none

/-- `State::parse_elem()` for `std::size_t`: pattern_args_parser.hpp:401-419. -/
def parseSize (t : Tables) (good : Ty → Nat → Bool) (numArgs : Nat) : ArgParser := fun descs => do
  let (elem, value, descs) ← nextDesc t descs
  if elem.type ≠ .opt then
    if elem.type ≠ .rep then parseRegular good numArgs .size elem value descs
    else if elem.collapsible then some (.size value, descs, [])
    else none
  else if ¬ 0 < value then some (.size 0, descs, [])
  else do
    let (elem, value, descs) ← nextDesc t descs
    if elem.type = .rep ∧ elem.collapsible then some (.size value, descs, []) else none

/-- `State::parse_elem()` for `std::optional`: pattern_args_parser.hpp:342-351. The argument is `parse_pattern()` for the value. -/
def parseOptional (t : Tables) (inner : ArgParser) : ArgParser := fun descs => do
  let (elem, value, descs) ← nextDesc t descs
  if elem.type = .opt ∧ value < 2 then
    if ¬ 0 < value then some (.absent, descs, [])
    else do
      let (v, descs, errs) ← inner descs
      some (.present v, descs, errs)
  else none

/-- The loop in `State::parse_elem()` for `std::vector`: pattern_args_parser.hpp:365-369. `parse_pattern()` does not return false. -/
def parseRepeat (inner : ArgParser) : Nat → ArgParser
  | 0, descs => some (.nil, descs, [])
  | n + 1, descs => do
    let (v, descs, errs) ← inner descs
    let (vs, descs, errs2) ← parseRepeat inner n descs
    some (.cons v vs, descs, errs ++ errs2)

/-- `State::parse_elem()` for `std::vector`: pattern_args_parser.hpp:353-371. -/
def parseVector (t : Tables) (inner : ArgParser) : ArgParser := fun descs => do
  let (elem, value, descs) ← nextDesc t descs
  if elem.type = .opt then
    if ¬ 0 < value then some (.vec .nil, descs, [])
    else do
      let (elem, value, descs) ← nextDesc t descs
      if elem.type = .rep then do
        let (vs, descs, errs) ← parseRepeat inner value descs
        some (.vec vs, descs, errs)
      else none
  else if elem.type = .rep then do
    let (vs, descs, errs) ← parseRepeat inner value descs
    some (.vec vs, descs, errs)
  else none

/-- `State::parse_elem()` for `std::variant`: pattern_args_parser.hpp:373-388. -/
def parseVariant (t : Tables) (inner : List ArgParser) : ArgParser := fun descs => do
  let (elem, value, descs) ← nextDesc t descs
  if elem.type = .alt then do
    let p ← inner[value]?
    let (v, descs, errs) ← p descs
    some (.variant value v, descs, errs)
  else none

/-- `for_each_tuple_elem_a()` in `State::parse_pattern()`: pattern_args_parser.hpp:311-330. `parse_elem()` does not return false. -/
def parseAll : List ArgParser → ArgParser
  | [], descs => some (.nil, descs, [])
  | p :: ps, descs => do
    let (v, descs, errs) ← p descs
    let (vs, descs, errs2) ← parseAll ps descs
    some (.cons v vs, descs, errs ++ errs2)

/-- `State::parse_pattern()` for a type that is a list of types, and for other types: pattern_args_parser.hpp:311-340. -/
def parseTuple (ps : List ArgParser) : ArgParser := fun descs => do
  let (vs, descs, errs) ← parseAll ps descs
  some (.tuple vs, descs, errs)

mutual
/-- `State::parse_elem()` (first), and `State::parse_pattern()` (second) for a type: pattern_args_parser.hpp:311-436. -/
def parsers (t : Tables) (good : Ty → Nat → Bool) (numArgs : Nat) : Ty → ArgParser × ArgParser
  | .optional τ => let p := parseOptional t (parsers t good numArgs τ).2; (p, p)
  | .vector τ => let p := parseVector t (parsers t good numArgs τ).2; (p, p)
  | .variant ts => let p := parseVariant t ((parsersOf t good numArgs ts).map Prod.snd); (p, p)
  | .tuple ts => (parseOther t good numArgs (.tuple ts), parseTuple ((parsersOf t good numArgs ts).map Prod.fst))
  | .bool => let p := parseBool t good numArgs; (p, p)
  | .size => let p := parseSize t good numArgs; (p, p)
  | τ => let p := parseOther t good numArgs τ; (p, p)

/-- `State::parse_elem()` and `State::parse_pattern()` for each type in a list of types. -/
def parsersOf (t : Tables) (good : Ty → Nat → Bool) (numArgs : Nat) : Ty → List (ArgParser × ArgParser)
  | .cons τ ts => parsers t good numArgs τ :: parsersOf t good numArgs ts
  | _ => []
end

/-- `State::parse()` for a function whose parameters have the types `ts`: pattern_args_parser.hpp:295-301. The result is the list of values,
and the indexes of arguments with parse errors. `State::parse()` returns true if there are no such arguments. -/
def parseArgs (t : Tables) (good : Ty → Nat → Bool) (numArgs : Nat) (ts : Ty) (descs : List Desc) : Option (Val × List Nat) := do
  let (vs, descs, errs) ← parseAll ((parsersOf t good numArgs ts).map Prod.fst) descs
  if descs = [] then some (vs, errs) else none

end Verif.CliPattern
