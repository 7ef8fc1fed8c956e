import Verif.XmlReport.Model

/-!
# Specification of the XML reporter

A small parser for the kind of XML documents that are at issue, written from the point of view of a
reader of XML: an automaton that reads one character at a time, and that produces a list of tags.
Attribute values are normalized as demanded by section 3.3.3 of the XML 1.0 specification: white
space characters that are not written as character references are read as spaces. Characters that
are not allowed in XML documents (section 2.2) are errors.
-/

namespace Verif.XmlReport

abbrev Attrs := List (List Char × List Char)

inductive Tag where
  | open_ (name : List Char) (attrs : Attrs)
  | empty (name : List Char) (attrs : Attrs)
  | close (name : List Char)
deriving DecidableEq, Repr

/-- Where the reader is. -/
inductive Mode where
  /-- Between tags. -/
  | text
  /-- After `<`. -/
  | lt
  /-- In a processing instruction. -/
  | pi
  /-- In a processing instruction, after a question mark. -/
  | piEnd
  /-- In the name of an opening tag. -/
  | name (n : List Char)
  /-- In the name of a closing tag. -/
  | closeName (n : List Char)
  /-- Between the attributes of a tag. -/
  | attrs (n : List Char) (as : Attrs)
  /-- In the name of an attribute. -/
  | attrName (n : List Char) (as : Attrs) (a : List Char)
  /-- After the equal sign. -/
  | eq (n : List Char) (as : Attrs) (a : List Char)
  /-- In the value of an attribute. -/
  | value (n : List Char) (as : Attrs) (a : List Char) (v : List Char)
  /-- In an entity reference in the value of an attribute. -/
  | entity (n : List Char) (as : Attrs) (a : List Char) (v : List Char) (e : List Char)
  /-- After the slash of an empty tag. -/
  | slash (n : List Char) (as : Attrs)
  | error
deriving DecidableEq, Repr

/-- Characters that may occur in the names that are at issue. -/
def isNameChar (c : Char) : Bool := c.isAlpha || c == '-'

/-- Space, tab, carriage return, newline. -/
def isSpace (c : Char) : Bool := c == ' ' || c == '\t' || c == '\r' || c == '\n'

/-- The predefined entities. -/
def entityChar (e : List Char) : Option Char :=
  if e = ['a', 'm', 'p'] then some '&'
  else if e = ['l', 't'] then some '<'
  else if e = ['g', 't'] then some '>'
  else if e = ['a', 'p', 'o', 's'] then some '\''
  else if e = ['q', 'u', 'o', 't'] then some '"'
  else none

/-- Read one character. -/
def read (s : Mode × List Tag) (c : Char) : Mode × List Tag :=
  match s with
  | (.text, tags) => if c = '<' then (.lt, tags) else if isSpace c then (.text, tags)
      else (.error, tags)
  | (.lt, tags) => if c = '?' then (.pi, tags) else if c = '/' then (.closeName [], tags)
      else if isNameChar c then (.name [c], tags) else (.error, tags)
  | (.pi, tags) => if c = '?' then (.piEnd, tags) else (.pi, tags)
  | (.piEnd, tags) => if c = '>' then (.text, tags) else (.error, tags)
  | (.name n, tags) => if isNameChar c then (.name (n ++ [c]), tags)
      else if c = ' ' then (.attrs n [], tags)
      else if c = '>' then (.text, tags ++ [.open_ n []])
      else if c = '/' then (.slash n [], tags)
      else (.error, tags)
  | (.closeName n, tags) => if isNameChar c then (.closeName (n ++ [c]), tags)
      else if c = '>' then (.text, tags ++ [.close n])
      else (.error, tags)
  | (.attrs n as, tags) => if isNameChar c then (.attrName n as [c], tags)
      else if c = ' ' then (.attrs n as, tags)
      else if c = '>' then (.text, tags ++ [.open_ n as])
      else if c = '/' then (.slash n as, tags)
      else (.error, tags)
  | (.attrName n as a, tags) => if isNameChar c then (.attrName n as (a ++ [c]), tags)
      else if c = '=' then (.eq n as a, tags)
      else (.error, tags)
  | (.eq n as a, tags) => if c = '"' then (.value n as a [], tags) else (.error, tags)
  | (.value n as a v, tags) => if c = '"' then (.attrs n (as ++ [(a, v)]), tags)
      else if c = '<' then (.error, tags)
      else if c = '&' then (.entity n as a v [], tags)
      else if isSpace c then (.value n as a (v ++ [' ']), tags)
      else if c.toNat < 32 then (.error, tags)
      else (.value n as a (v ++ [c]), tags)
  | (.entity n as a v e, tags) => if c = ';' then
        (match entityChar e with
          | some x => (.value n as a (v ++ [x]), tags)
          | none => (.error, tags))
      else if c.isAlpha then (.entity n as a v (e ++ [c]), tags)
      else (.error, tags)
  | (.slash n as, tags) => if c = '>' then (.text, tags ++ [.empty n as]) else (.error, tags)
  | (.error, tags) => (.error, tags)

/-- The tags of a document, or nothing if the document is malformed. -/
def parse (doc : List Char) : Option (List Tag) :=
  match doc.foldl read (.text, []) with
  | (.text, tags) => some tags
  | _ => none

/-- Text that a reader gets back exactly as it was: no control characters. -/
def Printable (s : List Char) : Prop := ∀ c ∈ s, 32 ≤ c.toNat

/-- Text that needs no escaping. -/
def Plain (s : List Char) : Prop :=
  ∀ c ∈ s, 32 ≤ c.toNat ∧ c ≠ '<' ∧ c ≠ '&' ∧ c ≠ '"'

/-! ## What should be reported -/

/-- The failures reported for a test execution, in order. -/
def failuresOf (cs : List Call) (key : Key) : List Failure :=
  cs.filterMap fun
    | .fail k f => if k = key then some f else none
    | _ => none

/-- What was last reported as the elapsed time of a test execution. -/
def elapsedOf (cs : List Call) (key : Key) : List Char :=
  ((cs.filterMap fun
    | .end_ k e => if k = key then some e else none
    | _ => none).getLast?).getD ['0']

/-- Every test execution is begun before something else is reported for it. -/
def Proper (cs : List Call) : Prop :=
  ∀ x c y, cs = x ++ c :: y → match c with
    | .begin_ _ => True
    | .fail key _ => .begin_ key ∈ x
    | .end_ key _ => .begin_ key ∈ x

/-- The tags that a reader should find for a test execution. `path` is the path of a failure. -/
def testTags (path : Failure → List Char) (suite name time : List Char) (failures : List Failure) :
    List Tag :=
  let attrs := [("suite".toList, suite), ("name".toList, name), ("time".toList, time)]
  if failures = [] then [.empty "test".toList attrs]
  else [.open_ "test".toList attrs] ++ (failures.map fun f => Tag.empty "failure".toList
      [("message".toList, path f ++ "(".toList ++ showInt f.line ++ ") : ".toList ++ f.message)]) ++
    [.close "test".toList]

end Verif.XmlReport
