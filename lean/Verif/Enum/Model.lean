import Verif.AsInt.Model
/-!
Model of `Enum`: /repo/src/archon/core/enum.hpp.

The character type of streams is `char`, and the model of input streams is that of `AsInt`. The field width of output streams is zero, and the
locale of output streams is the classic one. Values are integers.
-/
namespace Verif.Enum
open Verif.AsInt (Stream Locale Helper sentry)

/-- `std::ctype<char>::toupper()` of the classic locale, as it is used in `EnumMapper::Compare`: enum.hpp:248-253. -/
def toupper (c : Char) : Char := if 97 ≤ c.toNat ∧ c.toNat ≤ 122 then Char.ofNat (c.toNat - 32) else c

/-- `std::lexicographical_compare()` when the order of characters is that of `key`: enum.hpp:256-257. -/
def lexLess (key : Char → Nat) : List Char → List Char → Bool
  | _, [] => false
  | [], _ :: _ => true
  | a :: as, b :: bs => if key a < key b then true else if key b < key a then false else lexLess key as bs

/-- `EnumMapper::Compare::operator()()`: enum.hpp:250-258. -/
def compare (ignoreCase : Bool) (a b : List Char) : Bool :=
  if ignoreCase then lexLess (fun c => (toupper c).toNat) a b else lexLess Char.toNat a b

/-- `EnumMapper`: enum.hpp:211-263. Each map is a list of entries with inequivalent keys. -/
structure Mapper where
  ignoreCase : Bool
  valueToName : List (Int × List Char)
  nameToValue : List (List Char × Int)
deriving DecidableEq, Repr

/-- `std::map::find()` in `m_value_to_name`: enum.hpp:230. -/
def Mapper.findValue (m : Mapper) (value : Int) : Option (Int × List Char) := m.valueToName.find? fun e => !decide (e.1 < value) && !decide (value < e.1)

/-- `std::map::find()` in `m_name_to_value`: enum.hpp:239. -/
def Mapper.findName (m : Mapper) (name : List Char) : Option (List Char × Int) :=
  m.nameToValue.find? fun e => !compare m.ignoreCase e.1 name && !compare m.ignoreCase name e.1

/-- The errors that are reported by the constructor: enum.hpp:220, 224. -/
inductive Error
  | duplicateValue
  | duplicateName
deriving DecidableEq, Repr

/-- The loop in the constructor of `EnumMapper`, with `std::map::emplace()`: enum.hpp:215-225. -/
def Mapper.addAll : List (Int × List Char) → Mapper → Except Error Mapper
  | [], m => .ok m
  | (value, name) :: map, m =>
    match m.findValue value with
    | some _ => .error .duplicateValue
    | none =>
      match m.findName name with
      | some _ => .error .duplicateName
      | none => Mapper.addAll map { m with valueToName := m.valueToName ++ [(value, name)], nameToValue := m.nameToValue ++ [(name, value)] }

/-- The constructor of `EnumMapper`: enum.hpp:213-226. -/
def Mapper.make (ignoreCase : Bool) (map : List (Int × List Char)) : Except Error Mapper := Mapper.addAll map ⟨ignoreCase, [], []⟩

/-- `EnumMapper::name()`: enum.hpp:228-235. -/
def Mapper.name (m : Mapper) (value : Int) : Option (List Char) :=
  match m.findValue value with
  | none => none
  | some e => some e.2

/-- `EnumMapper::parse()`, and `Enum::parse()`: enum.hpp:237-244, 312-321. The result is whether it succeeds, and the variable afterwards. -/
def Mapper.parse (m : Mapper) (string : List Char) (var : Int) : Bool × Int :=
  match m.findName string with
  | none => (false, var)
  | some e => (true, e.2)

/-- `operator<<()`: enum.hpp:324-338. The result is what is written. -/
def Mapper.write (m : Mapper) (value : Int) : List Char :=
  match m.name value with
  | some string => string
  | none => (toString value).toList

/-- The loop of `operator>>()`: enum.hpp:355-365. The number of rounds is bounded by `fuel`. The result is whether reading goes on after the
loop. -/
def readLoop (loc : Locale) : (fuel : Nat) → (ch : Char) → Helper → Bool × Helper
  | 0, _, h => (true, h)
  | fuel + 1, ch, h =>
    if !loc.alnum ch && ch != '_' then
      if h.buffer.length > 0 then (true, h) else (false, h)
    else
      match ({ h with buffer := h.buffer ++ [ch] } : Helper).next with
      | (none, h) => (true, h)
      | (some ch, h) => readLoop loc fuel ch h

/-- `operator>>()`: enum.hpp:341-375, 394-403, with `istream_sentry()`: stream_input.hpp:129-148. The result is the stream afterwards, and the
variable afterwards. -/
def Mapper.read (m : Mapper) (loc : Locale) (s : Stream) (var : Int) : Stream × Int :=
  match sentry loc s with
  | (false, s) => (s, var)
  | (true, s) =>
    let h : Helper := ⟨s.data, false, []⟩
    let fuel := s.data.length
    let (goOn, h) :=
      match h.peek with
      | (none, h) => (false, h)
      | (some ch, h) => readLoop loc fuel ch h
    let (success, var) :=
      match goOn with
      | false => (false, var)
      | true => m.parse h.buffer var
    ({ s with data := h.data, eof := s.eof || h.endOfInput, fail := s.fail || !success }, var)

end Verif.Enum
