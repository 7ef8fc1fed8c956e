/-
Specification of the newline convention, independent of the codec loops.
-/
namespace Verif.Newline.Spec

/-- Windows text form of a text: every NL becomes CR+LF. -/
def toWindows (s : List Char) : List Char :=
  s.flatMap fun c => if c = '\n' then ['\r', '\n'] else [c]

/-- Every CR+LF pair becomes NL, everything else is kept. -/
def fromWindows : List Char → List Char
  | [] => []
  | [c] => [c]
  | c :: d :: t => if c = '\r' ∧ d = '\n' then '\n' :: fromWindows t else c :: fromWindows (d :: t)

end Verif.Newline.Spec
