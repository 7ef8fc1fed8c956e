import Verif.StringMatcher.Model
import Verif.StringSplit.Model
/-!
Model of `WildcardFilter`: /repo/src/archon/check/wildcard_filter.cpp.

Strings are lists of characters, and characters are integers from `lo` to `hi`. The star, the space and the dash are parameters.
-/
namespace Verif.WildcardFilter
open Verif.StringMatcher

/-- The members of `WildcardFilter`: wildcard_filter.hpp:70-71. -/
structure Filter where
  includeMatcher : Matcher
  excludeMatcher : Matcher

/-- The objects that the constructor works on: the builder and the two matchers. -/
structure State where
  builder : Builder
  filter : Filter

/-- The `make_include_matcher` function: wildcard_filter.cpp:37-42. -/
def makeIncludeMatcher (lo hi star : Int) (s : State) : Except Fail State := do
  let builder ← if s.builder.empty then orUb (s.builder.addPattern star [star] 0) else pure s.builder
  let matcher ← builder.build lo hi true
  pure ⟨builder, { s.filter with includeMatcher := matcher }⟩

/-- The function that is called for each word: wildcard_filter.cpp:44-50. -/
def handleWord (lo hi star dash : Int) (word : List Int) (s : State) : Except Fail State :=
  if word ≠ [dash] then do
    let builder ← orUb (s.builder.addPattern star word 0)
    pure { s with builder }
  else do
    let s ← makeIncludeMatcher lo hi star s
    pure { s with builder := s.builder.clear }

/-- The calls of that function: wildcard_filter.cpp:43-51. -/
def handleWords (lo hi star dash : Int) : List (List Int) → State → Except Fail State
  | [], s => .ok s
  | w :: ws, s => do handleWords lo hi star dash ws (← handleWord lo hi star dash w s)

/-- The constructor: wildcard_filter.cpp:31-58. -/
def construct (lo hi star space dash : Int) (filter : List Int) : Except Fail Filter := do
  let words := (StringSplit.words space filter).map (StringSplit.slice filter)
  let s ← handleWords lo hi star dash words ⟨Builder.init, ⟨Matcher.init, Matcher.init⟩⟩
  if s.filter.includeMatcher.isDegenerate then do
    let s ← makeIncludeMatcher lo hi star s
    pure s.filter
  else do
    let matcher ← s.builder.build lo hi true
    pure { s.filter with excludeMatcher := matcher }

/-- `include()`: wildcard_filter.cpp:61-64. -/
def Filter.include (f : Filter) (name : List Int) : Option Bool := do
  if (← f.includeMatcher.match name).isSome then
    some (← f.excludeMatcher.match name).isNone
  else some false

end Verif.WildcardFilter
