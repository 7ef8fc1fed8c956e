import Mathlib.Init
/-!
Model of word wrapping: /repo/src/archon/core/word_wrap.hpp and /repo/src/archon/core/word_wrap.cpp.

`none` stands for undefined behavior or failed assertion. Memory exhaustion is not modelled, and neither is the check for overflow in the
computation of the size of the cache.
-/
namespace Verif.WordWrap

/-- `Word`: word_wrap.hpp:184-197. -/
structure Word where
  space : Nat
  size : Nat

/-- `Geometry`: word_wrap.hpp:216-230. -/
structure Geom where
  line : Nat
  next : Nat

/-- The arguments, and the largest values of `std::size_t` and of `badness_type`. -/
structure Env where
  words : List Word
  trailing : Nat
  geometry : List Geom
  first : Nat
  sizeMax : Nat
  badMax : Nat

/-- Addition that ends at the largest value (as in word_wrap.cpp:61-62). -/
def satAdd (env : Env) (a b : Nat) : Nat := if a + b ≤ env.sizeMax then a + b else env.sizeMax

/-! ### The greedy algorithm -/

/-- Whether another word fits, and the new cursor position: word_wrap.cpp:71-89. -/
def another (env : Env) (lineSize cursor k : Nat) (word : Word) : Option Nat :=
  if lineSize ≥ cursor then
    let rest := lineSize - cursor
    if rest ≥ word.size then
      let rest := rest - word.size
      if rest ≥ word.space then
        let rest := rest - word.space
        if k ≠ env.words.length - 1 then some (lineSize - rest)
        else if rest ≥ env.trailing then
          let rest := rest - env.trailing
          some (lineSize - rest)
        else none
      else none
    else none
  else none

/-- Placement of the first word on a line: word_wrap.cpp:53-65. The result is the line size and the cursor position. -/
def firstWord (env : Env) (geom k : Nat) : Option (Nat × Nat) := do
  let g ← env.geometry[geom]?
  let word ← env.words[k]?
  some (g.line, if k = 0 then satAdd env word.size word.space else word.size)

/-- `greedy()` from `next` onwards: word_wrap.cpp:67-98. The first number is the number of words that remain, which is one more than the
number of those after the current word. The other arguments are the current word, the geometry index, the line size, and the cursor
position. -/
def greedyLoop (env : Env) : Nat → Nat → Nat → Nat → Nat → Option (List Nat)
  | 0, _, _, _, _ => none
  | fuel + 1, k, geom, lineSize, cursor => do
    let k := k + 1
    if k < env.words.length then
      let word ← env.words[k]?
      match another env lineSize cursor k word with
      | some cursor => greedyLoop env fuel k geom lineSize cursor
      | none =>
        let g ← env.geometry[geom]?
        let (lineSize, cursor) ← firstWord env g.next k
        some (k :: (← greedyLoop env fuel k g.next lineSize cursor))
    else some []

/-- `greedy()`: word_wrap.cpp:39-98. -/
def greedy (env : Env) : Option (List Nat) := do
  if env.words.length < 2 then some []
  else
    let (lineSize, cursor) ← firstWord env env.first 0
    greedyLoop env env.words.length 0 env.first lineSize cursor

/-! ### Knuth's algorithm -/

/-- `WordSlot`: word_wrap.hpp:102-110. -/
structure WordSlot where
  size : Nat
  cursor : Nat

/-- `LineSlot`: word_wrap.hpp:112-130. -/
structure LineSlot where
  size : Nat
  geom : Nat
  word : Nat
  badness : Nat
  result : Nat

/-- `Result`: word_wrap.hpp:141-156. The second component is nothing if the result is indefinite. Otherwise, it is the first breakpoint,
if there is one. -/
structure Result where
  badness : Nat
  bp : Option (Option Nat)
deriving DecidableEq

/-- `Breakpoint`: word_wrap.hpp:158-165. -/
structure Bp where
  word : Nat
  next : Option Nat

/-- The state of the algorithm. -/
structure St where
  wordSlots : List WordSlot
  lineSlots : List LineSlot
  cache : List Nat
  results : List Result
  bps : List Bp
  unused : Option Nat
  bound : Nat
  word : Nat
  line : Nat
  result : Nat
  lineSize : Nat
  cursor : Nat

/-- The labels. -/
inductive Label
  | right1 | right2 | down | left | up | done

/-- `alloc_breakpoint()`: word_wrap.cpp:169-182. -/
def alloc (st : St) (word : Nat) (next : Option Nat) : Option (St × Nat) :=
  match st.unused with
  | none => some ({ st with bps := st.bps ++ [⟨word, next⟩] }, st.bps.length)
  | some i => do
    let bp ← st.bps[i]?
    some ({ st with unused := bp.next, bps := st.bps.set i ⟨word, next⟩ }, i)

/-- `recycle_breakpoint()`: word_wrap.cpp:183-191. -/
def recycle (st : St) (r : Result) : Option St :=
  match r.bp with
  | some (some i) => do
    let bp ← st.bps[i]?
    some { st with bps := st.bps.set i { bp with next := st.unused }, unused := some i }
  | _ => some st

/-- From `move_right_1` to `move_right_2`: word_wrap.cpp:200-210. -/
def stepRight1 (env : Env) (st : St) : Option (Label × St) := do
  let r ← st.results[st.result]?
  if r.badness = env.badMax ∧ r.bp = none then
    let line ← st.lineSlots[st.line]?
    let slot ← st.wordSlots[st.word]?
    some (.right2, { st with
      lineSize := line.size
      wordSlots := st.wordSlots.set st.word { slot with cursor := 0 }
      cursor := slot.size })
  else none

/-- From `move_right_2` to the next jump: word_wrap.cpp:212-238. -/
def stepRight2 (env : Env) (st : St) : Option (Label × St) := do
  let st := { st with word := st.word + 1 }
  if st.word = env.words.length then
    some (.up, { st with results := st.results.set st.result ⟨0, some none⟩ })
  else
    let slot ← st.wordSlots[st.word]?
    if st.lineSize ≥ st.cursor then
      let rest := st.lineSize - st.cursor
      if rest ≥ slot.size then
        let rest := rest - slot.size
        let word ← env.words[st.word]?
        if rest ≥ word.space then
          let rest := rest - word.space
          some (.right2, { st with
            wordSlots := st.wordSlots.set st.word { slot with cursor := st.cursor }
            cursor := st.lineSize - rest })
        else some (.down, st)
      else some (.down, st)
    else some (.down, st)

/-- From `move_down` to the next jump: word_wrap.cpp:240-286. -/
def stepDown (env : Env) (st : St) : Option (Label × St) := do
  let excess := if st.cursor < st.lineSize then st.lineSize - st.cursor else 0
  if excess > env.badMax ∨ excess * excess > env.badMax then some (.up, st)
  else
    let badness := excess * excess
    if badness > st.bound then
      let r ← st.results[st.result]?
      if badness < r.badness then
        let st ← recycle st r
        some (.up, { st with results := st.results.set st.result ⟨badness, none⟩ })
      else some (.up, st)
    else
      let slot ← st.lineSlots[st.line]?
      let lineSlots := st.lineSlots.set st.line { slot with badness := badness, result := st.result }
      let line := st.line + 1
      let slot ← lineSlots[line]?
      let lineSlots := lineSlots.set line { slot with word := st.word }
      let bound := st.bound - badness
      let i := slot.geom * env.words.length + st.word
      let ident ← st.cache[i]?
      let st := { st with lineSlots := lineSlots, line := line, bound := bound }
      if ident ≠ 0 then
        let result := ident - 1
        let r ← st.results[result]?
        if r.badness ≠ 0 ∨ r.bp ≠ none then
          if r.bp = none ∧ r.badness ≤ bound then
            some (.right1, { st with result := result, results := st.results.set result { r with badness := env.badMax } })
          else some (.up, { st with result := result })
        else none
      else
        let result := st.results.length
        some (.right1, { st with
          result := result
          results := st.results ++ [⟨env.badMax, none⟩]
          cache := st.cache.set i (result + 1) })

/-- From `move_left` to the next jump, or to `move_up`: word_wrap.cpp:288-298. -/
def stepLeft (st : St) : Option (Label × St) := do
  if st.word > 0 then
    let st := { st with word := st.word - 1 }
    let line ← st.lineSlots[st.line]?
    if st.word > line.word then
      let slot ← st.wordSlots[st.word]?
      some (.down, { st with cursor := slot.cursor })
    else some (.up, st)
  else none

/-- From `move_up` to the next jump: word_wrap.cpp:300-335. -/
def stepUp (env : Env) (st : St) : Option (Label × St) := do
  if st.line = 0 then some (.done, st)
  else
    let slotBelow ← st.lineSlots[st.line]?
    let slot ← st.lineSlots[st.line - 1]?
    let below ← st.results[st.result]?
    let r ← st.results[slot.result]?
    let st := { st with
      line := st.line - 1
      word := slotBelow.word
      lineSize := slot.size
      result := slot.result
      bound := (st.bound + slot.badness) % (env.badMax + 1) }
    let badness := slot.badness + below.badness
    if badness ≤ env.badMax ∧ badness < r.badness then
      let st ← recycle st r
      match below.bp with
      | some next =>
        let (st, i) ← alloc st st.word next
        let st := { st with results := st.results.set st.result ⟨badness, some (some i)⟩ }
        if badness ≤ st.bound then
          if badness = 0 then some (.up, st)
          else some (.left, { st with bound := badness - 1 })
        else some (.left, st)
      | none =>
        if badness > st.bound then some (.left, { st with results := st.results.set st.result ⟨badness, none⟩ })
        else none
    else some (.left, st)

/-- One step of the algorithm. -/
def step (env : Env) : Label → St → Option (Label × St)
  | .right1, st => stepRight1 env st
  | .right2, st => stepRight2 env st
  | .down, st => stepDown env st
  | .left, st => stepLeft st
  | .up, st => stepUp env st
  | .done, _ => none

/-- The steps from a label to the label `done`. The number bounds the number of steps. -/
def run (env : Env) : Nat → Label → St → Option St
  | _, .done, st => some st
  | 0, _, _ => none
  | fuel + 1, label, st => do
    let (label, st) ← step env label st
    run env fuel label st

/-- Adjusted word size: word_wrap.cpp:117-131. -/
def adjusted (env : Env) (i : Nat) (word : Word) : Nat :=
  let size := if i = 0 then satAdd env word.size word.space else word.size
  if i = env.words.length - 1 then satAdd env size env.trailing else size

/-- Unpacking of the geometry: word_wrap.cpp:133-152. The number is the number of lines. Fields that are written before they are read
are zero. -/
def unpack (env : Env) : Nat → Nat → Option (List LineSlot)
  | 0, _ => some []
  | n + 1, geom => do
    let g ← env.geometry[geom]?
    some (⟨g.line, geom, 0, 0, 0⟩ :: (← unpack env n g.next))

/-- `num_geometries`: word_wrap.cpp:147-153. The first line is not considered. -/
def numGeometries (lineSlots : List LineSlot) : Nat :=
  (lineSlots.drop 1).foldl (fun m slot => if slot.geom > m then slot.geom else m) 0 + 1

/-- Collection of the breakpoints: word_wrap.cpp:344-349. -/
def gather (bps : List Bp) : Nat → Option Nat → Option (List Nat)
  | _, none => some []
  | 0, some _ => none
  | fuel + 1, some i => do
    let bp ← bps[i]?
    some (bp.word :: (← gather bps fuel bp.next))

/-- The state at the start of the algorithm: word_wrap.cpp:116-198. -/
def start (env : Env) : Option St := do
  let wordSlots := env.words.mapIdx (fun i word => ⟨adjusted env i word, 0⟩)
  let lineSlots ← unpack env env.words.length env.first
  some {
    wordSlots := wordSlots
    lineSlots := lineSlots
    cache := List.replicate (env.words.length * numGeometries lineSlots) 0
    results := [⟨env.badMax, none⟩]
    bps := []
    unused := none
    bound := env.badMax
    word := 0
    line := 0
    result := 0
    lineSize := 0
    cursor := 0 }

/-- Outcome of wrapping: the breakpoints and the new value of `m_badness`, or an exception. -/
inductive Outcome
  | ok (breakpoints : List Nat) (badness : Nat)
  | overflow
deriving DecidableEq

/-- `KnuthWrapper::wrap()`: word_wrap.cpp:101-351. The second argument is the value of `m_badness` before the call, and the first number
bounds the number of steps. -/
def knuth (env : Env) (fuel : Nat) (badness : Nat) : Option Outcome := do
  if env.words.length < 2 then some (.ok [] badness)
  else
    let st ← run env fuel .right1 (← start env)
    let r ← st.results[st.result]?
    match r.bp with
    | none => some .overflow
    | some bp => some (.ok (← gather st.bps env.words.length bp) r.badness)

end Verif.WordWrap
