import Mathlib.Order.Lattice
import Mathlib.Data.Int.Notation
import Mathlib.Data.Nat.Notation

/-!
# Model of key bindings

Model of `/repo/src/archon/render/impl/key_bindings.cpp` and `/repo/src/archon/render/impl/key_bindings.hpp`, and of the built-in
handlers for modifier keys in `/repo/src/archon/render/noinst/engine_impl.cpp`.

The result of an operation is absent if the behavior is undefined (invalid iterator, or index out of range).
-/

namespace Verif.KeyBindings

/-- `KeyBindings::KeySlot` (`/repo/src/archon/render/impl/key_bindings.cpp:48-76`). Handlers are given by modifier mode and multiplicity.
The flat map of handlers is an association list with at most one entry per key (the order of it plays no role). -/
structure Slot where
  pressed : Bool := false
  mult : ℤ := 0
  time : ℤ := 0
  smode : ℕ := 0
  handlers : List ((ℕ × ℤ) × ℤ) := []
  maxMult : ℤ := 0
  handlerIndex : ℤ := -1

/-- A request made by a handler for a key to be bound (`Engine::bind_key_a()` is allowed in handlers,
`/repo/src/archon/render/engine.hpp:280-282`). -/
structure Bind (κ : Type) where
  key : κ
  mode : ℕ
  mult : ℤ
  handler : ℤ

/-- What a handler does: a new state of the surroundings, a new modifier mode, keys to be bound, and whether event processing may
proceed. -/
structure Effect (κ W : Type) where
  world : W
  mode : ℕ
  binds : List (Bind κ) := []
  proceed : Bool := true

/-- The registered handler functions. -/
abbrev Handlers (κ W : Type) : Type := ℕ → Bool → W → ℕ → Effect κ W

/-- `KeyBindings` (`/repo/src/archon/render/impl/key_bindings.hpp:40-92`): the number of handlers, the slots in order of their keys,
the modifier mode, and whether an "on blur" operation is incomplete. In addition, there is the state of the surroundings, and the list
of calls of handlers so far, each with the key that caused it, the index of the handler, and the argument. -/
structure State (κ W : Type) where
  handlerCount : ℕ := 0
  slots : List (κ × Slot) := []
  mode : ℕ := 0
  blur : Bool := false
  world : W
  calls : List (κ × ℕ × Bool) := []

/-- `KeySlot::reset_key_state()` (`/repo/src/archon/render/impl/key_bindings.cpp:223-227`). -/
def Slot.reset (s : Slot) : Slot := { s with pressed := false, mult := 0 }

/-- The loop in `KeySlot::on_reconfigured()` (`/repo/src/archon/render/impl/key_bindings.cpp:212-219`). -/
def maxMultiplicity (handlers : List ((ℕ × ℤ) × ℤ)) : ℤ :=
  handlers.foldl (fun m e => if e.1.2 ≤ m then m else e.1.2) 0

/-- `KeySlot::on_reconfigured()` (`/repo/src/archon/render/impl/key_bindings.cpp:209-220`). -/
def Slot.onReconfigured (s : Slot) : Slot := { s.reset with maxMult := maxMultiplicity s.handlers }

/-- `slot.handlers[key] = index` (`/repo/src/archon/render/impl/key_bindings.cpp:108`). -/
def assign (key : ℕ × ℤ) (index : ℤ) : List ((ℕ × ℤ) × ℤ) → List ((ℕ × ℤ) × ℤ)
  | [] => [(key, index)]
  | e :: l => if e.1 = key then (key, index) :: l else e :: assign key index l

/-- `slot.handlers.find(key)` (`/repo/src/archon/render/impl/key_bindings.cpp:155`). -/
def lookup (key : ℕ × ℤ) (l : List ((ℕ × ℤ) × ℤ)) : Option ℤ := (l.find? (fun e => e.1 = key)).map Prod.snd

section

variable {κ W : Type} [LinearOrder κ]

/-- `m_key_slots.find(key)` (`/repo/src/archon/render/impl/key_bindings.cpp:129`). -/
def findSlot (k : κ) (l : List (κ × Slot)) : Option Slot := (l.find? (fun e => e.1 = k)).map Prod.snd

/-- Modification of a slot through a reference to it. -/
def setSlot (k : κ) (v : Slot) (l : List (κ × Slot)) : List (κ × Slot) := l.map fun e => if e.1 = k then (e.1, v) else e

/-- `m_key_slots[key]` (`/repo/src/archon/render/impl/key_bindings.cpp:107`): insertion, in order of keys, of a slot for the key if there
is none. The order is that of `KeyIdent::operator<()` (`/repo/src/archon/render/impl/key_bindings.hpp:167-181`). -/
def insertKey (k : κ) : List (κ × Slot) → List (κ × Slot)
  | [] => [(k, {})]
  | e :: l => if e.1 < k then e :: insertKey k l else if e.1 = k then e :: l else (k, {}) :: e :: l

/-- `KeyBindings::register_handler()` (`/repo/src/archon/render/impl/key_bindings.cpp:89-97`). -/
def registerHandler (s : State κ W) : State κ W × ℕ := ({ s with handlerCount := s.handlerCount + 1 }, s.handlerCount)

/-- `KeyBindings::bind_key()` (`/repo/src/archon/render/impl/key_bindings.cpp:100-110`). The second component of the result is `false` if
an exception is thrown. -/
def bindKey (b : Bind κ) (s : State κ W) : State κ W × Bool :=
  if b.handler < 0 ∨ b.handler ≥ s.handlerCount then (s, false)
  else
    let slots := insertKey b.key s.slots
    let slot := (findSlot b.key slots).getD {}
    let slot := { slot with handlers := assign (b.mode, b.mult) b.handler slot.handlers }
    ({ s with slots := setSlot b.key slot.onReconfigured slots }, true)

/-- `handler.func(down)` (`/repo/src/archon/render/impl/key_bindings.cpp:178-180` and `195-197`). If the handler attempts to bind a key
to a handler that does not exist, it must deal with the exception by itself. -/
def callHandler (H : Handlers κ W) (k : κ) (index : ℤ) (down : Bool) (s : State κ W) : Option (State κ W × Bool) :=
  if 0 ≤ index ∧ index < s.handlerCount then
    let e := H index.toNat down s.world s.mode
    let s := { s with world := e.world, mode := e.mode, calls := s.calls ++ [(k, index.toNat, down)] }
    some (e.binds.foldl (fun s b => (bindKey b s).1) s, e.proceed)
  else none

/-- `KeyBindings::on_keydown()` (`/repo/src/archon/render/impl/key_bindings.cpp:113-117` and `127-181`). Time is in milliseconds. The
second component of the result is what is returned. -/
def onKeydown (H : Handlers κ W) (k : κ) (timestamp : ℤ) (s : State κ W) : Option (State κ W × Bool) :=
  match findSlot k s.slots with
  | none => some (s, true)
  | some slot =>
    if slot.pressed then some (s, true)
    else
      let connected : Bool := decide (slot.mult > 0 ∧ s.mode = slot.smode ∧ timestamp - slot.time ≤ 250 ∧ slot.mult < slot.maxMult)
      let mult := (if connected then slot.mult else 0) + 1
      let slot := { slot with pressed := true, mult := mult, time := timestamp, smode := s.mode }
      match lookup (slot.smode, slot.mult) slot.handlers with
      | none => some ({ s with slots := setSlot k { slot with handlerIndex := -1 } s.slots }, true)
      | some index => callHandler H k index true { s with slots := setSlot k { slot with handlerIndex := index } s.slots }

/-- `KeyBindings::on_keyup()` (`/repo/src/archon/render/impl/key_bindings.cpp:120-124` and `127-181`). -/
def onKeyup (H : Handlers κ W) (k : κ) (s : State κ W) : Option (State κ W × Bool) :=
  match findSlot k s.slots with
  | none => some (s, true)
  | some slot =>
    if !slot.pressed then some (s, true)
    else
      let s := { s with slots := setSlot k { slot with pressed := false } s.slots }
      if slot.handlerIndex < 0 then some (s, true)
      else callHandler H k slot.handlerIndex false s

/-- The loop in `KeyBindings::resume_incomplete_on_blur()` (`/repo/src/archon/render/impl/key_bindings.cpp:188-204`). It iterates over
the slots. If the handler causes a slot to be inserted, the iterators become invalid. The first argument is the number of remaining
iterations. -/
def blurLoop (H : Handlers κ W) : ℕ → ℕ → State κ W → Option (State κ W × Bool)
  | 0, _, s => some ({ s with blur := false }, true)
  | n + 1, i, s =>
    match s.slots[i]? with
    | none => none
    | some (k, slot) =>
      let s := { s with slots := setSlot k slot.reset s.slots }
      if !slot.pressed || slot.handlerIndex < 0 then blurLoop H n (i + 1) s
      else
        match callHandler H k slot.handlerIndex false s with
        | none => none
        | some (s', proceed) =>
          if proceed then
            if s'.slots.length = s.slots.length then blurLoop H n (i + 1) s' else none
          else some (s', false)

/-- `KeyBindings::resume_incomplete_on_blur()` (`/repo/src/archon/render/impl/key_bindings.cpp:184-205`). -/
def resumeIncomplete (H : Handlers κ W) (s : State κ W) : Option (State κ W × Bool) := blurLoop H s.slots.length 0 s

/-- `KeyBindings::on_blur()` (`/repo/src/archon/render/impl/key_bindings.hpp:126-130`). -/
def onBlur (H : Handlers κ W) (s : State κ W) : Option (State κ W × Bool) := resumeIncomplete H { s with blur := true }

/-- `KeyBindings::resume_incomplete_on_blur_if_any()` (`/repo/src/archon/render/impl/key_bindings.hpp:133-138`). -/
def resumeIfAny (H : Handlers κ W) (s : State κ W) : Option (State κ W × Bool) :=
  if !s.blur then some (s, true) else resumeIncomplete H s

/-- An operation on the key bindings. -/
inductive Op (κ : Type) where
  | register
  | bind (b : Bind κ)
  | setMode (mode : ℕ)
  | keydown (k : κ) (timestamp : ℤ)
  | keyup (k : κ)
  | blur
  | resume

/-- Carry out an operation. -/
def step (H : Handlers κ W) : Op κ → State κ W → Option (State κ W)
  | .register, s => some (registerHandler s).1
  | .bind b, s => some (bindKey b s).1
  | .setMode mode, s => some { s with mode := mode }
  | .keydown k t, s => (onKeydown H k t s).map Prod.fst
  | .keyup k, s => (onKeyup H k s).map Prod.fst
  | .blur, s => (onBlur H s).map Prod.fst
  | .resume, s => (resumeIfAny H s).map Prod.fst

/-- Carry out a sequence of operations. -/
def run (H : Handlers κ W) : List (Op κ) → State κ W → Option (State κ W)
  | [], s => some s
  | op :: ops, s => (step H op s).bind (run H ops)

end

/-! ### Built-in handlers for modifier keys -/

/-- `EngineImpl::key_func_shift_modifier()`, `EngineImpl::key_func_control_modifier()`, `EngineImpl::key_func_alt_modifier()`, and
`EngineImpl::key_func_meta_modifier()` (`/repo/src/archon/render/noinst/engine_impl.cpp:539-592`). The first argument is the bit of the
modifier mode (`/repo/src/archon/render/key_binding_support.hpp:171-175`). Modifier modes are 32-bit unsigned integers. -/
def modifierFunc (bit : ℕ) (down : Bool) (mode : ℕ) : ℕ := if down then mode ||| bit else mode &&& (2 ^ 32 - 1 - bit)

/-- The handlers of the engine. The first four are those for the modifier modes. The remaining ones, including those that the application
registers, have no way of changing the modifier mode. -/
def engineHandlers {κ W : Type} (H : Handlers κ W) : Handlers κ W := fun i down world mode =>
  if i < 4 then { world := world, mode := modifierFunc (2 ^ i) down mode } else { H i down world mode with mode := mode }

/-- The part of `EngineImpl::try_init()` that concerns modifier keys (`/repo/src/archon/render/noinst/engine_impl.cpp:105-128`). The
specified function gives the keys: left and right shift, left and right control, left and right alt, left and right meta. -/
def engineInit {κ W : Type} [LinearOrder κ] (keys : ℕ → κ) (world : W) : State κ W :=
  (List.range 4).foldl (fun s i =>
    let (s, handler) := registerHandler s
    let s := (bindKey ⟨keys (2 * i), 0, 1, handler⟩ s).1
    (bindKey ⟨keys (2 * i + 1), 0, 1, handler⟩ s).1) { world := world }

end Verif.KeyBindings
