import Verif.KeyBindings.Model

/-!
# Specification of key bindings
-/

namespace Verif.KeyBindings.Spec

variable {κ W : Type} [LinearOrder κ]

/-- The calls that were caused by the specified key: index of handler, and whether it is for key down or key up. -/
def callsOf (k : κ) (calls : List (κ × ℕ × Bool)) : List (ℕ × Bool) := (calls.filter fun c => c.1 = k).map Prod.snd

/-- Every "key up" call comes right after the "key down" call of the same handler. -/
def UpFollowsDown (l : List (ℕ × Bool)) : Prop := ∀ a h b, l = a ++ (h, false) :: b → ∃ c, a = c ++ [(h, true)]

/-- Every "key down" call, except if it is the last call, is followed by the "key up" call of the same handler. -/
def DownFollowedByUp (l : List (ℕ × Bool)) : Prop := ∀ a h b, l = a ++ (h, true) :: b → b = [] ∨ ∃ c, b = (h, false) :: c

/-- Operations that make up the setup of key bindings. -/
def IsSetup : Op κ → Prop
  | .register => True
  | .bind _ => True
  | _ => False

/-- The operation does not bind the specified key. -/
def NotBind (k : κ) : Op κ → Prop
  | .bind b => b.key ≠ k
  | _ => True

/-- The position of each press in a series of quick presses. Presses are given by their time and the modifier mode. A press belongs to
the same series as the previous press if the modifier mode is the same, and the time between them is no more than 250 milliseconds. -/
def seriesPositions : Option (ℕ × ℤ × ℕ) → List (ℤ × ℕ) → List ℕ
  | _, [] => []
  | none, (t, m) :: l => 0 :: seriesPositions (some (0, t, m)) l
  | some (p, t', m'), (t, m) :: l =>
    let q := if m = m' ∧ t - t' ≤ 250 then p + 1 else 0
    q :: seriesPositions (some (q, t, m)) l

/-- The handler to which a key is bound by a series of requests: that of the last matching request. -/
def boundTo (bs : List (Bind κ)) (k : κ) (mode : ℕ) (mult : ℤ) : Option ℤ :=
  (bs.reverse.find? fun b => b.key = k ∧ b.mode = mode ∧ b.mult = mult).map Bind.handler

/-- Press and release a key a number of times. -/
def tapOps (k : κ) (taps : List (ℤ × ℕ)) : List (Op κ) := taps.flatMap fun t => [.setMode t.2, .keydown k t.1, .keyup k]

/-- The expected calls when pressing a key a number of times. -/
def tapCalls (bs : List (Bind κ)) (k : κ) (max : ℕ) (taps : List (ℤ × ℕ)) : List (κ × ℕ × Bool) :=
  (taps.zip (seriesPositions none taps)).flatMap fun x =>
    match boundTo bs k x.1.2 ((x.2 % max : ℕ) + 1) with
    | none => []
    | some h => [(k, h.toNat, true), (k, h.toNat, false)]

/-- The outstanding "key up" calls in the order of the keys. -/
def outstanding (l : List (κ × Slot)) : List (κ × ℕ × Bool) :=
  l.filterMap fun e => if e.2.pressed = true ∧ 0 ≤ e.2.handlerIndex then some (e.1, e.2.handlerIndex.toNat, false) else none

/-- Whether a key is held down after a series of operations. -/
def held (k : κ) (ops : List (Op κ)) : Bool :=
  ops.foldl (fun h op =>
    match op with
    | .keydown k' _ => if k' = k then true else h
    | .keyup k' => if k' = k then false else h
    | _ => h) false

/-- The documented modifier mode: a bit is set if, and only if one of the two corresponding keys is held down. -/
def documentedMode (keys : ℕ → κ) (ops : List (Op κ)) : ℕ :=
  ((List.range 4).map fun i => if held (keys (2 * i)) ops || held (keys (2 * i + 1)) ops then 2 ^ i else 0).sum

/-- Validity of the handler in a request. -/
def ValidBind (b : Bind κ) (n : ℕ) : Prop := 0 ≤ b.handler ∧ b.handler < n

/-- Handlers that do not bind keys. -/
def NoBinds (H : Handlers κ W) : Prop := ∀ i d w m, (H i d w m).binds = []

/-- No key is pressed. -/
def AllReleased (l : List (κ × Slot)) : Prop := ∀ e ∈ l, e.2.pressed = false

/-- The specified keys are different. -/
def Distinct (keys : ℕ → κ) : Prop := ∀ i j, i < 8 → j < 8 → keys i = keys j → i = j

/-- The request does not concern modifier keys, or the built-in handlers for those. -/
def Foreign (keys : ℕ → κ) (b : Bind κ) : Prop := 4 ≤ b.handler ∧ ∀ j, j < 8 → b.key ≠ keys j

/-- Operations that do not interfere with the built-in bindings of modifier keys. -/
def Allowed (keys : ℕ → κ) : Op κ → Prop
  | .bind b => Foreign keys b
  | .setMode _ => False
  | _ => True

/-- Operations that are presses and releases of keys. -/
def KeyOp : Op κ → Prop
  | .keydown _ _ => True
  | .keyup _ => True
  | _ => False

/-- Operations that do not bind built-in handlers under the shift modifier. -/
def ShiftSafe : Op κ → Prop
  | .bind b => 4 ≤ b.handler ∨ b.mode ≠ 1
  | .setMode _ => False
  | _ => True

end Verif.KeyBindings.Spec
