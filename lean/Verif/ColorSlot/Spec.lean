import Verif.ColorSlot.Model
/-!
What color slots are for: a slot has a color, namely the one that was last assigned to it, or else a default color, and the color can be had in
various forms.
-/
namespace Verif.ColorSlot.Spec

variable {α φ : Type} [DecidableEq α] [DecidableEq φ]

/-- The color of a slot: exactly as it was specified, with alpha component; or in representation `float_`. -/
inductive Color (α φ : Type) where
  | exact (color : List α)
  | neutral (color : List φ)

/-- The color that a slot gets by assignment: if it is specified in the format of the image, and the opacity is 1, it is kept exactly, and
otherwise it is converted to `float_` and multiplied by the opacity. -/
def assigned (s : Scheme α φ) (arg : Arg α φ) (opacity : φ) : Color α φ :=
  match arg with
  | .native color true => if opacity = s.one then .exact color else .neutral ((s.toFloat true color).map fun c => s.mul c opacity)
  | .native color false => if opacity = s.one then .exact (color ++ [s.max]) else .neutral ((s.toFloat false color ++ [s.one]).map fun c => s.mul c opacity)
  | .foreign color => .neutral (color.map fun c => s.mul c opacity)

/-- The color in representation `float_`. -/
def Color.toNeutral (s : Scheme α φ) : Color α φ → List φ
  | .exact color => s.toFloat true color
  | .neutral color => color

/-- The color in the representation of the image. -/
def Color.toExact (s : Scheme α φ) : Color α φ → List α
  | .exact color => color
  | .neutral color => s.fromFloat true color

/-- The color is opaque. -/
def Color.isSolid (s : Scheme α φ) : Color α φ → Bool
  | .exact color => color.getLast? == some s.max
  | .neutral color => color.getLast? == some s.one

/-- The color in the representation of the image, and blended with black if it is not opaque. -/
def Color.toSolid (s : Scheme α φ) : Color α φ → List α
  | .exact color => if color.getLast? = some s.max then color else s.fromFloat false (s.toFloat true color).dropLast ++ [s.max]
  | .neutral color => s.fromFloat false color.dropLast ++ [s.max]

/-- The request can be honored without conversion. -/
def isDirect (s : Scheme α φ) (q : Request) (c : Color α φ) : Bool :=
  q.sameRepr && q.sameSpace && (q.hasAlpha || s.isFloat || c.isSolid s)

/-- The color in the requested form. -/
def Color.get (s : Scheme α φ) (q : Request) (c : Color α φ) : Out α φ :=
  if isDirect s q c then .exact (if q.hasAlpha then c.toExact s else (c.toExact s).dropLast) else .converted (c.toNeutral s)

/-- The color of each slot after an operation. -/
def after (s : Scheme α φ) (op : Op α φ) (colors : Slot → Color α φ) : Slot → Color α φ :=
  match op with
  | .set slot arg opacity => fun s' => if s' = slot then assigned s arg opacity else colors s'
  | _ => colors

/-- The result of an operation. -/
def result (s : Scheme α φ) (op : Op α φ) (colors : Slot → Color α φ) : Result α φ :=
  match op with
  | .set _ _ _ => .nothing
  | .get slot q => .color ((colors slot).get s q)
  | .neutral slot => .color (.converted ((colors slot).toNeutral s))
  | .restricted slot => .color (.exact ((colors slot).toSolid s))
  | .unrestricted slot => .color (.exact ((colors slot).toExact s))
  | .solid slot => .solid ((colors slot).isSolid s)

/-- The results of a sequence of operations. -/
def results (s : Scheme α φ) : List (Op α φ) → (Slot → Color α φ) → List (Result α φ)
  | [], _ => []
  | op :: ops, colors => result s op colors :: results s ops (after s op colors)

/-- The color of each slot after a sequence of operations. -/
def final (s : Scheme α φ) (ops : List (Op α φ)) (colors : Slot → Color α φ) : Slot → Color α φ :=
  ops.foldl (fun colors op => after s op colors) colors

/-- The default colors. -/
def defaults (s : Scheme α φ) (dflt : Slot → Arg α φ) (slot : Slot) : Color α φ := assigned s (dflt slot) s.one

/-- The number of components of the color is right, when there are `k` channels including an alpha channel. -/
def ArgOk (k : Nat) : Arg α φ → Prop
  | .native color hasAlpha => color.length + (!hasAlpha).toNat = k
  | .foreign color => color.length = k

/-- The numbers of components are right. -/
def OpOk (k : Nat) : Op α φ → Prop
  | .set _ arg _ => ArgOk k arg
  | _ => True

/-- What is assumed about the arithmetic of components: division by 1 changes nothing, and maximum intensity corresponds to 1. -/
structure Laws (s : Scheme α φ) : Prop where
  unmul : ∀ x, s.unmul s.one x = x
  alpha : s.fromAlpha s.one = s.max
  color : s.isFloat = true → s.fromColor s.one = s.max

end Verif.ColorSlot.Spec
