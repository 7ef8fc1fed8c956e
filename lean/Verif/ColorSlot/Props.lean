import Verif.ColorSlot.Lemmas
/-!
Color slots of image readers (C93).
-/
namespace Verif.ColorSlot
open Verif.ImageIter Spec

variable {α φ : Type} [DecidableEq α] [DecidableEq φ]

/-- What is assumed about the default colors: the numbers of components are right, and if an opaque one is specified in the format of
the image (as white is for 8-bit RGB and RGBA images), then it is not changed by being converted to `float_` and back. -/
structure DefaultsOk (s : Scheme α φ) (k : Nat) (dflt : Slot → Arg α φ) : Prop where
  len : ∀ slot, ArgOk k (dflt slot)
  white : ∀ slot l, defaults s dflt slot = .exact l → (defaults s dflt slot).isSolid s = true →
    s.fromFloat false (s.toFloat true l).dropLast ++ [s.max] = l

/-- Color slots: In every sequence of operations on a reader, no matter which of the forms of a color happen to be there already, each operation
gives what the color that was last assigned to the slot, or else the default color, calls for. There is no undefined behavior, and no
assertion fails. -/
theorem C93_results (s : Scheme α φ) (k : Nat) (dflt : Slot → Arg α φ) (ops : List (Op α φ)) (hk : 0 < k) (hs : Laws s)
    (hd : DefaultsOk s k dflt) (ho : ∀ op ∈ ops, OpOk k op) :
    ∃ st, run s k dflt ops init = some (st, results s ops (defaults s dflt)) := by
  obtain ⟨st, e, _⟩ := run_inv hk hs hd.len hd.white ops init _ ho (init_inv s k dflt)
  exact ⟨st, e⟩

theorem run_append (s : Scheme α φ) (k : Nat) (dflt : Slot → Arg α φ) (ops ops' : List (Op α φ)) (st : State α φ) :
    run s k dflt (ops ++ ops') st = (run s k dflt ops st).bind fun p => (run s k dflt ops' p.1).map fun p' => (p'.1, p.2 ++ p'.2) := by
  induction ops generalizing st with
  | nil => simp [run]
  | cons op ops ih =>
    simp only [List.cons_append, run, Option.bind_eq_bind]
    cases step s k dflt op st with
    | none => rfl
    | some p =>
      simp only [Option.bind_some, ih]
      cases run s k dflt ops p.1 with
      | none => rfl
      | some p =>
        simp only [Option.bind_some]
        cases run s k dflt ops' p.1 <;> rfl

/-- The color of a slot is the one last assigned to it. -/
theorem final_set {s : Scheme α φ} {slot : Slot} {arg : Arg α φ} {opacity : φ} (ops : List (Op α φ)) (colors : Slot → Color α φ)
    (h : ∀ arg' opacity', .set slot arg' opacity' ∉ ops) : final s (.set slot arg opacity :: ops) colors slot = assigned s arg opacity := by
  have key : ∀ (ops : List (Op α φ)) (colors : Slot → Color α φ), (∀ arg' opacity', .set slot arg' opacity' ∉ ops) →
      final s ops colors slot = colors slot := by
    intro ops
    induction ops with
    | nil => intro _ _; rfl
    | cons op ops ih =>
      intro colors h
      show final s ops (after s op colors) slot = _
      rw [ih _ fun a o => by have := h a o; simp at this; exact this.2]
      cases op with
      | set slot' arg' opacity' =>
        have : slot ≠ slot' := by
          rintro rfl
          exact h arg' opacity' (by simp)
        simp [after, this]
      | _ => rfl
  show final s ops (after s _ colors) slot = _
  rw [key _ _ h]
  simp [after]

/-- Exact colors: If a color is assigned to a slot in the representation and color space of the image, and with opacity 1, and if it is retrieved
later in the same format, then what is had is exactly the color that was assigned, no matter what happens before and in between, as long as nothing
else is assigned to the slot. An alpha component of maximum value is added if the color was specified without alpha component, and the
alpha component is left out if that is asked for, and the color is opaque. -/
theorem C93_exact (s : Scheme α φ) (k : Nat) (dflt : Slot → Arg α φ) (before between : List (Op α φ)) (slot : Slot) (color : List α)
    (alpha wanted : Bool) (hk : 0 < k) (hs : Laws s) (hd : DefaultsOk s k dflt) (hb : ∀ op ∈ before, OpOk k op)
    (ho : ∀ op ∈ between, OpOk k op) (hc : color.length + (!alpha).toNat = k) (hn : ∀ arg opacity, .set slot arg opacity ∉ between)
    (hw : wanted = true ∨ alpha = false ∨ color.getLast? = some s.max) :
    ∃ st res, run s k dflt (before ++ (.set slot (.native color alpha) s.one :: between)) init = some (st, res) ∧
      ∃ st', getColor s k dflt slot ⟨true, true, wanted⟩ st =
        some (st', .exact ((if alpha then color else color ++ [s.max]).take (k - if wanted then 0 else 1))) := by
  obtain ⟨st1, e1, h1⟩ := run_inv hk hs hd.len hd.white before init _ hb (init_inv s k dflt)
  obtain ⟨st2, e2, h2⟩ := run_inv hk hs hd.len hd.white (.set slot (.native color alpha) s.one :: between) st1 _
    (fun op h => by
      rcases List.mem_cons.mp h with rfl | h
      · exact hc
      · exact ho op h) h1
  refine ⟨st2, _, by rw [run_append, e1, Option.bind_some, e2]; rfl, ?_⟩
  obtain ⟨st3, e3, _⟩ := getColor_inv hk hd.len h2 slot ⟨true, true, wanted⟩
  refine ⟨st3, ?_⟩
  rw [e3, final_set between _ hn]
  have hass : assigned s (.native color alpha : Arg α φ) s.one = .exact (if alpha then color else color ++ [s.max]) := by
    cases alpha <;> simp [assigned]
  have hlen : (if alpha then color else color ++ [s.max]).length = k := by cases alpha <;> simp at hc ⊢ <;> omega
  have hdir : isDirect s ⟨true, true, wanted⟩ (.exact (if alpha then color else color ++ [s.max]) : Color α φ) = true := by
    cases wanted with
    | true => simp [isDirect]
    | false =>
      simp only [isDirect, Color.isSolid]
      cases alpha with
      | false => simp
      | true => simp at hw; simp [hw]
  rw [hass, Color.get, if_pos hdir]
  cases wanted with
  | true => simp [Color.toExact, ← hlen]
  | false => simp [Color.toExact, List.dropLast_eq_take, hlen]

theorem results_length (s : Scheme α φ) (ops : List (Op α φ)) (colors : Slot → Color α φ) : (results s ops colors).length = ops.length := by
  induction ops generalizing colors with
  | nil => rfl
  | cons op ops ih => simp [results, ih]

/-- Repetition: Retrieval of colors has no effect on any later result, that is, results are the same when retrievals are left out. -/
theorem C93_pure (s : Scheme α φ) (k : Nat) (dflt : Slot → Arg α φ) (before after : List (Op α φ)) (op : Op α φ) (hk : 0 < k) (hs : Laws s)
    (hd : DefaultsOk s k dflt) (hb : ∀ op ∈ before, OpOk k op) (ho : ∀ op ∈ after, OpOk k op) (hop : ∀ slot arg opacity, op ≠ .set slot arg opacity) :
    ∃ st st' res res' r, run s k dflt (before ++ after) init = some (st, res ++ res') ∧
      run s k dflt (before ++ op :: after) init = some (st', res ++ r :: res') ∧ res.length = before.length := by
  obtain ⟨st1, e1, h1⟩ := run_inv hk hs hd.len hd.white before init _ hb (init_inv s k dflt)
  have hok : OpOk k op := by
    cases op with
    | set slot arg opacity => exact absurd rfl (hop slot arg opacity)
    | _ => trivial
  obtain ⟨st2, e2, _⟩ := run_inv hk hs hd.len hd.white after st1 _ ho h1
  obtain ⟨st3, e3, h3⟩ := step_inv hk hs hd.len hd.white h1 op hok
  have ha : Spec.after s op (final s before (defaults s dflt)) = final s before (defaults s dflt) := by
    cases op with
    | set slot arg opacity => exact absurd rfl (hop slot arg opacity)
    | _ => rfl
  rw [ha] at h3
  obtain ⟨st4, e4, _⟩ := run_inv hk hs hd.len hd.white after st3 _ ho h3
  refine ⟨st2, st4, results s before (defaults s dflt), results s after (final s before (defaults s dflt)),
    result s op (final s before (defaults s dflt)), ?_, ?_, ?_⟩
  · rw [run_append, e1, Option.bind_some, e2]; rfl
  · rw [run_append, e1, Option.bind_some]
    simp [run, e3, e4]
  · exact results_length s before _

/-- White: If maximum intensity corresponds to 1, then the assumption about opaque default colors holds for white. -/
theorem white_ok (s : Scheme α φ) (n : Nat) (h1 : s.toColor s.max = s.one) (h2 : s.isFloat = true ∨ s.toAlpha s.max = s.one ∧ s.mul s.one s.one = s.one)
    (h3 : s.fromColor s.one = s.max) :
    s.fromFloat false (s.toFloat true (List.replicate n s.max ++ [s.max])).dropLast ++ [s.max] = List.replicate n s.max ++ [s.max] := by
  simp only [Scheme.toFloat, Scheme.fromFloat, Bool.not_true, Bool.or_false, Bool.not_false, Bool.or_true, if_true]
  split
  · simp [h1, h3]
  · rename_i hf
    rcases h2 with h2 | ⟨h2, h4⟩
    · exact absurd h2 hf
    · simp [h1, h2, h3, h4]

/-! ### Examples -/

/-- Components from 0 to 4, fractions of type `Int` as multiples of 1/16, and no gamma compression. -/
def quarters : Scheme Nat Int where
  isFloat := false
  max := 4
  one := 16
  mul a b := a * b / 16
  unmul a b := if a = 0 then 0 else b * 16 / a
  toColor c := 4 * c
  toAlpha c := 4 * c
  fromColor x := (x / 4).toNat
  fromAlpha x := (x / 4).toNat

/-- The default colors of a two-channel (luminance and alpha) image. -/
def blackAndWhite : Slot → Arg Nat Int
  | .background => .native [0, 0] true
  | .foreground => .native [4, 4] true

theorem quarters_laws : Laws quarters := ⟨by intro x; simp [quarters], by decide, by decide⟩

theorem blackAndWhite_ok : DefaultsOk quarters 2 blackAndWhite := by
  refine ⟨by intro slot; cases slot <;> rfl, ?_⟩
  intro slot l h hs
  cases slot with
  | background => exact absurd hs (by decide)
  | foreground =>
    have : l = [4, 4] := by simp [defaults, blackAndWhite, assigned] at h; exact h.symm
    subst this
    decide

example : ∃ st, run quarters 2 blackAndWhite
      [.restricted .foreground, .unrestricted .foreground, .set .background (.native [3, 2] true) 16, .neutral .background,
        .restricted .background, .get .background ⟨true, true, true⟩, .get .background ⟨true, true, false⟩,
        .set .background (.native [3] false) 8, .solid .background, .unrestricted .background, .get .foreground ⟨true, true, false⟩,
        .set .foreground (.foreign [12, 16]) 16, .unrestricted .foreground, .restricted .foreground] init =
    some (st, [.color (.exact [4, 4]), .color (.exact [4, 4]), .nothing, .color (.converted [6, 8]), .color (.exact [1, 4]),
      .color (.exact [3, 2]), .color (.converted [6, 8]), .nothing, .solid false, .color (.exact [3, 2]), .color (.exact [4]),
      .nothing, .color (.exact [3, 4]), .color (.exact [3, 4])]) :=
  C93_results quarters 2 blackAndWhite _ (by decide) quarters_laws blackAndWhite_ok (by simp [OpOk, ArgOk])

example : (run quarters 2 blackAndWhite [.set .background (.native [3] false) 16, .neutral .background, .get .background ⟨true, true, true⟩]
    init).map (·.2) = some [.nothing, .color (.converted [12, 16]), .color (.exact [3, 4])] := rfl

example : ∃ st res, run quarters 2 blackAndWhite [.set .background (.native [1, 1] true) 16, .restricted .background] init = some (st, res) ∧
    ∃ st', getColor quarters 2 blackAndWhite .background ⟨true, true, true⟩ st = some (st', .exact [1, 1]) :=
  C93_exact quarters 2 blackAndWhite [] [.restricted .background] .background [1, 1] true true (by decide) quarters_laws blackAndWhite_ok
    (by simp) (by simp [OpOk]) rfl (by simp) (.inl rfl)

example : ∃ st st' res res' r, run quarters 2 blackAndWhite ([] ++ [.restricted .foreground]) init = some (st, res ++ res') ∧
    run quarters 2 blackAndWhite ([] ++ .unrestricted .foreground :: [.restricted .foreground]) init = some (st', res ++ r :: res') ∧
    res.length = ([] : List (Op Nat Int)).length :=
  C93_pure quarters 2 blackAndWhite [] [.restricted .foreground] (.unrestricted .foreground) (by decide) quarters_laws blackAndWhite_ok
    (by simp) (by simp [OpOk]) (by simp)

end Verif.ColorSlot
