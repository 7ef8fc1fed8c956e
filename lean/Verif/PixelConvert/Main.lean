import Verif.PixelConvert.Lemmas
/-!
The outcome of conversion of pixels.
-/
namespace Verif.PixelConvert
open Verif.ImageIter Spec

variable {α δ φ : Type}

/-- Conversion to floating-point components gives the meaning. -/
theorem toFloat_eq {ar : Arith φ} {R : Repr α φ} (hR : Lawful ar R) (p : Pixel α) :
    reprConverted ar R (floatRepr ar) R.toColor p = ⟨(p.meaning ar R).1, p.alpha.map R.toAlpha⟩ := by
  unfold reprConverted Pixel.meaning
  cases hf : R.isFloat with
  | true =>
    cases ha : p.alpha with
    | none => simp [floatRepr, direct, hf]
    | some a => simp [floatRepr, direct, hf, hR.floatTo hf]
  | false =>
    cases ha : p.alpha with
    | none => simp [floatRepr]
    | some a => simp [floatRepr]

/-- Conversion from floating-point components expresses the meaning. -/
theorem fromFloat_eq {ar : Arith φ} {S : Repr δ φ} (hS : Lawful ar S) (c : List φ) (b : Bool) (a : φ) :
    reprConverted ar (floatRepr ar) S S.fromColor ⟨c, if b then some a else none⟩ = express ar S b (c, a) := by
  unfold reprConverted express
  cases hf : S.isFloat with
  | true => cases b <;> simp [floatRepr, direct, hS.floatFrom hf]
  | false => cases b <;> simp [floatRepr]

theorem loadN_ok {l l' : List φ} {m m' : Mem φ} (h : Wrote (l ++ l') m m') : loadN m' l.length = some l := by
  refine ColorSlot.mapM_range rfl fun j hj => ?_
  rw [Wrote.load h (by simp; omega), List.getElem?_append_left hj]

/-- The first components are as specified. -/
def Has (l : List φ) (m : Mem φ) : Prop := ∀ j : Nat, j < l.length → m j = some l[j]?

theorem Wrote.has {l : List φ} {m m' : Mem φ} (h : Wrote l m m') : Has l m' := by
  intro j hj
  rw [h, dif_pos (by omega)]
  simp [List.getElem?_eq_getElem hj]

theorem Has.load {l : List φ} {m : Mem φ} (h : Has l m) {j : Nat} (hj : j < l.length) : load m j = l[j]? := by
  unfold ImageIter.load
  rw [h j hj]
  rfl

theorem Has.prefix {l l' : List φ} {m : Mem φ} (h : Has (l ++ l') m) : Has l m := by
  intro j hj
  rw [h j (by simp; omega), List.getElem?_append_left hj]

theorem Has.store {l : List φ} {m : Mem φ} (h : Has l m) {n : Nat} (hn : n = l.length) (v : φ) (hr : m n ≠ none) :
    ∃ m', store m n v = some m' ∧ Has (l ++ [v]) m' := by
  refine ⟨_, store_eq v hr, fun j hj => ?_⟩
  subst hn
  by_cases e : j = l.length
  · subst e
    simp
  · have : j < l.length := by simp at hj; omega
    rw [if_neg (by omega), h j this, List.getElem?_append_left this]

theorem colorSpaceConvert_ok {route : Route φ} (hk : RouteOk route) {c l : List φ} {a : φ} {m : Mem φ} {k : Nat} (hc : c.length = route.origin.channels)
    (hm : Has (c ++ l) m) (hr : Room k m) (hd : route.destin.channels ≤ k) :
    ∃ m', colorSpaceConvert route a m = some m' ∧ Has (moved route (c, a)).1 m' ∧ Room k m' ∧ (moved route (c, a)).1.length = route.destin.channels ∧
      ∀ b : Int, (route.destin.channels : Int) ≤ b → m' b = m b := by
  have hload : loadN m c.length = some c := by
    refine ColorSlot.mapM_range rfl fun j hj => ?_
    rw [Has.load hm (by simp; omega), List.getElem?_append_left hj]
  have key : ∀ l' : List φ, l'.length ≤ k → ∃ m', storeN m l' = some m' ∧ Has l' m' ∧ Room k m' ∧
      ∀ b : Int, (l'.length : Int) ≤ b → m' b = m b := by
    intro l' hl'
    obtain ⟨m', e, w⟩ := put_wrote (l := l') (m := m) (fun j hj => hr j (by omega))
    exact ⟨m', e, Wrote.has w, Wrote.room w hr, fun b hb => by rw [w, dif_neg (by omega)]⟩
  match route, hk with
  | .same s, _ => exact ⟨m, rfl, hm.prefix, hr, hc, fun _ _ => rfl⟩
  | .other o d none, hk =>
    have hlen : (d.fromRgb (o.toRgb c a) a).length = d.channels := hk _ _
    obtain ⟨m', e, h1, h2, h3⟩ := key _ (by rw [hlen]; exact hd)
    refine ⟨m', ?_, h1, h2, hlen, by rwa [hlen] at h3⟩
    replace hc : c.length = o.channels := hc
    simp only [colorSpaceConvert, colorSpaceConvertImpl, ← hc, hload, Option.bind_eq_bind, Option.bind_some]
    exact e
  | .other o d (some f), ⟨k1, k2, k3⟩ =>
    have hlen : (f c a).length = d.channels := k3 _ _
    obtain ⟨m', e, h1, h2, h3⟩ := key _ (by rw [hlen]; exact hd)
    refine ⟨m', ?_, h1, h2, hlen, by rwa [hlen] at h3⟩
    replace hc : c.length = o.channels := hc
    simp only [colorSpaceConvert, colorSpaceConvertImpl, ← hc, hload, Option.bind_eq_bind, Option.bind_some, k1, k2]
    exact e

theorem meaning_length (ar : Arith φ) (R : Repr α φ) (p : Pixel α) : (p.meaning ar R).1.length = p.color.length := by
  unfold Pixel.meaning
  cases p.alpha <;> simp

theorem meaning_alpha (ar : Arith φ) (R : Repr α φ) (p : Pixel α) : (p.meaning ar R).2 = (p.alpha.map R.toAlpha).getD ar.one := by
  unfold Pixel.meaning
  cases p.alpha <;> simp

theorem moved_snd (route : Route φ) (c : List φ × φ) : (moved route c).2 = c.2 := by
  unfold moved
  split <;> rfl

theorem floatConvert_ok {ar : Arith φ} {R : Repr α φ} {S : Repr δ φ} (hR : Lawful ar R) (hS : Lawful ar S) {g : α → δ} {route : Route φ}
    (hk : RouteOk route) (p : Pixel α) (hp : p.color.length = route.origin.channels) {origin : Nat → Option α}
    (ho : ∀ j, j < p.comps.length → origin j = p.comps[j]?) {b b' : Bool} (hb : b = p.alpha.isSome) {m : Mem δ} {im : Mem φ}
    (h0 : 0 < route.origin.channels + b.toNat) (h0' : 0 < route.destin.channels + b'.toNat)
    (hr : Room (route.destin.channels + b'.toNat) m)
    (hi : Room (max (route.origin.channels + b.toNat) (route.destin.channels + b'.toNat)) im) :
    ∃ m', floatConvert ar R S g route origin b m b' im = some m' ∧
      Wrote (express ar S b' (moved route (p.meaning ar R))).comps m m' := by
  subst hb
  have hlen := comps_length p
  obtain ⟨m1, e1, w1⟩ := compReprConvert_ok ar R (floatRepr ar) R.toColor p (m := im) (n := route.origin.channels + p.alpha.isSome.toNat)
    (by omega) h0 rfl (fun j hj => ho j (by omega)) (fun j hj => hi j (by omega))
  rw [toFloat_eq hR] at w1
  have hr1 := Wrote.room w1 hi
  have hm1 := Wrote.has w1
  simp only [Pixel.comps] at hm1
  have hml := meaning_length ar R p
  have ha : (if p.alpha.isSome then load m1 ((route.origin.channels + p.alpha.isSome.toNat - 1 : Nat) : Int) else some ar.one) =
      some (p.meaning ar R).2 := by
    rw [meaning_alpha]
    cases hal : p.alpha with
    | none => rfl
    | some a =>
      rw [hal] at hm1
      simp only [Option.isSome_some, if_true, Bool.toNat_true, Nat.add_sub_cancel]
      rw [Has.load hm1 (by simp [hml, hp])]
      rw [← hp, ← hml]
      simp
  obtain ⟨m2, e2, hm2, hr2, hl2, _⟩ := colorSpaceConvert_ok hk (a := (p.meaning ar R).2) (hml.trans hp) hm1 hr1 (by omega)
  have hmv : ((moved route (p.meaning ar R)).1, (p.meaning ar R).2) = moved route (p.meaning ar R) := by
    rw [← moved_snd route (p.meaning ar R)]
  have h3 : ∃ m3, (if b' then store m2 ((route.destin.channels + b'.toNat - 1 : Nat) : Int) (p.meaning ar R).2 else some m2) = some m3 ∧
      Has (Pixel.comps ⟨(moved route (p.meaning ar R)).1, if b' then some (p.meaning ar R).2 else none⟩) m3 := by
    cases b' with
    | false => exact ⟨m2, rfl, by simpa [Pixel.comps] using hm2⟩
    | true =>
      obtain ⟨m3, e3, h3⟩ := hm2.store (n := route.destin.channels) hl2.symm (p.meaning ar R).2 (hr2 _ (by simp))
      exact ⟨m3, e3, by simpa [Pixel.comps] using h3⟩
  obtain ⟨m3, e3, hm3⟩ := h3
  have hcl : (Pixel.comps ⟨(moved route (p.meaning ar R)).1, if b' then some (p.meaning ar R).2 else none⟩).length = route.destin.channels + b'.toNat := by
    rw [comps_length]; cases b' <;> simp [hl2]
  obtain ⟨m4, e4, w4⟩ := compReprConvert_ok ar (floatRepr ar) S S.fromColor
    ⟨(moved route (p.meaning ar R)).1, if b' then some (p.meaning ar R).2 else none⟩ (origin := fun i => load m3 (i : Int)) (m := m)
    (n := route.destin.channels + b'.toNat) (b := b') hcl.symm h0' (by cases b' <;> rfl)
    (fun j hj => hm3.load (by omega)) hr
  rw [fromFloat_eq hS, hmv] at w4
  refine ⟨m4, ?_, w4⟩
  simp only [floatConvert, e1, Option.bind_eq_bind, Option.bind_some, ha, e2, e3]
  exact e4

/-- The outcome when no conversion to floating-point is needed. -/
def kept (S : Repr δ φ) (g : α → δ) (b' : Bool) (p : Pixel α) : Pixel δ := ⟨p.color.map g, if b' then some ((p.alpha.map g).getD S.max) else none⟩

theorem intConvert_ok {S : Repr δ φ} {g : α → δ} (p : Pixel α) {n : Nat} (hp : p.color.length = n) {origin : Nat → Option α}
    (ho : ∀ j, j < p.comps.length → origin j = p.comps[j]?) {b' : Bool} {m : Mem δ} (hr : Room (n + b'.toNat) m) :
    ∃ m', intConvert S g origin m (n + p.alpha.isSome.toNat) (n + b'.toNat) = some m' ∧ Wrote (kept S g b' p).comps m m' := by
  have hlen := comps_length p
  obtain ⟨m1, e1, w1⟩ := fill_wrote (f := fun i => (origin i).map g) (l := (p.comps.map g).take (min (n + p.alpha.isSome.toNat) (n + b'.toNat)))
    (m := m) (n := min (n + p.alpha.isSome.toNat) (n + b'.toNat)) (by simp; omega) (fun j hj => hr j (by omega))
    (fun j hj => by
      show (origin j).map g = _
      rw [ho j (by omega), List.getElem?_take_of_lt hj, List.getElem?_map])
  simp only [intConvert, e1, Option.bind_eq_bind, Option.bind_some]
  cases ha : p.alpha with
  | none =>
    rw [ha] at w1
    cases b' with
    | false =>
      refine ⟨m1, by simp, ?_⟩
      simpa [kept, Pixel.comps, ha, ← hp, List.take_of_length_le] using w1
    | true =>
      obtain ⟨m2, e2, w2⟩ := Wrote.store w1 (n := n) (by simp [Pixel.comps, ha, hp]) S.max (hr n (by simp))
      refine ⟨m2, by simpa using e2, ?_⟩
      simpa [kept, Pixel.comps, ha, ← hp, List.take_of_length_le] using w2
  | some a =>
    rw [ha] at w1
    cases b' with
    | false =>
      refine ⟨m1, by simp, ?_⟩
      simpa [kept, Pixel.comps, ha, ← hp, List.take_of_length_le] using w1
    | true =>
      refine ⟨m1, by simp, ?_⟩
      simpa [kept, Pixel.comps, ha, ← hp, List.take_of_length_le] using w1

/-- The outcome of the short circuit. -/
def directly (ar : Arith φ) (R : Repr α φ) (S : Repr δ φ) (g : α → δ) (b' : Bool) (p : Pixel α) : Pixel δ :=
  let q := reprConverted ar R S g ⟨p.color, if b' then p.alpha else none⟩
  ⟨q.color, if b' then some (q.alpha.getD S.max) else none⟩

theorem reprConverted_alpha (ar : Arith φ) (R : Repr α φ) (S : Repr δ φ) (g : α → δ) (p : Pixel α) :
    (reprConverted ar R S g p).alpha.isSome = p.alpha.isSome ∧ (reprConverted ar R S g p).color.length = p.color.length := by
  unfold reprConverted
  split
  · simp
  · cases p.alpha <;> simp

theorem shortConvert_ok (ar : Arith φ) (R : Repr α φ) (S : Repr δ φ) (g : α → δ) (p : Pixel α) (h0 : 0 < p.color.length) (b' : Bool) {m : Mem δ}
    (hr : Room (p.color.length + b'.toNat) m) :
    ∃ m', shortConvert ar R S g (fun i => p.comps[i]?) p.alpha.isSome m b' p.color.length = some m' ∧ Wrote (directly ar R S g b' p).comps m m' := by
  have hlen := comps_length p
  obtain ⟨ra, rl⟩ := reprConverted_alpha ar R S g ⟨p.color, if b' then p.alpha else none⟩
  have hle := comps_length (⟨p.color, if b' then p.alpha else none⟩ : Pixel α)
  obtain ⟨m1, e1, w1⟩ := compReprConvert_ok ar R S g ⟨p.color, if b' then p.alpha else none⟩ (origin := fun i => p.comps[i]?) (m := m)
    (n := if p.alpha.isSome && !b' then p.color.length else p.color.length + p.alpha.isSome.toNat)
    (b := if p.alpha.isSome && !b' then false else p.alpha.isSome)
    (by rw [hle]; cases b' <;> cases p.alpha <;> simp) (by split <;> omega) (by cases b' <;> cases p.alpha <;> simp)
    (by
      intro j hj
      cases b' with
      | true => rfl
      | false =>
        have : j < p.color.length := by cases ha : p.alpha <;> simpa [ha] using hj
        simp only [Pixel.comps]
        rw [List.getElem?_append_left this]
        simp)
    (by
      intro j hj
      refine hr j (lt_of_lt_of_le hj ?_)
      cases b' <;> cases p.alpha <;> simp)
  simp only [shortConvert, e1, Option.bind_eq_bind, Option.bind_some]
  unfold directly
  generalize reprConverted ar R S g ⟨p.color, if b' then p.alpha else none⟩ = q at *
  cases b' with
  | false =>
    refine ⟨m1, by simp, ?_⟩
    have : q.alpha = none := by simpa using ra
    simpa [Pixel.comps, this] using w1
  | true =>
    cases ha : p.alpha with
    | none =>
      have hq : q.alpha = none := by simpa [ha] using ra
      obtain ⟨m2, e2, w2⟩ := Wrote.store w1 (n := p.color.length) (by simp [Pixel.comps, hq, rl]) S.max (hr _ (by simp))
      refine ⟨m2, by simpa using e2, ?_⟩
      simpa [Pixel.comps, hq] using w2
    | some a =>
      obtain ⟨c, hq⟩ := Option.isSome_iff_exists.mp (by simpa [ha] using ra : q.alpha.isSome = true)
      refine ⟨m1, by simp, ?_⟩
      simpa [Pixel.comps, hq] using w1

theorem directly_int {ar : Arith φ} {R : Repr α φ} {S : Repr δ φ} (_hR : Lawful ar R) (_hS : Lawful ar S) (g : α → δ) (p : Pixel α) {b' : Bool}
    (h1 : R.isFloat = false) (h2 : S.isFloat = false) : directly ar R S g b' p = kept S g b' p := by
  have : direct R S g = g := by funext c; simp [direct, h1]
  unfold directly reprConverted kept
  rw [if_pos (h1.trans h2.symm), this]
  cases b' <;> simp

theorem directly_eq {ar : Arith φ} {R : Repr α φ} {S : Repr δ φ} (hR : Lawful ar R) (hS : Lawful ar S) (g : α → δ) (p : Pixel α) {b' : Bool}
    (h : R.isFloat = true ∨ p.alpha = none ∨ Solid R p ∨ b' = true) (hn : ¬(R.isFloat = false ∧ S.isFloat = false ∧ (Solid R p ∨ b' = true))) :
    directly ar R S g b' p = express ar S b' (p.meaning ar R) := by
  have hsol : p.alpha = none → Solid R p := fun h a ha => by rw [h] at ha; cases ha
  unfold directly reprConverted express Pixel.meaning
  cases hf : R.isFloat with
  | true =>
    cases hg : S.isFloat with
    | true =>
      cases b' <;> cases ha : p.alpha <;> simp [direct, hf, hR.floatTo hf, hS.floatFrom hg, ← hS.fromOne]
    | false =>
      cases b' <;> cases ha : p.alpha <;> simp [hS.unmulOne, hS.fromOne]
  | false =>
    cases hg : S.isFloat with
    | true =>
      cases b' with
      | true => cases ha : p.alpha <;> simp [hS.fromOne]
      | false =>
        cases ha : p.alpha with
        | none => simp
        | some a =>
          have : Solid R p := by
            rcases h with h | h | h | h
            · rw [hf] at h; cases h
            · exact hsol h
            · exact h
            · cases h
          obtain rfl := this a ha
          simp [hR.toMax, hR.mulOne]
    | false =>
      exfalso
      refine hn ⟨hf, hg, ?_⟩
      rcases h with h | h | h | h
      · rw [hf] at h; cases h
      · exact .inl (hsol h)
      · exact .inl h
      · exact .inr h

end Verif.PixelConvert
