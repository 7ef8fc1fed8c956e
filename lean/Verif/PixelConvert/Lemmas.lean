import Verif.PixelConvert.Spec
import Verif.ImageIter.Lemmas
import Verif.ColorSlot.Lemmas
/-!
Lemmas about the model of conversion of pixels.
-/
namespace Verif.PixelConvert
open Verif.ImageIter Spec

variable {α δ φ : Type}

theorem fill_eq {f : Nat → Option δ} {l : List δ} : ∀ (n i : Nat) (m : Mem δ), (∀ j, i ≤ j → j < i + n → f j = l[j]?) →
    fill f n i m = put l 0 n i m := by
  intro n
  induction n with
  | zero => intro i m _; rfl
  | succ n ih =>
    intro i m h
    rw [fill, put, h i (le_refl _) (by omega)]
    have : ∀ m', fill f n (i + 1) m' = put l 0 n (i + 1) m' := fun m' => ih (i + 1) m' fun j h1 h2 => h j (by omega) (by omega)
    simp only [Int.zero_add, this]

theorem put_wrote {l : List δ} {m : Mem δ} (h : Room l.length m) : ∃ m', put l 0 l.length 0 m = some m' ∧ Wrote l m m' := by
  obtain ⟨m', e, h1, h2⟩ := put_spec (pixel := l) (destin := 0) l.length 0 m (by omega) (fun j _ hj => by
    rw [Int.zero_add]; exact h j (by omega))
  refine ⟨m', e, fun a => ?_⟩
  split
  · rename_i ha
    have := h1 a.toNat (by omega) (by omega)
    rw [show (0 : Int) + (a.toNat : Int) = a by omega] at this
    rw [this, List.getElem?_eq_getElem]
  · rename_i ha
    exact h2 a fun j _ hj => by omega

theorem fill_wrote {f : Nat → Option δ} {l : List δ} {m : Mem δ} {n : Nat} (hl : l.length = n) (h : Room n m)
    (hf : ∀ j, j < n → f j = l[j]?) : ∃ m', fill f n 0 m = some m' ∧ Wrote l m m' := by
  subst hl
  rw [fill_eq (l := l) _ _ _ fun j _ hj => hf j (by omega)]
  exact put_wrote h

theorem Wrote.room {l : List δ} {m m' : Mem δ} {k : Nat} (h : Wrote l m m') (hr : Room k m) : Room k m' := by
  intro j hj
  rw [h]
  split
  · simp
  · exact hr j hj

theorem Wrote.load {l : List δ} {m m' : Mem δ} (h : Wrote l m m') {j : Nat} (hj : j < l.length) : load m' j = l[j]? := by
  unfold ImageIter.load
  rw [h, dif_pos (by omega)]
  simp [List.getElem?_eq_getElem hj]

theorem Wrote.store {l : List δ} {m m' : Mem δ} (h : Wrote l m m') {n : Nat} (hn : n = l.length) (v : δ) (hr : m n ≠ none) :
    ∃ m'', store m' n v = some m'' ∧ Wrote (l ++ [v]) m m'' := by
  subst hn
  have : m' (l.length : Int) ≠ none := by rw [h, dif_neg (by omega)]; exact hr
  refine ⟨_, store_eq v this, fun a => ?_⟩
  by_cases ha : a = l.length
  · subst ha
    simp
  · rw [if_neg ha, h]
    by_cases hb : 0 ≤ a ∧ a < l.length
    · rw [dif_pos hb, dif_pos (by simp; omega), List.getElem_append_left]
    · rw [dif_neg hb, dif_neg (by simp; omega)]

theorem comps_length (p : Pixel α) : p.comps.length = p.color.length + p.alpha.isSome.toNat := by
  cases h : p.alpha <;> simp [Pixel.comps, h]

theorem comps_some {p : Pixel α} {a : α} (h : p.alpha = some a) : p.comps = p.color ++ [a] := by simp [Pixel.comps, h]
theorem comps_none {p : Pixel α} (h : p.alpha = none) : p.comps = p.color := by simp [Pixel.comps, h]

/-- The outcome of conversion between representation schemes. -/
def reprConverted (ar : Arith φ) (R : Repr α φ) (S : Repr δ φ) (g : α → δ) (p : Pixel α) : Pixel δ :=
  if R.isFloat = S.isFloat then ⟨p.color.map (direct R S g), p.alpha.map (direct R S g)⟩
  else match p.alpha with
    | none => ⟨p.color.map fun c => S.fromColor (R.toColor c), none⟩
    | some a => ⟨p.color.map fun c => S.fromColor ((if R.isFloat then ar.unmul else ar.mul) (R.toAlpha a) (R.toColor c)), some (S.fromAlpha (R.toAlpha a))⟩

theorem map_get {origin : Nat → Option α} {l : List α} {n : Nat} (h : ∀ j, j < n → origin j = l[j]?) (f : α → δ) {j : Nat} (hj : j < n) :
    (origin j).map f = (l.map f)[j]? := by
  rw [h j hj, List.getElem?_map]

theorem compReprConvert_ok (ar : Arith φ) (R : Repr α φ) (S : Repr δ φ) (g : α → δ) (p : Pixel α) {origin : Nat → Option α} {m : Mem δ} {n : Nat}
    {b : Bool} (hn : n = p.comps.length) (h0 : 0 < n) (hb : b = p.alpha.isSome) (ho : ∀ j, j < n → origin j = p.comps[j]?) (hr : Room n m) :
    ∃ m', compReprConvert ar R S g origin m n b = some m' ∧ Wrote (reprConverted ar R S g p).comps m m' := by
  have hlen := comps_length p
  unfold compReprConvert reprConverted
  rw [if_neg (by omega)]
  by_cases hf : R.isFloat = S.isFloat
  · rw [if_pos hf, if_pos hf]
    refine fill_wrote ?_ hr fun j hj => ?_
    · rw [comps_length, hn, hlen]; cases p.alpha <;> simp
    · rw [map_get ho _ hj]
      congr 1
      cases h : p.alpha <;> simp [Pixel.comps, h]
  · rw [if_neg hf, if_neg hf]
    cases ha : p.alpha with
    | none =>
      have hc := comps_none ha
      have : b = false := by rw [hb, ha]; rfl
      subst this
      have key : ∃ m', fill (fun i => (origin i).map fun c => S.fromColor (R.toColor c)) n 0 m = some m' ∧
          Wrote (Pixel.comps ⟨p.color.map fun c => S.fromColor (R.toColor c), none⟩) m m' := by
        refine fill_wrote ?_ hr fun j hj => ?_
        · rw [hn, hc]; simp [Pixel.comps]
        · rw [map_get ho _ hj, hc]; simp [Pixel.comps]
      by_cases hR : R.isFloat = true
      · rw [if_pos hR, if_pos rfl]; exact key
      · rw [if_neg hR, if_pos rfl]; exact key
    | some a =>
      have hc := comps_some ha
      have : b = true := by rw [hb, ha]; rfl
      subst this
      have hk : n = p.color.length + 1 := by rw [hn, hc]; simp
      have hlast : origin (n - 1) = some a := by
        rw [ho _ (by omega), hc, hk]
        simp
      have key : ∀ f : φ → φ → φ, ∃ m', (do
          let a ← origin (n - 1)
          let alpha := R.toAlpha a
          let m ← fill (fun i => (origin i).map fun c => S.fromColor (f alpha (R.toColor c))) (n - 1) 0 m
          store m ((n - 1 : Nat) : Int) (S.fromAlpha alpha)) = some m' ∧
          Wrote (Pixel.comps ⟨p.color.map fun c => S.fromColor (f (R.toAlpha a) (R.toColor c)), some (S.fromAlpha (R.toAlpha a))⟩) m m' := by
        intro f
        obtain ⟨m1, e1, w1⟩ := fill_wrote (f := fun i => (origin i).map fun c => S.fromColor (f (R.toAlpha a) (R.toColor c)))
          (l := p.color.map fun c => S.fromColor (f (R.toAlpha a) (R.toColor c))) (m := m) (n := n - 1) (by rw [hk]; simp)
          (fun j hj => hr j (by omega)) (fun j hj => by
            show (origin j).map _ = _
            rw [ho j (by omega), hc, List.getElem?_append_left (by omega), List.getElem?_map])
        obtain ⟨m2, e2, w2⟩ := Wrote.store w1 (n := n - 1) (by rw [hk]; simp) (S.fromAlpha (R.toAlpha a)) (hr _ (by omega))
        refine ⟨m2, ?_, ?_⟩
        · simp only [hlast, Option.bind_eq_bind, Option.bind_some, e1]
          exact e2
        · simpa [Pixel.comps] using w2
      by_cases hR : R.isFloat = true
      · rw [if_pos hR, if_neg (by decide)]
        have := key ar.unmul
        simpa [unpremultiply, hR] using this
      · rw [if_neg hR, if_neg (by decide)]
        have := key ar.mul
        simpa [premultiply, hR] using this

end Verif.PixelConvert
