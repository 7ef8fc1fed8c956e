import Verif.TextParser.Model
import Verif.TextParser.Spec
import Verif.StringSplit.Props
/-!
Lemmas about the parser for text with fields.
-/
namespace Verif.TextParser
open Verif.StringSplit Spec

variable {C V J : Type} [DecidableEq C]

theorem skip_length {delim : C} : ∀ (l : List C) (cur : Nat) (sp : Splitter C), skip delim l cur = some sp → sp.rest.length ≤ l.length := by
  intro l
  induction l with
  | nil => intro cur sp h; simp [skip] at h
  | cons c cs ih =>
    intro cur sp h
    rw [skip] at h
    split at h
    · have := ih _ _ h; simp; omega
    · have h := Option.some.inj h; rw [← h]; simp

theorem scan_length {delim : C} : ∀ (l : List C) (cur : Nat), (scan delim l cur).rest.length ≤ l.length := by
  intro l
  induction l with
  | nil => intro cur; simp [scan]
  | cons c cs ih =>
    intro cur
    rw [scan]
    split
    · have := ih (cur + 1); simp; omega
    · simp

theorem next_length {delim : C} {sp sp' : Splitter C} {w : Nat × Nat} (h : sp.next delim = some (w, sp')) : sp'.rest.length < sp.rest.length := by
  unfold Splitter.next at h
  cases h1 : skip delim sp.rest sp.cur with
  | none => simp [h1] at h
  | some sp1 =>
    have h2 := skip_length _ _ _ h1
    simp only [h1, Option.bind_eq_bind, Option.bind_some] at h
    cases h3 : sp1.rest with
    | nil => simp [h3] at h
    | cons c cs =>
      simp only [h3, Option.some.injEq, Prod.mk.injEq] at h
      rw [← h.2]
      have := scan_length (delim := delim) cs (sp1.cur + 1)
      rw [h3] at h2
      simp at h2
      omega

theorem wordsLoop_fuel {delim : C} : ∀ (k k' : Nat) (sp : Splitter C), sp.rest.length < k → sp.rest.length < k' →
    wordsLoop delim k sp = wordsLoop delim k' sp := by
  intro k
  induction k with
  | zero => intro k' sp h; omega
  | succ k ih =>
    intro k' sp h h'
    obtain ⟨k', rfl⟩ : ∃ n, k' = n + 1 := ⟨k' - 1, by omega⟩
    rw [wordsLoop, wordsLoop]
    cases hn : sp.next delim with
    | none => rfl
    | some p =>
      obtain ⟨w, sp'⟩ := p
      have := next_length hn
      simp only
      rw [ih k' sp' (by omega) (by omega)]

/-- The words that remain. -/
def remaining (delim : C) (sp : Splitter C) : List (Nat × Nat) := wordsLoop delim (sp.rest.length + 1) sp

theorem remaining_none {delim : C} {sp : Splitter C} (h : sp.next delim = none) : remaining delim sp = [] := by
  rw [remaining, wordsLoop, h]

theorem remaining_some {delim : C} {sp sp' : Splitter C} {w : Nat × Nat} (h : sp.next delim = some (w, sp')) :
    remaining delim sp = w :: remaining delim sp' := by
  rw [remaining, wordsLoop, h]
  have := next_length h
  simp only [remaining]
  rw [wordsLoop_fuel sp.rest.length (sp'.rest.length + 1) sp' (by omega) (by omega)]

theorem remaining_length (delim : C) : ∀ (k : Nat) (sp : Splitter C), sp.rest.length ≤ k → (remaining delim sp).length ≤ sp.rest.length := by
  intro k
  induction k with
  | zero =>
    intro sp h
    cases hn : sp.next delim with
    | none => simp [remaining_none hn]
    | some p =>
      obtain ⟨w, sp'⟩ := p
      have := next_length hn
      omega
  | succ k ih =>
    intro sp h
    cases hn : sp.next delim with
    | none => simp [remaining_none hn]
    | some p =>
      obtain ⟨w, sp'⟩ := p
      have := next_length hn
      have := ih sp' (by omega)
      rw [remaining_some hn]
      simp
      omega

theorem words_eq (delim : C) (s : List C) : words delim s = remaining delim (Splitter.init s) := rfl

/-- What the loop over the fields does, in terms of the words that remain. -/
theorem fieldsLoop_spec (s : List C) (delim : C) : ∀ (fields : List (Field C V J)) (sp : Splitter C) (r : Report C J)
    (success : Bool) (vars : List V) (sp' : Splitter C) (r' : Report C J), fieldsLoop s delim fields sp r = (success, vars, sp', r') →
    vars.length = fields.length ∧ ∃ k, k ≤ fields.length ∧ k ≤ (remaining delim sp).length ∧
      (∀ j < k, ∃ f w v, fields[j]? = some f ∧ (remaining delim sp)[j]? = some w ∧ vars[j]? = some v ∧ f.parse (wordText s w) = some v) ∧
      (∀ j, k < j → vars[j]? = (fields.map Field.var)[j]?) ∧
      ((success = true ∧ k = fields.length ∧ remaining delim sp' = (remaining delim sp).drop k ∧ r' = r ∧ sp'.rest.length ≤ sp.rest.length) ∨
       (success = false ∧ ∃ f w, fields[k]? = some f ∧ (remaining delim sp)[k]? = some w ∧ f.parse (wordText s w) = none ∧
          r' = ⟨.badValue, wordText s w, f.ident, w.1⟩) ∨
       (success = false ∧ ∃ f, fields[k]? = some f ∧ k = (remaining delim sp).length ∧ vars[k]? = some f.var ∧
          r' = ⟨.missingValue, r.value, f.ident, s.length⟩)) := by
  intro fields
  induction fields with
  | nil =>
    intro sp r success vars sp' r' h
    simp only [fieldsLoop, Prod.mk.injEq] at h
    obtain ⟨rfl, rfl, rfl, rfl⟩ := h
    exact ⟨rfl, 0, by simp, by simp, fun j hj => by omega, fun j _ => by simp, .inl ⟨rfl, rfl, by simp, rfl, Nat.le_refl _⟩⟩
  | cons f fields ih =>
    intro sp r success vars sp' r' h
    rw [fieldsLoop] at h
    cases hn : sp.next delim with
    | none =>
      simp only [hn, Prod.mk.injEq] at h
      obtain ⟨rfl, rfl, rfl, rfl⟩ := h
      refine ⟨by simp, 0, by simp, by simp, fun j hj => by omega, fun j _ => by simp, .inr (.inr ⟨rfl, f, rfl, ?_, rfl, rfl⟩)⟩
      rw [remaining_none hn]; rfl
    | some p =>
      obtain ⟨w, sp1⟩ := p
      simp only [hn] at h
      have hrem := remaining_some hn
      cases hp : f.parse (slice s w) with
      | none =>
        simp only [hp, Prod.mk.injEq] at h
        obtain ⟨rfl, rfl, rfl, rfl⟩ := h
        refine ⟨by simp, 0, by simp, by simp, fun j hj => by omega, ?_, .inr (.inl ⟨rfl, f, w, rfl, by rw [hrem]; rfl, hp, rfl⟩)⟩
        intro j hj
        obtain ⟨j, rfl⟩ : ∃ n, j = n + 1 := ⟨j - 1, by omega⟩
        simp
      | some v =>
        simp only [hp] at h
        cases hl : fieldsLoop s delim fields sp1 r with
        | mk a q =>
          obtain ⟨b, c, d⟩ := q
          simp only [hl, Prod.mk.injEq] at h
          obtain ⟨rfl, rfl, rfl, rfl⟩ := h
          obtain ⟨h1, k, h2, h3, h4, h5, h6⟩ := ih sp1 r _ _ _ _ hl
          refine ⟨by simp [h1], k + 1, by simp; omega, by rw [hrem]; simp; omega, ?_, ?_, ?_⟩
          · intro j hj
            cases j with
            | zero => exact ⟨f, w, v, rfl, by rw [hrem]; rfl, rfl, hp⟩
            | succ j =>
              obtain ⟨f', w', v', g1, g2, g3, g4⟩ := h4 j (by omega)
              exact ⟨f', w', v', by simpa using g1, by rw [hrem]; simpa using g2, by simpa using g3, g4⟩
          · intro j hj
            obtain ⟨j, rfl⟩ : ∃ n, j = n + 1 := ⟨j - 1, by omega⟩
            have := h5 j (by omega)
            simpa using this
          · rcases h6 with ⟨g1, g2, g3, g4, g5⟩ | ⟨g1, f', w', g2, g3, g4, g5⟩ | ⟨g1, f', g2, g3, g4, g5⟩
            · refine .inl ⟨g1, by simp [g2], by rw [hrem, g3]; simp, g4, ?_⟩
              have := next_length hn
              omega
            · exact .inr (.inl ⟨g1, f', w', by simpa using g2, by rw [hrem]; simpa using g3, g4, g5⟩)
            · exact .inr (.inr ⟨g1, f', by simpa using g2, by rw [hrem]; simp [g3], by simpa using g4, g5⟩)

/-- What the loop over the remaining words does. -/
theorem seqLoop_spec (s : List C) (delim : C) (f : Field C V J) (min max : Nat) : ∀ (fuel i : Nat) (vec : List V) (sp : Splitter C) (r : Report C J)
    (success : Bool) (vec' : List V) (r' : Report C J), seqLoop s delim f min max fuel i vec sp r = (success, vec', r') → sp.rest.length < fuel → i ≤ max →
    ∃ added, vec' = vec ++ added ∧ added.length ≤ (remaining delim sp).length ∧ i + added.length ≤ max ∧
      (∀ j < added.length, ∃ w v, (remaining delim sp)[j]? = some w ∧ added[j]? = some v ∧ f.parse (wordText s w) = some v) ∧
      ((success = true ∧ added.length = (remaining delim sp).length ∧ min ≤ i + added.length ∧ r' = r) ∨
       (success = false ∧ added.length = (remaining delim sp).length ∧ i + added.length < min ∧ r' = ⟨.missingValue, r.value, f.ident, s.length⟩) ∨
       (success = false ∧ i + added.length < max ∧ ∃ w, (remaining delim sp)[added.length]? = some w ∧ f.parse (wordText s w) = none ∧
          r' = ⟨.badValue, wordText s w, f.ident, w.1⟩) ∨
       (success = false ∧ i + added.length = max ∧ ∃ w, (remaining delim sp)[added.length]? = some w ∧
          r' = ⟨.tooManyValues, wordText s w, r.ident, w.1⟩)) := by
  intro fuel
  induction fuel with
  | zero => intro i vec sp r success vec' r' h hf; omega
  | succ fuel ih =>
    intro i vec sp r success vec' r' h hf hi
    rw [seqLoop] at h
    cases hn : sp.next delim with
    | none =>
      simp only [hn] at h
      have hrem := remaining_none hn
      refine ⟨[], ?_⟩
      split at h
      · simp only [Prod.mk.injEq] at h
        obtain ⟨rfl, rfl, rfl⟩ := h
        exact ⟨by simp, by simp, by simpa using hi, fun j hj => by simp at hj, .inl ⟨rfl, by simp [hrem], by simpa using ‹i ≥ min›, rfl⟩⟩
      · simp only [Prod.mk.injEq] at h
        obtain ⟨rfl, rfl, rfl⟩ := h
        exact ⟨by simp, by simp, by simpa using hi, fun j hj => by simp at hj, .inr (.inl ⟨rfl, by simp [hrem], by simp; omega, rfl⟩)⟩
    | some p =>
      obtain ⟨w, sp1⟩ := p
      simp only [hn] at h
      have hrem := remaining_some hn
      have hlen := next_length hn
      by_cases hm : i < max
      · rw [if_pos hm] at h
        cases hp : f.parse (slice s w) with
        | none =>
          simp only [hp, Prod.mk.injEq] at h
          obtain ⟨rfl, rfl, rfl⟩ := h
          refine ⟨[], by simp, by simp, by simpa using hi, fun j hj => by simp at hj, .inr (.inr (.inl ⟨rfl, by simpa using hm, w, ?_, hp, rfl⟩))⟩
          rw [hrem]; rfl
        | some v =>
          simp only [hp] at h
          obtain ⟨added, h1, h2, h3, h4, h5⟩ := ih (i + 1) (vec ++ [v]) sp1 r _ _ _ h (by omega) (by omega)
          refine ⟨v :: added, by simp [h1], by rw [hrem]; simpa using h2, by simp; omega, ?_, ?_⟩
          · intro j hj
            cases j with
            | zero => exact ⟨w, v, by rw [hrem]; rfl, rfl, hp⟩
            | succ j =>
              obtain ⟨w', v', g1, g2, g3⟩ := h4 j (by simpa using hj)
              exact ⟨w', v', by rw [hrem]; simpa using g1, by simpa using g2, g3⟩
          · rcases h5 with ⟨g1, g2, g3, g4⟩ | ⟨g1, g2, g3, g4⟩ | ⟨g1, g2, w', g3, g4, g5⟩ | ⟨g1, g2, w', g3, g4⟩
            · exact .inl ⟨g1, by rw [hrem]; simp [g2], by simp; omega, g4⟩
            · exact .inr (.inl ⟨g1, by rw [hrem]; simp [g2], by simp; omega, g4⟩)
            · exact .inr (.inr (.inl ⟨g1, by simp; omega, w', by rw [hrem]; simpa using g3, g4, g5⟩))
            · exact .inr (.inr (.inr ⟨g1, by simp; omega, w', by rw [hrem]; simpa using g3, g4⟩))
      · rw [if_neg hm] at h
        simp only [Prod.mk.injEq] at h
        obtain ⟨rfl, rfl, rfl⟩ := h
        refine ⟨[], by simp, by simp, by simpa using hi, fun j hj => by simp at hj, .inr (.inr (.inr ⟨rfl, by simp; omega, w, ?_, rfl⟩))⟩
        rw [hrem]; rfl

end Verif.TextParser
