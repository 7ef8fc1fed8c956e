import Verif.TextParser.Lemmas
/-!
Properties of the parser for text with fields.
-/
namespace Verif.TextParser
open Verif.StringSplit Verif.StringSplit.Spec Spec

variable {C V J : Type} [DecidableEq C]

theorem sorted_unique : ∀ (l1 l2 : List (Nat × Nat)), l1.Pairwise (fun x y => x.2 < y.1) → l2.Pairwise (fun x y => x.2 < y.1) →
    (∀ x ∈ l1, x.1 < x.2) → (∀ x, x ∈ l1 ↔ x ∈ l2) → l1 = l2 := by
  intro l1
  induction l1 with
  | nil =>
    intro l2 _ _ _ h
    cases l2 with
    | nil => rfl
    | cons y l2 => have := (h y).mpr (by simp); simp at this
  | cons x l1 ih =>
    intro l2 h1 h2 hp h
    cases l2 with
    | nil => have := (h x).mp (by simp); simp at this
    | cons y l2 =>
      rw [List.pairwise_cons] at h1 h2
      have hxy : x = y := by
        by_contra hne
        have a1 : x ∈ l2 := by
          rcases List.mem_cons.mp ((h x).mp (by simp)) with h | h
          · exact absurd h hne
          · exact h
        have a2 : y ∈ l1 := by
          rcases List.mem_cons.mp ((h y).mpr (by simp)) with h | h
          · exact absurd h.symm hne
          · exact h
        have b1 := h1.1 y a2
        have b2 := h2.1 x a1
        have b3 := hp x (by simp)
        have b4 := hp y (by simp [a2])
        omega
      subst hxy
      congr 1
      apply ih l2 h1.2 h2.2 (fun z hz => hp z (by simp [hz]))
      intro z
      have b3 := hp x (by simp)
      constructor
      · intro hz
        rcases List.mem_cons.mp ((h z).mp (by simp [hz])) with h | h
        · rw [h] at hz; have := h1.1 x hz; omega
        · exact h
      · intro hz
        rcases List.mem_cons.mp ((h z).mpr (by simp [hz])) with h | h
        · rw [h] at hz; have := h2.1 x hz; omega
        · exact h

theorem pieces_eq {delim : C} {s : List C} {ps : List (Nat × Nat)} (h : Pieces delim s ps) : remaining delim (Splitter.init s) = ps := by
  have h2 := C66_split delim s
  rw [words_eq] at h2
  apply sorted_unique _ _ h2.2 h.2
  · rintro ⟨b, e⟩ hx
    exact ((h2.1 b e).mp hx).1
  · rintro ⟨b, e⟩
    rw [h2.1, h.1]

/-! ### C205: Text with a fixed number of fields -/

/-- What happens in general. `k` is the number of fields for which there is a word with a valid value. The variables of these fields have
these values. The variables of fields after the next one are untouched. If there is a word for all fields, and there are no more words,
parsing succeeds, and the error information is untouched. Otherwise, the error information refers to the next word, or the next field, or
both. -/
theorem C205_outcome (s : List C) (delim : C) (fields : List (Field C V J)) (r r' : Report C J) (ps : List (Nat × Nat)) (hps : Pieces delim s ps)
    (success : Bool) (vars : List V) (h : parse s delim fields r = (success, vars, r')) :
    vars.length = fields.length ∧ ∃ k, k ≤ fields.length ∧ k ≤ ps.length ∧
      (∀ j < k, ∃ f w v, fields[j]? = some f ∧ ps[j]? = some w ∧ vars[j]? = some v ∧ f.parse (wordText s w) = some v) ∧
      (∀ j f, k < j → fields[j]? = some f → vars[j]? = some f.var) ∧
      ((success = true ∧ k = fields.length ∧ k = ps.length ∧ r' = r) ∨
       (success = false ∧ ∃ f w, fields[k]? = some f ∧ ps[k]? = some w ∧ f.parse (wordText s w) = none ∧
          r' = ⟨.badValue, wordText s w, f.ident, w.1⟩) ∨
       (success = false ∧ ∃ f, fields[k]? = some f ∧ k = ps.length ∧ vars[k]? = some f.var ∧ r' = ⟨.missingValue, r.value, f.ident, s.length⟩) ∨
       (success = false ∧ k = fields.length ∧ ∃ w, ps[k]? = some w ∧ r' = ⟨.tooManyValues, wordText s w, r.ident, w.1⟩)) := by
  have hrem := pieces_eq hps
  unfold parse at h
  cases hl : fieldsLoop s delim fields (Splitter.init s) r with
  | mk a q =>
    obtain ⟨b, sp, c⟩ := q
    have hspec := fieldsLoop_spec s delim fields _ r _ _ _ _ hl
    rw [hrem] at hspec
    obtain ⟨h1, k, h2, h3, h4, h5, h6⟩ := hspec
    have h5' : ∀ j f, k < j → fields[j]? = some f → b[j]? = some f.var := by
      intro j f hj hf
      rw [h5 j hj, List.getElem?_map, hf]; rfl
    simp only [hl] at h
    rcases h6 with ⟨rfl, g2, g3, rfl, -⟩ | ⟨rfl, g2⟩ | ⟨rfl, g2⟩
    · rw [if_pos rfl] at h
      cases hn : sp.next delim with
      | none =>
        simp only [hn, Prod.mk.injEq] at h
        obtain ⟨rfl, rfl, rfl⟩ := h
        rw [remaining_none hn] at g3
        refine ⟨h1, k, h2, h3, h4, h5', .inl ⟨rfl, g2, ?_, rfl⟩⟩
        have := congrArg List.length g3
        simp at this
        omega
      | some p =>
        obtain ⟨w, sp'⟩ := p
        simp only [hn, Prod.mk.injEq] at h
        obtain ⟨rfl, rfl, rfl⟩ := h
        rw [remaining_some hn] at g3
        refine ⟨h1, k, h2, h3, h4, h5', .inr (.inr (.inr ⟨rfl, g2, w, ?_, rfl⟩))⟩
        have := congrArg (fun l => l[0]?) g3
        simpa using this.symm
    · simp only [Bool.false_eq_true, if_false, Prod.mk.injEq] at h
      obtain ⟨rfl, rfl, rfl⟩ := h
      exact ⟨h1, k, h2, h3, h4, h5', .inr (.inl ⟨rfl, g2⟩)⟩
    · simp only [Bool.false_eq_true, if_false, Prod.mk.injEq] at h
      obtain ⟨rfl, rfl, rfl⟩ := h
      exact ⟨h1, k, h2, h3, h4, h5', .inr (.inr (.inl ⟨rfl, g2⟩))⟩

theorem get_of_lt {α : Type} {l : List α} {j : Nat} (h : j < l.length) : ∃ a, l[j]? = some a := ⟨l[j], List.getElem?_eq_getElem h⟩

theorem lt_of_get {α : Type} {l : List α} {j : Nat} {a : α} (h : l[j]? = some a) : j < l.length := (List.getElem?_eq_some_iff.mp h).1

/-- Parsing succeeds precisely if there are as many words as there are fields, and each word is a valid value for the corresponding field. The
variables then have these values. -/
theorem C205_accepts (s : List C) (delim : C) (fields : List (Field C V J)) (r : Report C J) (ps : List (Nat × Nat)) (hps : Pieces delim s ps)
    (vals : List V) : parse s delim fields r = (true, vals, r) ↔ Reads s (fields.map Field.parse) ps vals := by
  obtain ⟨success, vars, r', h⟩ : ∃ a b c, parse s delim fields r = (a, b, c) := ⟨_, _, _, rfl⟩
  obtain ⟨h1, k, h2, h3, h4, h5, h6⟩ := C205_outcome s delim fields r r' ps hps success vars h
  constructor
  · intro h'
    rw [h] at h'
    simp only [Prod.mk.injEq] at h'
    obtain ⟨rfl, rfl, rfl⟩ := h'
    rcases h6 with ⟨-, g2, g3, -⟩ | ⟨g1, -⟩ | ⟨g1, -⟩ | ⟨g1, -⟩
    · refine ⟨by simp; omega, by simpa using h1, ?_⟩
      intro j p w v e1 e2 e3
      have hj := lt_of_get e3
      obtain ⟨f, w', v', a1, a2, a3, a4⟩ := h4 j (by omega)
      rw [List.getElem?_map, a1] at e1
      rw [a2] at e2
      rw [a3] at e3
      obtain rfl := Option.some.inj e2
      obtain rfl := Option.some.inj e3
      obtain rfl := Option.some.inj e1
      exact a4
    · cases g1
    · cases g1
    · cases g1
  · rintro ⟨a1, a2, a3⟩
    rw [List.length_map] at a1 a2
    rw [h]
    have good : ∀ (j : Nat) (f : Field C V J) (w : Nat × Nat), fields[j]? = some f → ps[j]? = some w → ∃ v, vals[j]? = some v ∧ f.parse (wordText s w) = some v := by
      intro j f w e1 e2
      obtain ⟨v, hv⟩ := get_of_lt (l := vals) (j := j) (by have := lt_of_get e1; omega)
      exact ⟨v, hv, a3 j f.parse w v (by rw [List.getElem?_map, e1]; rfl) e2 hv⟩
    rcases h6 with ⟨g1, g2, g3, g4⟩ | ⟨g1, f, w, g2, g3, g4, -⟩ | ⟨g1, f, g2, g3, -⟩ | ⟨g1, g2, w, g3, -⟩
    · rw [g1, g4]
      have : vars = vals := by
        apply List.ext_getElem? 
        intro j
        by_cases hj : j < k
        · obtain ⟨f, w, v, b1, b2, b3, b4⟩ := h4 j hj
          obtain ⟨v', c1, c2⟩ := good j f w b1 b2
          rw [b4] at c2
          rw [b3, c1, Option.some.inj c2]
        · rw [List.getElem?_eq_none (by omega), List.getElem?_eq_none (by omega)]
      rw [this]
    · obtain ⟨v, -, hv⟩ := good k f w g2 g3
      rw [g4] at hv; cases hv
    · have := lt_of_get g2; omega
    · have := lt_of_get g3; omega

/-- Decimal digits as values. -/
def digit (ident : String) (var : Nat) : Field Char Nat String :=
  ⟨fun t => if t.all Char.isDigit then some (t.foldl (fun n c => 10 * n + (c.toNat - 48)) 0) else none, fun _ _ => 77, var, ident⟩

/-- Error information before parsing. -/
def noReport : Report Char String := ⟨.badValue, [], "", 99⟩

example : parse " 12 3".toList ' ' [digit "a" 0, digit "b" 0] noReport = (true, [12, 3], noReport) := by decide +kernel
example : parse "12 x 4".toList ' ' [digit "a" 0, digit "b" 0, digit "c" 5] noReport = (false, [12, 77, 5], ⟨.badValue, ['x'], "b", 3⟩) := by
  decide +kernel
example : parse "12 ".toList ' ' [digit "a" 0, digit "b" 8, digit "c" 5] noReport = (false, [12, 8, 5], ⟨.missingValue, [], "b", 3⟩) := by
  decide +kernel
example : parse "12 3".toList ' ' [digit "a" 0] noReport = (false, [12], ⟨.tooManyValues, ['3'], "", 3⟩) := by decide +kernel

/-! ### C206: Text with a variable number of fields -/

/-- What happens in general, when the fields are followed by a sequence of values. `k` is as for C205, and `added` is what is added to the
vector. -/
theorem C206_outcome (s : List C) (delim : C) (fields : List (Field C V J)) (f : Field C V J) (min max : Nat) (vec vec' : List V)
    (r r' : Report C J) (ps : List (Nat × Nat)) (hps : Pieces delim s ps) (success : Bool) (vars : List V)
    (h : parseSeq s delim fields f min max vec r = (success, vars, vec', r')) :
    vars.length = fields.length ∧ ∃ k added, k ≤ fields.length ∧ k + added.length ≤ ps.length ∧ vec' = vec ++ added ∧ added.length ≤ max ∧
      (k < fields.length → added = []) ∧
      (∀ j < k, ∃ f w v, fields[j]? = some f ∧ ps[j]? = some w ∧ vars[j]? = some v ∧ f.parse (wordText s w) = some v) ∧
      (∀ j f, k < j → fields[j]? = some f → vars[j]? = some f.var) ∧
      (∀ j < added.length, ∃ w v, ps[k + j]? = some w ∧ added[j]? = some v ∧ f.parse (wordText s w) = some v) ∧
      ((success = true ∧ k = fields.length ∧ k + added.length = ps.length ∧ min ≤ added.length ∧ r' = r) ∨
       (success = false ∧ ∃ f w, fields[k]? = some f ∧ ps[k]? = some w ∧ f.parse (wordText s w) = none ∧
          r' = ⟨.badValue, wordText s w, f.ident, w.1⟩) ∨
       (success = false ∧ ∃ f, fields[k]? = some f ∧ k = ps.length ∧ vars[k]? = some f.var ∧ r' = ⟨.missingValue, r.value, f.ident, s.length⟩) ∨
       (success = false ∧ k = fields.length ∧ k + added.length = ps.length ∧ added.length < min ∧ r' = ⟨.missingValue, r.value, f.ident, s.length⟩) ∨
       (success = false ∧ k = fields.length ∧ added.length < max ∧ ∃ w, ps[k + added.length]? = some w ∧ f.parse (wordText s w) = none ∧
          r' = ⟨.badValue, wordText s w, f.ident, w.1⟩) ∨
       (success = false ∧ k = fields.length ∧ added.length = max ∧ ∃ w, ps[k + added.length]? = some w ∧
          r' = ⟨.tooManyValues, wordText s w, r.ident, w.1⟩)) := by
  have hrem := pieces_eq hps
  unfold parseSeq at h
  cases hl : fieldsLoop s delim fields (Splitter.init s) r with
  | mk a q =>
    obtain ⟨b, sp, c⟩ := q
    have hspec := fieldsLoop_spec s delim fields _ r _ _ _ _ hl
    rw [hrem] at hspec
    obtain ⟨h1, k, h2, h3, h4, h5, h6⟩ := hspec
    have h5' : ∀ j f, k < j → fields[j]? = some f → b[j]? = some f.var := by
      intro j f hj hf
      rw [h5 j hj, List.getElem?_map, hf]; rfl
    simp only [hl] at h
    rcases h6 with ⟨rfl, g2, g3, rfl, g5⟩ | ⟨rfl, g2⟩ | ⟨rfl, g2⟩
    · rw [if_pos rfl] at h
      cases hs : seqLoop s delim f min max (s.length + 1) 0 vec sp c with
      | mk a2 q2 =>
        obtain ⟨b2, c2⟩ := q2
        simp only [hs, Prod.mk.injEq] at h
        obtain ⟨rfl, rfl, rfl, rfl⟩ := h
        have hsp : sp.rest.length ≤ s.length := g5
        obtain ⟨added, e1, e2, e3, e4, e5⟩ := seqLoop_spec s delim f min max _ 0 vec sp c _ _ _ hs (by omega) (Nat.zero_le _)
        rw [g3] at e2 e4 e5
        simp only [List.length_drop, List.getElem?_drop, Nat.zero_add] at e2 e3 e4 e5
        refine ⟨h1, k, added, h2, by omega, e1, e3, fun hk => by omega, h4, h5', e4, ?_⟩
        rcases e5 with ⟨i1, i2, i3, i4⟩ | ⟨i1, i2, i3, i4⟩ | ⟨i1, i2, w, i3, i4, i5⟩ | ⟨i1, i2, w, i3, i4⟩
        · exact .inl ⟨i1, g2, by omega, i3, i4⟩
        · exact .inr (.inr (.inr (.inl ⟨i1, g2, by omega, i3, i4⟩)))
        · exact .inr (.inr (.inr (.inr (.inl ⟨i1, g2, i2, w, i3, i4, i5⟩))))
        · exact .inr (.inr (.inr (.inr (.inr ⟨i1, g2, i2, w, i3, i4⟩))))
    · simp only [Bool.false_eq_true, if_false, Prod.mk.injEq] at h
      obtain ⟨rfl, rfl, rfl, rfl⟩ := h
      exact ⟨h1, k, [], h2, by simpa using h3, by simp, by simp, fun _ => rfl, h4, h5', fun j hj => by simp at hj, .inr (.inl ⟨rfl, g2⟩)⟩
    · simp only [Bool.false_eq_true, if_false, Prod.mk.injEq] at h
      obtain ⟨rfl, rfl, rfl, rfl⟩ := h
      exact ⟨h1, k, [], h2, by simpa using h3, by simp, by simp, fun _ => rfl, h4, h5', fun j hj => by simp at hj, .inr (.inr (.inl ⟨rfl, g2⟩))⟩

/-- Parsing succeeds precisely if the first words are valid values for the fields, and each of the remaining words is a valid value for the
sequence, and the number of remaining words is as it should be. -/
theorem C206_accepts (s : List C) (delim : C) (fields : List (Field C V J)) (f : Field C V J) (min max : Nat) (vec : List V) (r : Report C J)
    (ps : List (Nat × Nat)) (hps : Pieces delim s ps) (vals added : List V) :
    parseSeq s delim fields f min max vec r = (true, vals, vec ++ added, r) ↔
      Reads s (fields.map Field.parse) (ps.take fields.length) vals ∧
      Reads s (List.replicate added.length f.parse) (ps.drop fields.length) added ∧ min ≤ added.length ∧ added.length ≤ max := by
  obtain ⟨success, vars, vec', r', h⟩ : ∃ a b c d, parseSeq s delim fields f min max vec r = (a, b, c, d) := ⟨_, _, _, _, rfl⟩
  obtain ⟨h1, k, added', h2, h3, h3', h3'', hz, h4, h5, h5', h6⟩ := C206_outcome s delim fields f min max vec vec' r r' ps hps success vars h
  constructor
  · intro h'
    rw [h] at h'
    simp only [Prod.mk.injEq] at h'
    obtain ⟨rfl, rfl, e3, rfl⟩ := h'
    rw [h3'] at e3
    obtain rfl := List.append_cancel_left e3
    rcases h6 with ⟨-, g2, g3, g4, -⟩ | ⟨g1, -⟩ | ⟨g1, -⟩ | ⟨g1, -⟩ | ⟨g1, -⟩ | ⟨g1, -⟩
    · refine ⟨⟨by simp; omega, by simpa using h1, ?_⟩, ⟨by simp; omega, by simp, ?_⟩, g4, h3''⟩
      · intro j p w v e1 e2 e3
        have hj := lt_of_get e3
        obtain ⟨f', w', v', a1, a2, a3, a4⟩ := h4 j (by omega)
        rw [List.getElem?_map, a1] at e1
        rw [List.getElem?_take_of_lt (by omega), a2] at e2
        rw [a3] at e3
        obtain rfl := Option.some.inj e2
        obtain rfl := Option.some.inj e3
        obtain rfl := Option.some.inj e1
        exact a4
      · intro j p w v e1 e2 e3
        have hj := lt_of_get e3
        obtain ⟨w', v', a2, a3, a4⟩ := h5' j hj
        rw [List.getElem?_replicate_of_lt hj] at e1
        rw [List.getElem?_drop, ← g2, a2] at e2
        rw [a3] at e3
        obtain rfl := Option.some.inj e2
        obtain rfl := Option.some.inj e3
        obtain rfl := Option.some.inj e1
        exact a4
    all_goals cases g1
  · rintro ⟨⟨a1, a2, a3⟩, ⟨b1, b2, b3⟩, c1, c2⟩
    simp only [List.length_map, List.length_take, List.length_replicate, List.length_drop] at a1 a2 b1
    rw [h]
    have good : ∀ (j : Nat) (f : Field C V J) (w : Nat × Nat), fields[j]? = some f → ps[j]? = some w → ∃ v, vals[j]? = some v ∧ f.parse (wordText s w) = some v := by
      intro j f w e1 e2
      have hj := lt_of_get e1
      obtain ⟨v, hv⟩ := get_of_lt (l := vals) (j := j) (by omega)
      exact ⟨v, hv, a3 j f.parse w v (by rw [List.getElem?_map, e1]; rfl) (by rw [List.getElem?_take_of_lt hj]; exact e2) hv⟩
    have good2 : ∀ (j : Nat) (w : Nat × Nat), ps[fields.length + j]? = some w → ∃ v, added[j]? = some v ∧ f.parse (wordText s w) = some v := by
      intro j w e2
      have hj := lt_of_get e2
      obtain ⟨v, hv⟩ := get_of_lt (l := added) (j := j) (by omega)
      exact ⟨v, hv, b3 j f.parse w v (List.getElem?_replicate_of_lt (by omega)) (by rw [List.getElem?_drop]; exact e2) hv⟩
    rcases h6 with ⟨g1, g2, g3, g4, g5⟩ | ⟨g1, f', w, g2, g3, g4, -⟩ | ⟨g1, f', g2, g3, -⟩ | ⟨g1, g2, g3, g4, -⟩ | ⟨g1, g2, g3, w, g4, g5, -⟩ |
      ⟨g1, g2, g3, w, g4, -⟩
    · rw [g1, g5, h3']
      have e1 : vars = vals := by
        apply List.ext_getElem?
        intro j
        by_cases hj : j < k
        · obtain ⟨f', w, v, b1, b2, b3, b4⟩ := h4 j hj
          obtain ⟨v', c1, c2⟩ := good j f' w b1 b2
          rw [b4] at c2
          rw [b3, c1, Option.some.inj c2]
        · rw [List.getElem?_eq_none (by omega), List.getElem?_eq_none (by omega)]
      have e2 : added' = added := by
        apply List.ext_getElem?
        intro j
        by_cases hj : j < added'.length
        · obtain ⟨w, v, b2, b3, b4⟩ := h5' j hj
          rw [g2] at b2
          obtain ⟨v', c1, c2⟩ := good2 j w b2
          rw [b4] at c2
          rw [b3, c1, Option.some.inj c2]
        · rw [List.getElem?_eq_none (by omega), List.getElem?_eq_none (by omega)]
      rw [e1, e2]
    · obtain ⟨v, -, hv⟩ := good k f' w g2 g3
      rw [g4] at hv; cases hv
    · have := lt_of_get g2; omega
    · omega
    · rw [g2] at g4
      obtain ⟨v, -, hv⟩ := good2 _ w g4
      rw [g5] at hv; cases hv
    · have := lt_of_get g4; omega

example : parseSeq "7 1 2 3".toList ' ' [digit "a" 0] (digit "seq" 0) 1 3 [50] noReport = (true, [7], [50, 1, 2, 3], noReport) := by decide +kernel
example : parseSeq "7 1 2 3".toList ' ' [digit "a" 0] (digit "seq" 0) 1 2 [50] noReport =
    (false, [7], [50, 1, 2], ⟨.tooManyValues, ['3'], "", 6⟩) := by decide +kernel
example : parseSeq "7 1".toList ' ' [digit "a" 0] (digit "seq" 0) 2 3 [] noReport = (false, [7], [1], ⟨.missingValue, [], "seq", 3⟩) := by
  decide +kernel
example : parseSeq "7 1 -".toList ' ' [digit "a" 0] (digit "seq" 0) 0 9 [] noReport = (false, [7], [1], ⟨.badValue, ['-'], "seq", 4⟩) := by
  decide +kernel

end Verif.TextParser
