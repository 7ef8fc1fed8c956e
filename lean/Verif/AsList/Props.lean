import Verif.AsList.Lemmas

/-!
# Properties of formatting and parsing of lists
-/

namespace Verif.AsList

open Spec

/-- A parser for the sake of examples: it parses a single decimal digit. -/
def digit : Parser ℕ where
  parse := fun text => match text with
    | [x] => if '0' ≤ x ∧ x ≤ '9' then some (x.toNat - 48) else none
    | _ => none
  clobber := fun _ _ => 99

/-- A parser for the sake of examples: any text is accepted as it is. -/
def anything : Parser (List Char) where
  parse := some
  clobber := fun _ _ => []

/-! ## C144: lists -/

/-- A list is formatted as documented, except when it is empty, bracketed, and space is to be added inside of the brackets. -/
theorem C144_format_partial (c : Config) (texts : List (List Char)) (h : texts ≠ [] ∨ c.bracketed = false ∨ c.space ≠ .loose) :
    formatAsList c texts = documented c texts := format_eq c texts h

example : formatAsList {} ["1".toList, "2".toList, "3".toList] = "1, 2, 3".toList := by decide +kernel
example : formatAsList { bracketed := true, space := .loose } ["1".toList, "2".toList] = "[ 1, 2 ]".toList := by decide +kernel

/-- Contrary to the documentation, space is added inside of the brackets of an empty list. -/
theorem C144_loose_empty : formatAsList { bracketed := true, space := .loose } [] = "[  ]".toList ∧
    documented { bracketed := true, space := .loose } [] = "[]".toList := by decide +kernel

/-- Parsing succeeds exactly when the string has the right syntax, it has an item for every element of the sequence, and all items are valid
representations of elements. On success, the elements are the ones that are represented by the items. That assumes that the sequence is not
empty. -/
theorem C144_parse_partial {V : Type} (c : Config) (P : Parser V) (str : List Char) (seq : List V) (hseq : seq ≠ []) :
    ((parseList c P str seq).1 = true ↔ ∃ ps, Syntax c str ps ∧ ps.length = seq.length ∧ ∀ p ∈ ps, (P.parse p).isSome) ∧
    (∀ ps, (parseList c P str seq).1 = true → Syntax c str ps → (parseList c P str seq).2.map some = ps.map P.parse) := by
  obtain ⟨h1, h2, h3⟩ := parseAsList_spec c P str seq hseq
  simp only [parseList, Bool.and_eq_true, decide_eq_true_eq]
  constructor
  · constructor
    · rintro ⟨h4, h5⟩
      obtain ⟨ps, h6, h7, h8⟩ := h2.mp h4
      obtain ⟨h9, -⟩ := h3 h4 ps h6
      exact ⟨ps, h6, h9.symm.trans h5, h8⟩
    · rintro ⟨ps, h4, h5, h6⟩
      have h7 := h2.mpr ⟨ps, h4, h5.le, h6⟩
      exact ⟨h7, ((h3 h7 ps h4).1).trans h5⟩
  · rintro ps ⟨h4, h5⟩ h6
    obtain ⟨h7, h8, -⟩ := h3 h4 ps h6
    rw [← h8, List.take_of_length_le]
    omega

example : parseList {} digit "1,  2,3".toList [0, 0, 0] = (true, [1, 2, 3]) := by decide +kernel
example : parseList {} digit "1,2".toList [0, 0, 0] = (false, [1, 2, 0]) := by decide +kernel
example : parseList { bracketed := true } digit "[ 1,2 ]".toList [0, 0] = (true, [1, 2]) := by decide +kernel

/-- The empty sequence, in an unbracketed list syntax, is represented by the empty string, and by nothing else. -/
theorem C144_empty {V : Type} (c : Config) (hb : c.bracketed = false) (P : Parser V) (str : List Char) :
    formatAsList c [] = [] ∧ (parseList c P str []).2 = [] ∧ ((parseList c P str []).1 = true ↔ str = []) := by
  simp [formatAsList, formatElems, parseList, parseAsList, body, hb]

/-- What is formatted can be parsed, and the result is the original sequence, no matter what is in the sequence where the result goes. That
assumes that the sequence is not empty, or that the list syntax is unbracketed. -/
theorem C144_round_trip_partial {V : Type} (c : Config) (P : Parser V) (fmt : V → List Char) (seq old : List V)
    (hlen : old.length = seq.length) (hP : ∀ v ∈ seq, P.parse (fmt v) = some v) (hs : ∀ v ∈ seq, Suitable c (fmt v))
    (hne : seq ≠ [] ∨ c.bracketed = false) : parseList c P (formatAsList c (seq.map fmt)) old = (true, seq) := by
  by_cases h0 : seq = []
  · subst h0
    rcases hne with hne | hne
    · exact absurd rfl hne
    · have : old = [] := List.length_eq_zero_iff.mp hlen
      subst this
      obtain ⟨h1, h2, h3⟩ := C144_empty c hne P []
      rw [List.map_nil, h1]
      exact Prod.ext (h3.mpr rfl) h2
  · have hold : old ≠ [] := fun e => h0 (List.length_eq_zero_iff.mp (by rw [← hlen, e]; rfl))
    have hsyn := syntax_format c (seq.map fmt) (by simpa using h0) (by simpa using hs)
    obtain ⟨h1, h2⟩ := C144_parse_partial c P (formatAsList c (seq.map fmt)) old hold
    have h3 := h1.mpr ⟨_, hsyn, by simpa using hlen.symm, by
      intro p hp
      obtain ⟨v, hv, rfl⟩ := List.mem_map.mp hp
      rw [hP v hv]; rfl⟩
    refine Prod.ext h3 ?_
    have h4 := h2 _ h3 hsyn
    rw [List.map_map, List.map_congr_left (f := P.parse ∘ fmt) (g := some) (fun v hv => hP v hv)] at h4
    exact List.map_injective_iff.mpr ((fun _ _ e => Option.some.inj e)) h4

/-- The empty sequence does not survive a round trip in a bracketed list syntax: parsing fails. -/
theorem C144_empty_bracketed {V : Type} (c : Config) (hb : c.bracketed = true) (P : Parser V) :
    (parseList c P (formatAsList c []) []).1 = false := by
  simp only [formatAsList, formatElems, hb, if_true, parseList, parseAsList]
  cases body c ([c.openingBracket] ++ spaceIf (spaceInsideBrackets c) ++ [] ++ (spaceIf (spaceInsideBrackets c) ++ [c.closingBracket])) with
  | none => rfl
  | some text => simp

/-! ## C145: lists with elision -/

/-- A trailing section can be elided if the elided elements are equal to the default element, or to the last one of the remaining elements,
whichever is specified, and the number of remaining elements is sufficient. It is not possible to elide everything. -/
def CanElide {V : Type} (default : V) (copyLast : Bool) (minElems : ℕ) (seq : List V) (k : ℕ) : Prop :=
  0 < k ∧ k ≤ seq.length ∧ (k < seq.length → minElems ≤ k) ∧
    ∀ j, k ≤ j → j < seq.length → seq[j]? = if copyLast then seq[k - 1]? else some default

theorem elide_spec {V : Type} [DecidableEq V] (default : V) (copyLast : Bool) (minElems : ℕ) (seq : List V) (hseq : seq ≠ []) :
    CanElide default copyLast minElems seq (elide default copyLast (max minElems 1) seq seq.length) ∧
    ∀ k, CanElide default copyLast minElems seq k → elide default copyLast (max minElems 1) seq seq.length ≤ k := by
  have hpos : 0 < seq.length := List.length_pos_iff.mpr hseq
  suffices h : ∀ i, 0 < i → CanElide default copyLast minElems seq i →
      CanElide default copyLast minElems seq (elide default copyLast (max minElems 1) seq i) ∧
      ∀ k, CanElide default copyLast minElems seq k → elide default copyLast (max minElems 1) seq i ≤ max k (elide default copyLast (max minElems 1) seq i) ∧
        (k ≤ i → elide default copyLast (max minElems 1) seq i ≤ k) by
    obtain ⟨h1, h2⟩ := h seq.length hpos ⟨hpos, le_rfl, fun h => absurd h (lt_irrefl _), fun j h1 h2 => by omega⟩
    exact ⟨h1, fun k hk => (h2 k hk).2 hk.2.1⟩
  intro i
  induction i with
  | zero => intro h; omega
  | succ i ih =>
    intro _ hc
    rw [elide]
    by_cases hcond : i + 1 > max minElems 1 ∧ (if copyLast then seq[i]? = seq[i - 1]? else seq[i]? = some default)
    · rw [if_pos hcond]
      obtain ⟨hm, he⟩ := hcond
      have hi : 0 < i := by omega
      have hci : CanElide default copyLast minElems seq i := by
        obtain ⟨-, c2, c3, c4⟩ := hc
        refine ⟨hi, by omega, fun _ => by omega, ?_⟩
        intro j hj1 hj2
        rcases Nat.lt_or_ge i j with hij | hij
        · rw [c4 j hij hj2]
          cases copyLast
          · rfl
          · simpa using he
        · have : j = i := by omega
          subst this
          cases copyLast
          · simpa using he
          · simpa using he
      obtain ⟨h1, h2⟩ := ih hi hci
      refine ⟨h1, fun k hk => ⟨(h2 k hk).1, fun hki => ?_⟩⟩
      rcases Nat.lt_or_ge i k with h | h
      · have : k = i + 1 := by omega
        subst this
        exact ((h2 i hci).2 le_rfl).trans (by omega)
      · exact (h2 k hk).2 h
    · rw [if_neg hcond]
      refine ⟨hc, fun k hk => ⟨le_max_right _ _, fun hki => ?_⟩⟩
      by_contra hlt
      have hki' : k ≤ i := by omega
      apply hcond
      obtain ⟨k1, k2, k3, k4⟩ := hk
      have hil : i < seq.length := hc.2.1
      refine ⟨by have := k3 (by omega); omega, ?_⟩
      have e1 := k4 i hki' hil
      cases copyLast with
      | false => simpa using e1
      | true =>
        simp only [if_true] at e1 ⊢
        rw [e1]
        rcases Nat.lt_or_ge k i with h | h
        · have e2 := k4 (i - 1) (by omega) (by omega)
          simpa using e2.symm
        · have : k = i := by omega
          subst this
          rfl

/-- When formatting, the longest possible trailing section is elided. -/
theorem C145_longest {V : Type} [DecidableEq V] (c : Config) (fmt : V → List Char) (default : V) (minElems : ℕ) (copyLast : Bool)
    (seq : List V) (hseq : seq ≠ []) : ∃ k, formatListA c fmt default minElems copyLast seq = formatAsList c ((seq.take k).map fmt) ∧
      CanElide default copyLast minElems seq k ∧ ∀ k', CanElide default copyLast minElems seq k' → k ≤ k' :=
  ⟨_, rfl, elide_spec default copyLast minElems seq hseq⟩

example : formatListA {} (fun n : ℕ => [Char.ofNat (48 + n)]) 0 1 false [1, 2, 0, 0] = "1, 2".toList := by decide +kernel
example : formatListA {} (fun n : ℕ => [Char.ofNat (48 + n)]) 0 3 false [1, 2, 0, 0] = "1, 2, 0".toList := by decide +kernel
example : formatListA {} (fun n : ℕ => [Char.ofNat (48 + n)]) 0 1 true [1, 2, 2, 2] = "1, 2".toList := by decide +kernel

/-- What is formatted with elision can be parsed, and the result is the original sequence. -/
theorem C145_round_trip {V : Type} [DecidableEq V] (c : Config) (P : Parser V) (fmt : V → List Char) (default : V) (minElems : ℕ)
    (copyLast : Bool) (seq old : List V) (hlen : old.length = seq.length) (hP : ∀ v ∈ seq, P.parse (fmt v) = some v)
    (hs : ∀ v ∈ seq, Suitable c (fmt v)) (hne : seq ≠ []) :
    parseListA c P default copyLast (formatListA c fmt default minElems copyLast seq) old = (true, seq) := by
  obtain ⟨k, hf, hk, -⟩ := C145_longest c fmt default minElems copyLast seq hne
  rw [hf]
  obtain ⟨k1, k2, k3, k4⟩ := hk
  have hold : old ≠ [] := fun e => hne (List.length_eq_zero_iff.mp (by rw [← hlen, e]; rfl))
  have hsub : ∀ v ∈ seq.take k, v ∈ seq := fun v hv => List.mem_of_mem_take hv
  have htk : (seq.take k).length = k := by simp; omega
  have hsyn := syntax_format c ((seq.take k).map fmt)
    (by intro e; have := congrArg List.length e; rw [List.length_map, htk, List.length_nil] at this; omega)
    (by intro t ht; obtain ⟨v, hv, rfl⟩ := List.mem_map.mp ht; exact hs v (hsub v hv))
  obtain ⟨h1, h2, h3⟩ := parseAsList_spec c P (formatAsList c ((seq.take k).map fmt)) old hold
  have h4 := h2.mpr ⟨_, hsyn, by rw [List.length_map, htk]; omega, by
    intro p hp
    obtain ⟨v, hv, rfl⟩ := List.mem_map.mp hp
    rw [hP v (hsub v hv)]; rfl⟩
  obtain ⟨h5, h6, h7⟩ := h3 h4 _ hsyn
  rw [List.length_map, htk] at h5 h6 h7
  rw [List.map_map, List.map_congr_left (f := P.parse ∘ fmt) (g := some) (fun v hv => hP v (hsub v hv))] at h6
  have h8 := List.map_injective_iff.mpr ((fun _ _ e => Option.some.inj e)) h6
  unfold parseListA
  simp only [h4, if_true, ne_eq, hold, not_false_eq_true, h5, h8, Prod.mk.injEq, true_and]
  have hfill : (if copyLast = true then (parseAsList c P (formatAsList c ((seq.take k).map fmt)) old).2.2.getD (k - 1) default else default) =
      (if copyLast then seq.getD (k - 1) default else default) := by
    cases copyLast with
    | false => rfl
    | true =>
      simp only [if_true]
      have := congrArg (fun l : List V => l[k - 1]?) h8
      simp only [List.getElem?_take, show k - 1 < k by omega, if_true] at this
      rw [List.getD_eq_getElem?_getD, List.getD_eq_getElem?_getD, this]
  rw [hfill]
  conv_rhs => rw [← List.take_append_drop k seq]
  congr 1
  apply List.ext_getElem?
  intro j
  rw [List.getElem?_replicate, List.getElem?_drop, hlen]
  split
  next hj =>
    rw [k4 (k + j) (by omega) (by omega)]
    cases copyLast with
    | false => rfl
    | true =>
      simp only [if_true]
      rw [List.getD_eq_getElem?_getD, List.getElem?_eq_getElem (by omega)]
      rfl
  next hj =>
    rw [List.getElem?_eq_none (by omega)]

/-- Contrary to the documentation, parsing accepts a representation where the number of remaining elements is less than the specified
minimum: the specified minimum plays no role in parsing. Here, it is supposed to be three. -/
theorem C145_minimum_not_enforced : ¬ CanElide 0 false 3 [1, 0, 0, 0] 1 ∧ parseListA {} digit 0 false "1".toList [7, 7, 7, 7] = (true, [1, 0, 0, 0]) := by
  refine ⟨?_, by decide +kernel⟩
  rintro ⟨-, -, h, -⟩
  have := h (by decide)
  omega

/-! ## C146: lists of variable length -/

/-- What is formatted can be parsed, and the result is the original prefix, and its length. Additional elements are untouched. That assumes
that the prefix is not empty. -/
theorem C146_round_trip_partial {V : Type} (c : Config) (P : Parser V) (fmt : V → List Char) (n : ℕ) (seq old : List V) (m : ℕ)
    (hn : 0 < n) (hn' : n ≤ seq.length) (hlen : n ≤ old.length) (hP : ∀ v ∈ seq, P.parse (fmt v) = some v)
    (hs : ∀ v ∈ seq, Suitable c (fmt v)) :
    parseListV c P (formatListV c fmt n seq) m old = (true, n, seq.take n ++ old.drop n) := by
  have hold : old ≠ [] := fun e => by rw [e] at hlen; simp at hlen; omega
  have hsub : ∀ v ∈ seq.take n, v ∈ seq := fun v hv => List.mem_of_mem_take hv
  have htk : (seq.take n).length = n := by simp; omega
  unfold formatListV
  rw [Nat.min_eq_left hn']
  have hsyn := syntax_format c ((seq.take n).map fmt)
    (by intro e; have := congrArg List.length e; rw [List.length_map, htk, List.length_nil] at this; omega)
    (by intro t ht; obtain ⟨v, hv, rfl⟩ := List.mem_map.mp ht; exact hs v (hsub v hv))
  obtain ⟨h1, h2, h3⟩ := parseAsList_spec c P (formatAsList c ((seq.take n).map fmt)) old hold
  have h4 := h2.mpr ⟨_, hsyn, by rw [List.length_map, htk]; omega, by
    intro p hp
    obtain ⟨v, hv, rfl⟩ := List.mem_map.mp hp
    rw [hP v (hsub v hv)]; rfl⟩
  obtain ⟨h5, h6, h7⟩ := h3 h4 _ hsyn
  rw [List.length_map, htk] at h5 h6 h7
  rw [List.map_map, List.map_congr_left (f := P.parse ∘ fmt) (g := some) (fun v hv => hP v (hsub v hv))] at h6
  have h8 := List.map_injective_iff.mpr ((fun _ _ e => Option.some.inj e)) h6
  unfold parseListV
  simp only [h4, if_true, h5, Prod.mk.injEq, true_and]
  rw [← h7]
  exact (List.take_append_drop _ _).symm.trans (congrArg (· ++ _) h8)

example : parseListV {} digit "4, 5".toList 0 [7, 7, 7] = (true, 2, [4, 5, 7]) := by decide +kernel

/-- Parsing succeeds exactly when the string has the right syntax, the number of items is no greater than the size of the sequence, and all
items are valid representations of elements. -/
theorem C146_parse {V : Type} (c : Config) (P : Parser V) (str : List Char) (m : ℕ) (seq : List V) (hseq : seq ≠ []) :
    ((parseListV c P str m seq).1 = true ↔ ∃ ps, Syntax c str ps ∧ ps.length ≤ seq.length ∧ ∀ p ∈ ps, (P.parse p).isSome) ∧
    (∀ ps, (parseListV c P str m seq).1 = true → Syntax c str ps → (parseListV c P str m seq).2.1 = ps.length) ∧
    ((parseListV c P str m seq).1 = false → (parseListV c P str m seq).2.1 = m) := by
  obtain ⟨h1, h2, h3⟩ := parseAsList_spec c P str seq hseq
  unfold parseListV
  rw [← h2]
  cases h : (parseAsList c P str seq).1 with
  | false => simp [h]
  | true => simpa [h] using fun ps hps => (h3 h ps hps).1

/-- The empty prefix does not survive a round trip: parsing fails if the empty string is not a representation of an element. Otherwise, the
result is a prefix with one element. -/
theorem C146_empty :
    formatListV {} (fun n : ℕ => [Char.ofNat (48 + n)]) 0 [1, 2] = [] ∧ (parseListV {} digit [] 0 [7, 7]).1 = false ∧
    parseListV {} anything [] 0 [['a'], ['b']] = (true, 1, [[], ['b']]) ∧
    (parseListV { bracketed := true } digit "[]".toList 0 [7, 7]).1 = false := by decide +kernel

end Verif.AsList
