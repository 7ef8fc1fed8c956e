import Verif.CliPattern.Matcher
import Verif.CliPattern.BuilderLemmas
import Mathlib.Data.List.Forall2
/-!
The automaton over positions that is built from a list of patterns.
-/
namespace Verif.CliPattern

/-- Edges of a pattern at position `G`. -/
def Edge (p : Pat) (G x y : Nat) : Prop := Fol p G x y ∨ (Last p G x ∧ y = G + size p)

/-- Start positions of a pattern at position `G`. -/
def Start (p : Pat) (G q : Nat) : Prop := First p G q ∨ (nul p = true ∧ q = G + size p)

def dummy : PatternSymbol := ⟨.keyword, 0⟩

theorem foldl_starts : ∀ (l : List Nat) (nfa : Nfa), ∃ S, l.foldl (fun nfa pos => nfa.registerStartpos pos) nfa = { nfa with starts := S } ∧
    (nfa.starts.Pairwise (· < ·) → S.Pairwise (· < ·)) ∧ ∀ q, q ∈ S ↔ q ∈ nfa.starts ∨ q ∈ l
  | [], nfa => ⟨nfa.starts, rfl, fun h => h, by simp⟩
  | x :: l, nfa => by
    obtain ⟨S, h1, h2, h3⟩ := foldl_starts l (nfa.registerStartpos x)
    refine ⟨S, by rw [List.foldl_cons, h1]; rfl, fun h => h2 (setInsert_sorted h), ?_⟩
    intro q
    rw [h3]
    simp only [Nfa.registerStartpos, mem_setInsert, List.mem_cons]
    tauto

/-- What adding a pattern does. -/
structure AddSpec (nfa nfa' : Nfa) (pi : Nat) (p : Pat) : Prop where
  infos : nfa'.infos = nfa.infos ++ (infosOf pi 0 (symbols p) ++ [⟨pi, size p, dummy⟩])
  sorted : (∀ x, (nfa.fol x).Pairwise (· < ·)) → ∀ x, (nfa'.fol x).Pairwise (· < ·)
  startsSorted : nfa.starts.Pairwise (· < ·) → nfa'.starts.Pairwise (· < ·)
  edges : ∀ x y, y ∈ nfa'.fol x ↔ y ∈ nfa.fol x ∨ Edge p nfa.positions.length x y
  starts : ∀ q, q ∈ nfa'.starts ↔ q ∈ nfa.starts ∨ Start p nfa.positions.length q

theorem add_spec {t : Tables} {p : Pat} {i : Nat} (h : EncRoot t p i) (pi : Nat) : ∀ nfa : Nfa, ∃ nfa',
    AddSpec nfa nfa' pi p ∧ ∃ N, ∀ fuel, N ≤ fuel → addPattern fuel t i pi nfa = some nfa' := by
  intro nfa
  obtain ⟨hwf, sq, h1, h2, h3, h4, h5⟩ := h
  obtain ⟨n, nfa1, r, st, g1, pf, pl, pn⟩ := (goals t pi p).2.1 hwf sq 0 0 ⟨[], [], true⟩ [] nfa (by simpa using h2.symm)
    (by simpa using h5) (by simp)
  have hlen := g1.length
  rw [infosOf_length, symbols_length] at hlen
  obtain ⟨S, hs1, hs2, hs3⟩ := foldl_starts r.first nfa1
  have hrn : r.nullable = sq.nullable := by rw [pn, h4.1]; simp
  -- the terminal position
  have g2 := create_grow { nfa1 with starts := S } pi (size p) dummy
  generalize hn2 : (Nfa.createPosition { nfa1 with starts := S } pi (size p) dummy).1 = nfa2 at g2
  have hterm : (Nfa.createPosition { nfa1 with starts := S } pi (size p) dummy).2 = nfa.positions.length + size p := hlen
  have hlen2 := g2.length
  simp only [List.length_cons, List.length_nil] at hlen2
  have hpos3 : ∀ nfa3 : Nfa, nfa3 = (if r.nullable = true then nfa2.registerStartpos (nfa.positions.length + size p) else nfa2) →
      nfa3.positions = nfa2.positions ∧ (∀ q, q ∈ nfa3.starts ↔ q ∈ nfa2.starts ∨ (r.nullable = true ∧ q = nfa.positions.length + size p)) ∧
      (nfa2.starts.Pairwise (· < ·) → nfa3.starts.Pairwise (· < ·)) := by
    intro nfa3 h
    subst h
    split
    · next h => exact ⟨rfl, by intro q; simp only [Nfa.registerStartpos, mem_setInsert, h]; tauto, fun h => setInsert_sorted h⟩
    · next h => exact ⟨rfl, by simp [h], fun h => h⟩
  generalize hn3 : (if r.nullable = true then nfa2.registerStartpos (nfa.positions.length + size p) else nfa2) = nfa3 at *
  obtain ⟨hp3, hst3, hss3⟩ := hpos3 nfa3 rfl
  have hfol3 : ∀ x, nfa3.fol x = nfa2.fol x := by intro x; simp only [Nfa.fol, hp3]
  have hfolS : ∀ x, Nfa.fol { nfa1 with starts := S } x = nfa1.fol x := fun x => rfl
  obtain ⟨nfa4, h4', g4⟩ := followAll_grow (q := nfa.positions.length + size p) r.last (nfa := nfa3) (by
    intro x hx
    have := (pl x).1 hx
    simp only [List.not_mem_nil, and_false, or_false] at this
    have := Last_range _ _ _ this
    rw [hp3, hlen2]
    omega)
  have hr0 : r.nullable = nul p := by rw [pn]; simp
  refine ⟨nfa4, ⟨?_, ?_, ?_, ?_, ?_⟩, n + 2, ?_⟩
  · have e3 : nfa3.infos = nfa2.infos := by simp only [Nfa.infos, hp3]
    have e2 : Nfa.infos { nfa1 with starts := S } = nfa1.infos := rfl
    rw [g4.infos, e3, g2.infos, e2, g1.infos]
    simp
  · intro h x
    refine g4.sorted (fun x => ?_) x
    rw [hfol3]
    exact g2.sorted (fun x => by rw [hfolS]; exact g1.sorted h x) x
  · intro h
    rw [g4.starts]
    apply hss3
    rw [g2.starts]
    exact hs2 (by rw [g1.starts]; exact h)
  · intro x y
    rw [g4.edges, hfol3, g2.edges, hfolS, g1.edges]
    simp only [List.not_mem_nil, false_and, or_false, pl, and_false, Edge]
    tauto
  · intro q
    rw [g4.starts, hst3, g2.starts]
    simp only [hs3, g1.starts, pf, List.not_mem_nil, false_or, true_and, hr0, Start]
    tauto
  · intro fuel hfuel
    obtain ⟨k, rfl⟩ := Nat.exists_eq_add_of_le hfuel
    have hb : build t pi (n + 2 + k) ⟨.seqBegin, ⟨.seq sq 0, ⟨[], [], true⟩⟩, [], nfa⟩ = some nfa4 := by
      rw [Nat.add_assoc, build_steps st, show 2 + k = (k + 1) + 1 by omega]
      have hstep : step t pi ⟨.seqBegin, ⟨.seq sq sq.numElems, r⟩, [], nfa1⟩ = some ⟨.finalize, ⟨.seq sq sq.numElems, r⟩, [], nfa1⟩ := by
        simp only [step, Nat.lt_irrefl, if_false, hrn, if_true]
      rw [build, if_neg (by simp), hstep]
      simp only [Option.bind_eq_bind, Option.bind_some]
      rw [build, if_pos rfl]
      simp only [finalize]
      rw [h3, hs1]
      show followAll r.last (Nfa.createPosition { nfa1 with starts := S } pi (size p) dummy).2
        (if r.nullable = true then (Nfa.createPosition { nfa1 with starts := S } pi (size p) dummy).1.registerStartpos
          (Nfa.createPosition { nfa1 with starts := S } pi (size p) dummy).2 else
          (Nfa.createPosition { nfa1 with starts := S } pi (size p) dummy).1) = some nfa4
      rw [hterm, hn2, hn3, h4']
    simp only [addPattern, initSeq, h1, Option.bind_eq_bind, Option.bind_some, hb]

/-- The position of the first symbol of a pattern. -/
def base : List Pat → Nat → Nat
  | _, 0 => 0
  | [], _ + 1 => 0
  | p :: ps, k + 1 => size p + 1 + base ps k

/-- The number of positions. -/
def total (ps : List Pat) : Nat := base ps ps.length

theorem base_append : ∀ (ps qs : List Pat) (k : Nat), k ≤ ps.length → base (ps ++ qs) k = base ps k
  | [], qs, k, h => by simp only [List.length_nil, Nat.le_zero] at h; subst h; cases qs <;> simp [base]
  | p :: ps, qs, 0, _ => by simp [base]
  | p :: ps, qs, k + 1, h => by simp only [List.cons_append, base, base_append ps qs k (by simpa using h)]

theorem base_succ : ∀ (ps : List Pat) (k : Nat) (p : Pat), ps[k]? = some p → base ps (k + 1) = base ps k + size p + 1
  | [], k, p, h => by simp at h
  | q :: ps, 0, p, h => by simp at h; subst h; cases ps <;> simp [base]
  | q :: ps, k + 1, p, h => by
    have := base_succ ps k p (by simpa using h)
    rw [base, this, base]
    omega

theorem base_mono : ∀ (ps : List Pat) (j k : Nat) (p : Pat), ps[j]? = some p → j < k → k ≤ ps.length → base ps j + size p < base ps k := by
  intro ps j k p hj hjk
  induction k with
  | zero => omega
  | succ k ih =>
    intro hk
    obtain ⟨q, hq⟩ : ∃ q, ps[k]? = some q := ⟨ps[k], by simp⟩
    rw [base_succ ps k q hq]
    by_cases h : j = k
    · subst h
      rw [hj] at hq
      cases hq
      omega
    · have := ih (by omega) (by omega)
      omega

theorem base_cover (ps : List Pat) (x : Nat) : ∀ k, k ≤ ps.length → x < base ps k → ∃ j p, ps[j]? = some p ∧ base ps j ≤ x ∧ x ≤ base ps j + size p := by
  intro k
  induction k with
  | zero => intro _ h; simp [base] at h
  | succ k ih =>
    intro hk h
    obtain ⟨q, hq⟩ : ∃ q, ps[k]? = some q := ⟨ps[k], by simp⟩
    rw [base_succ ps k q hq] at h
    by_cases h' : x < base ps k
    · exact ih (by omega) h'
    · exact ⟨k, q, hq, by omega, by omega⟩

theorem base_unique {ps : List Pat} {j k x : Nat} {p q : Pat} (hj : ps[j]? = some p) (hk : ps[k]? = some q) (h1 : base ps j ≤ x)
    (h2 : x ≤ base ps j + size p) (h3 : base ps k ≤ x) (h4 : x ≤ base ps k + size q) : j = k := by
  have hj' := (List.getElem?_eq_some_iff.1 hj).1
  have hk' := (List.getElem?_eq_some_iff.1 hk).1
  rcases Nat.lt_trichotomy j k with h | h | h
  · have := base_mono ps j k p hj h (by omega); omega
  · exact h
  · have := base_mono ps k j q hk h (by omega); omega

/-- The automaton is that of the given patterns. -/
structure NfaOf (nfa : Nfa) (ps : List Pat) : Prop where
  length : nfa.positions.length = total ps
  infos : ∀ k p, ps[k]? = some p → ∀ j, j ≤ size p → nfa.infos[base ps k + j]? = some ⟨k, j, ((symbols p)[j]?).getD dummy⟩
  sorted : ∀ x, (nfa.fol x).Pairwise (· < ·)
  startsSorted : nfa.starts.Pairwise (· < ·)
  edges : ∀ x y, y ∈ nfa.fol x ↔ ∃ k p, ps[k]? = some p ∧ Edge p (base ps k) x y
  starts : ∀ q, q ∈ nfa.starts ↔ ∃ k p, ps[k]? = some p ∧ Start p (base ps k) q

theorem infosOf_get (pi : Nat) : ∀ (l : List PatternSymbol) (b j : Nat), (infosOf pi b l)[j]? = (l[j]?).map (fun s => ⟨pi, b + j, s⟩)
  | [], b, j => by simp [infosOf]
  | s :: l, b, 0 => by simp [infosOf]
  | s :: l, b, j + 1 => by
    simp only [infosOf, List.getElem?_cons_succ, infosOf_get pi l]
    congr 1
    funext s
    congr 1
    omega

theorem NfaOf.nil : NfaOf ⟨[], []⟩ [] := by
  refine ⟨rfl, by simp, ?_, by simp, ?_, by simp⟩
  · intro x; simp [Nfa.fol]
  · intro x y; simp [Nfa.fol]

theorem NfaOf.snoc {nfa nfa' : Nfa} {ps : List Pat} {p : Pat} (h : NfaOf nfa ps) (a : AddSpec nfa nfa' ps.length p) :
    NfaOf nfa' (ps ++ [p]) := by
  have hbase : base (ps ++ [p]) ps.length = nfa.positions.length := by rw [base_append _ _ _ (Nat.le_refl _), h.length, total]
  have hget : ∀ k q, (ps ++ [p])[k]? = some q ↔ ps[k]? = some q ∨ (k = ps.length ∧ q = p) := by
    intro k q
    rcases Nat.lt_trichotomy k ps.length with h | h | h
    · rw [List.getElem?_append_left h]
      simp only [show k ≠ ps.length by omega, false_and, or_false]
    · subst h
      simp [eq_comm]
    · rw [List.getElem?_eq_none (by simp; omega), List.getElem?_eq_none (by omega)]
      simp only [reduceCtorEq, false_or, false_iff]
      omega
  refine ⟨?_, ?_, a.sorted h.sorted, a.startsSorted h.startsSorted, ?_, ?_⟩
  · have := congrArg List.length a.infos
    simp only [Nfa.infos, List.length_map, List.length_append, infosOf_length, symbols_length, List.length_cons, List.length_nil] at this
    rw [this, total, List.length_append, List.length_singleton, base_succ _ _ p (by simp), hbase]
    omega
  · intro k q hq j hj
    rw [a.infos]
    rcases (hget k q).1 hq with hq | ⟨rfl, rfl⟩
    · have hk := (List.getElem?_eq_some_iff.1 hq).1
      have := base_mono ps k ps.length q hq hk (Nat.le_refl _)
      rw [base_append _ _ _ (by omega), List.getElem?_append_left (by rw [Nfa.infos, List.length_map, h.length, total]; omega)]
      exact h.infos k q hq j hj
    · have hl : nfa.infos.length = nfa.positions.length := by simp [Nfa.infos]
      rw [hbase, List.getElem?_append_right (by omega), hl, Nat.add_sub_cancel_left]
      by_cases hj' : j < size q
      · rw [List.getElem?_append_left (by rw [infosOf_length, symbols_length]; exact hj'), infosOf_get]
        obtain ⟨s, hs⟩ : ∃ s, (symbols q)[j]? = some s := ⟨(symbols q)[j]'(by rw [symbols_length]; exact hj'), by simp⟩
        simp [hs]
      · have : j = size q := by omega
        subst this
        rw [List.getElem?_append_right (by rw [infosOf_length, symbols_length]; exact Nat.le_refl _), infosOf_length, symbols_length,
          List.getElem?_eq_none (l := symbols q) (by rw [symbols_length]; exact Nat.le_refl _)]
        simp
  · intro x y
    rw [a.edges, h.edges]
    constructor
    · rintro (⟨k, q, hq, he⟩ | he)
      · refine ⟨k, q, (hget k q).2 (Or.inl hq), ?_⟩
        rwa [base_append _ _ _ (Nat.le_of_lt (List.getElem?_eq_some_iff.1 hq).1)]
      · exact ⟨ps.length, p, (hget _ _).2 (Or.inr ⟨rfl, rfl⟩), by rwa [hbase]⟩
    · rintro ⟨k, q, hq, he⟩
      rcases (hget k q).1 hq with hq | ⟨rfl, rfl⟩
      · refine Or.inl ⟨k, q, hq, ?_⟩
        rwa [base_append _ _ _ (Nat.le_of_lt (List.getElem?_eq_some_iff.1 hq).1)] at he
      · exact Or.inr (by rwa [hbase] at he)
  · intro x
    rw [a.starts, h.starts]
    constructor
    · rintro (⟨k, q, hq, he⟩ | he)
      · refine ⟨k, q, (hget k q).2 (Or.inl hq), ?_⟩
        rwa [base_append _ _ _ (Nat.le_of_lt (List.getElem?_eq_some_iff.1 hq).1)]
      · exact ⟨ps.length, p, (hget _ _).2 (Or.inr ⟨rfl, rfl⟩), by rwa [hbase]⟩
    · rintro ⟨k, q, hq, he⟩
      rcases (hget k q).1 hq with hq | ⟨rfl, rfl⟩
      · refine Or.inl ⟨k, q, hq, ?_⟩
        rwa [base_append _ _ _ (Nat.le_of_lt (List.getElem?_eq_some_iff.1 hq).1)] at he
      · exact Or.inr (by rwa [hbase] at he)

/-- The tables describe each of the patterns. -/
def Described (t : Tables) (specs : List PatternSpec) (ps : List Pat) : Prop :=
  List.Forall₂ (fun (s : PatternSpec) p => EncRoot t p s.elemSeqIndex) specs ps

theorem buildNfa_spec {t : Tables} : ∀ (specs : List PatternSpec) (qs ps : List Pat) (nfa : Nfa), Described t specs qs → NfaOf nfa ps →
    ∃ nfa', NfaOf nfa' (ps ++ qs) ∧ ∃ N, ∀ fuel, N ≤ fuel → buildNfa fuel t specs ps.length nfa = .ok nfa'
  | [], _, ps, nfa, .nil, h => ⟨nfa, by simpa using h, 0, fun _ _ => rfl⟩
  | s :: specs, q :: qs, ps, nfa, .cons hq hqs, h => by
    obtain ⟨nfa1, a1, N1, h1⟩ := add_spec hq ps.length nfa
    obtain ⟨nfa2, a2, N2, h2⟩ := buildNfa_spec specs qs (ps ++ [q]) nfa1 hqs (h.snoc a1)
    refine ⟨nfa2, by simpa using a2, max N1 N2, ?_⟩
    intro fuel hf
    have := h2 fuel (by omega)
    simp only [List.length_append, List.length_singleton] at this
    simp only [buildNfa, h1 fuel (by omega), need]
    exact this

end Verif.CliPattern
