import Verif.CliPattern.Trace
/-!
The deterministic automaton that is built from the automaton over positions.
-/
namespace Verif.CliPattern

theorem PatternSymbol.lt_iff (a b : PatternSymbol) : a.lt b = true ↔ a.type.rank < b.type.rank ∨ (a.type = b.type ∧ a.index < b.index) := by
  simp [PatternSymbol.lt]

theorem SymType.rank_inj {a b : SymType} (h : a.rank = b.rank) : a = b := by cases a <;> cases b <;> first | rfl | simp [SymType.rank] at h

theorem PatternSymbol.lt_trans {a b c : PatternSymbol} (h : a.lt b = true) (h' : b.lt c = true) : a.lt c = true := by
  rw [PatternSymbol.lt_iff] at *
  rcases h with h | ⟨h1, h2⟩ <;> rcases h' with h' | ⟨h3, h4⟩
  · left; omega
  · left; rw [← h3]; exact h
  · left; rw [h1]; exact h'
  · right; exact ⟨h1.trans h3, by omega⟩

theorem PatternSymbol.lt_irrefl (a : PatternSymbol) : a.lt a = false := by
  rw [Bool.eq_false_iff, Ne, PatternSymbol.lt_iff]
  omega

theorem PatternSymbol.eq_of_not_lt {a b : PatternSymbol} (h : ¬ a.lt b = true) (h' : ¬ b.lt a = true) : a = b := by
  rw [PatternSymbol.lt_iff] at *
  have h1 : a.type.rank = b.type.rank := by omega
  have h2 := SymType.rank_inj h1
  have h3 : a.index = b.index := by
    apply Classical.byContradiction
    intro h3
    rcases Nat.lt_or_gt_of_ne h3 with h3 | h3
    · exact h (Or.inr ⟨h2, h3⟩)
    · exact h' (Or.inr ⟨h2.symm, h3⟩)
  cases a; cases b; simp_all

/-- Sorted lists with the same elements are the same. -/
theorem sorted_ext : ∀ {l l' : List Nat}, l.Pairwise (· < ·) → l'.Pairwise (· < ·) → (∀ x, x ∈ l ↔ x ∈ l') → l = l'
  | [], [], _, _, _ => rfl
  | [], y :: l', _, _, h => absurd ((h y).2 (by simp)) (by simp)
  | x :: l, [], _, _, h => absurd ((h x).1 (by simp)) (by simp)
  | x :: l, y :: l', hl, hl', h => by
    rw [List.pairwise_cons] at hl hl'
    have hxy : x = y := by
      have h1 := (h x).1 (by simp)
      have h2 := (h y).2 (by simp)
      simp only [List.mem_cons] at h1 h2
      rcases h1 with h1 | h1
      · exact h1
      · rcases h2 with h2 | h2
        · exact h2.symm
        · have := hl.1 y h2; have := hl'.1 x h1; omega
    subst hxy
    congr 1
    apply sorted_ext hl.2 hl'.2
    intro z
    constructor
    · intro hz
      have := hl.1 z hz
      have h1 := (h z).1 (by simp [hz])
      simp only [List.mem_cons] at h1
      rcases h1 with h1 | h1
      · omega
      · exact h1
    · intro hz
      have := hl'.1 z hz
      have h1 := (h z).2 (by simp [hz])
      simp only [List.mem_cons] at h1
      rcases h1 with h1 | h1
      · omega
      · exact h1

/-- The index of the pattern of a position. -/
def Nfa.pat (nfa : Nfa) (x : Nat) : Nat :=
  match nfa.positions[x]? with
  | some p => p.patternIndex
  | none => 0

section
variable {nfa : Nfa} {ps : List Pat} (hn : NfaOf nfa ps) (hwf : ∀ p ∈ ps, Wf p .seq)

theorem get_pos {x : Nat} (h : x < nfa.positions.length) :
    ∃ P, nfa.positions[x]? = some P ∧ P.followpos = nfa.fol x ∧ P.patternIndex = nfa.pat x ∧ nfa.sym x = some P.symbol := by
  refine ⟨nfa.positions[x], by simp, ?_, ?_, ?_⟩
  · simp [Nfa.fol, List.getElem?_eq_getElem h]
  · simp [Nfa.pat, List.getElem?_eq_getElem h]
  · simp [Nfa.sym, List.getElem?_eq_getElem h]

include hn in
theorem pat_eq {k : Nat} {p : Pat} (hk : ps[k]? = some p) {x : Nat} (h1 : base ps k ≤ x) (h2 : x ≤ base ps k + size p) : nfa.pat x = k := by
  obtain ⟨P, h3, h4, _⟩ := pattern_eq hn hk h1 h2
  simp only [Nfa.pat, h3, h4]

include hn hwf

/-- What is known about final positions. -/
theorem final_pos {x : Nat} (hx : x < nfa.positions.length) (h : nfa.fol x = []) :
    ∃ p, ps[nfa.pat x]? = some p ∧ x = base ps (nfa.pat x) + size p := by
  obtain ⟨k, p, hk, h1, h2⟩ := cover hn hx
  have := (final_iff hn hk (hwf p (List.mem_of_getElem? hk)) h1 h2).1 h
  refine ⟨p, ?_, ?_⟩
  · rw [pat_eq hn hk h1 h2]; exact hk
  · rw [pat_eq hn hk h1 h2]; exact this

theorem pat_lt {x y : Nat} (hx : x < nfa.positions.length) (hy : y < nfa.positions.length) (hfx : nfa.fol x = []) (hfy : nfa.fol y = [])
    (h : x < y) : nfa.pat x < nfa.pat y := by
  obtain ⟨p, h1, h2⟩ := final_pos hn hwf hx hfx
  obtain ⟨q, h3, h4⟩ := final_pos hn hwf hy hfy
  apply Classical.byContradiction
  intro hle
  by_cases he : nfa.pat x = nfa.pat y
  · rw [he, h3] at h1
    cases h1
    rw [he] at h2
    omega
  · have := base_mono ps _ _ q h3 (show nfa.pat y < nfa.pat x by omega) (Nat.le_of_lt (List.getElem?_eq_some_iff.1 h1).1)
    omega

theorem findFinal_spec (config : Config) : ∀ (l : List Nat) (acc : Option Nat), l.Pairwise (· < ·) → (∀ x ∈ l, x < nfa.positions.length) →
    (∀ a, acc = some a → nfa.fol a = [] ∧ a < nfa.positions.length ∧ ∀ x ∈ l, a < x) →
    (∃ r, findFinal config nfa l acc = .ok r ∧ r = acc.or (l.find? (fun x => (nfa.fol x).isEmpty)) ∧
      (config.allowCross = false → ∀ x ∈ acc.toList ++ l, ∀ y ∈ acc.toList ++ l, nfa.fol x = [] → nfa.fol y = [] → x = y)) ∨
    (∃ x y, x ∈ acc.toList ++ l ∧ y ∈ l ∧ x < y ∧ nfa.fol x = [] ∧ nfa.fol y = [] ∧ config.allowCross = false ∧
      findFinal config nfa l acc = .error (.cross (1 + nfa.pat x) (1 + nfa.pat y)))
  | [], acc, _, _, hacc => by
    left
    refine ⟨acc, rfl, by simp, ?_⟩
    intro _ x hx y hy _ _
    cases acc <;> simp_all
  | pos :: l, acc, hl, hr, hacc => by
    rw [List.pairwise_cons] at hl
    obtain ⟨P, h1, h2, h3, _⟩ := get_pos (hr pos (by simp))
    have hr' : ∀ x ∈ l, x < nfa.positions.length := fun x hx => hr x (by simp [hx])
    have hunf : findFinal config nfa (pos :: l) acc = (if !P.followpos.isEmpty then findFinal config nfa l acc
        else match (generalizing := false) acc with
          | none => findFinal config nfa l (some pos)
          | some prior => do
            let priorPosition ← need nfa.positions[prior]?
            if priorPosition.patternIndex < P.patternIndex then
              if config.allowCross then findFinal config nfa l acc
              else .error (.cross (1 + priorPosition.patternIndex) (1 + P.patternIndex))
            else .error .ub) := by
      rw [findFinal, h1]; rfl
    rw [hunf, h2]
    by_cases hf : nfa.fol pos = []
    · simp only [hf, List.isEmpty_nil, Bool.not_true, Bool.false_eq_true, if_false]
      cases acc with
      | none =>
        rcases findFinal_spec config l (some pos) hl.2 hr' (by
          intro a ha
          cases ha
          exact ⟨hf, hr _ (by simp), hl.1⟩) with ⟨r, h4, h5, h6⟩ | ⟨x, y, h4, h5, h6⟩
        · exact Or.inl ⟨r, h4, by rw [h5]; simp [hf], fun h => h6 h⟩
        · exact Or.inr ⟨x, y, by simpa using h4, by simp [h5], h6⟩
      | some a =>
        obtain ⟨ha1, ha2, ha3⟩ := hacc a rfl
        obtain ⟨Q, h4, h5, h6, _⟩ := get_pos ha2
        have hlt := pat_lt hn hwf ha2 (hr pos (by simp)) ha1 hf (ha3 pos (by simp))
        simp only [h4, need, bind, Except.bind, h6, h3, if_pos hlt]
        cases hc : config.allowCross with
        | true =>
          simp only [if_true]
          rcases findFinal_spec config l (some a) hl.2 hr' (by
            intro b hb
            cases hb
            exact ⟨ha1, ha2, fun x hx => ha3 x (by simp [hx])⟩) with ⟨r, h4, h5, h6⟩ | ⟨x, y, h4, h5, h6, h7, h8, h9, h10⟩
          · exact Or.inl ⟨r, h4, by rw [h5]; simp, fun h => by simp at h⟩
          · rw [hc] at h9; simp at h9
        | false =>
          exact Or.inr ⟨a, pos, by simp, by simp, ha3 pos (by simp), ha1, hf, rfl, rfl⟩
    · have hne : (nfa.fol pos).isEmpty = false := by cases h : nfa.fol pos <;> simp_all
      simp only [hne, Bool.not_false, if_true]
      rcases findFinal_spec config l acc hl.2 hr' (by
          intro b hb
          obtain ⟨hb1, hb2, hb3⟩ := hacc b hb
          exact ⟨hb1, hb2, fun x hx => hb3 x (by simp [hx])⟩) with ⟨r, h4, h5, h6⟩ | ⟨x, y, h4, h5, h6⟩
      · refine Or.inl ⟨r, h4, by rw [h5, List.find?_cons]; simp [hne], ?_⟩
        intro hc x hx y hy hfx hfy
        refine h6 hc x ?_ y ?_ hfx hfy
        · simp only [List.mem_append, List.mem_cons] at hx ⊢
          rcases hx with hx | rfl | hx
          · exact Or.inl hx
          · exact absurd hfx hf
          · exact Or.inr hx
        · simp only [List.mem_append, List.mem_cons] at hy ⊢
          rcases hy with hy | rfl | hy
          · exact Or.inl hy
          · exact absurd hfy hf
          · exact Or.inr hy
      · refine Or.inr ⟨x, y, ?_, by simp [h5], h6⟩
        simp only [List.mem_append, List.mem_cons] at h4 ⊢
        tauto

end

section
variable {nfa : Nfa} {config : Config}

theorem reportConflict_spec {pos : Nat} {P : Position} {pos2 : Nat} (hP : P.patternIndex = nfa.pat pos) : ∀ (l : List Nat),
    (∀ x ∈ l, x < nfa.positions.length) → (∃ x ∈ l, nfa.sym x = some P.symbol ∧ pos2 ∈ nfa.fol x) →
    ∃ x ∈ l, nfa.sym x = some P.symbol ∧ pos2 ∈ nfa.fol x ∧
      reportConflict nfa pos P pos2 l = .error (.positional (1 + nfa.pat pos) (1 + x) (1 + pos))
  | [], _, h => by simp at h
  | y :: l, hl, h => by
    obtain ⟨Q, h1, h2, h3, h4⟩ := get_pos (hl y (by simp))
    simp only [reportConflict, h1, need, bind, Except.bind, hP, h2]
    by_cases hc : Q.symbol = P.symbol ∧ pos2 ∈ nfa.fol y
    · rw [if_pos hc]
      exact ⟨y, by simp, by rw [h4, hc.1], hc.2, rfl⟩
    · rw [if_neg hc]
      obtain ⟨x, hx, h5, h6⟩ := h
      rcases List.mem_cons.1 hx with rfl | hx
      · rw [h4] at h5
        exact absurd ⟨Option.some.inj h5, h6⟩ hc
      · obtain ⟨z, hz, h7⟩ := reportConflict_spec hP l (fun x hx => hl x (by simp [hx])) ⟨x, hx, h5, h6⟩
        exact ⟨z, by simp [hz], h7⟩

theorem addFollow_spec {earlier : List Nat} {pos : Nat} {P : Position} (hP : P.patternIndex = nfa.pat pos)
    (he : ∀ x ∈ earlier, x < nfa.positions.length) : ∀ (fp set : List Nat), fp.Pairwise (· < ·) → set.Pairwise (· < ·) →
    (∀ q ∈ fp, q ∈ set → ∃ x ∈ earlier, nfa.sym x = some P.symbol ∧ q ∈ nfa.fol x) →
    (∃ set', addFollow config nfa earlier pos P fp set = .ok set' ∧ set'.Pairwise (· < ·) ∧ (∀ q, q ∈ set' ↔ q ∈ set ∨ q ∈ fp) ∧
      (config.allowPositional = false → ∀ q ∈ fp, q ∉ set)) ∨
    (config.allowPositional = false ∧ ∃ q x, q ∈ fp ∧ q ∈ set ∧ x ∈ earlier ∧ nfa.sym x = some P.symbol ∧ q ∈ nfa.fol x ∧
      addFollow config nfa earlier pos P fp set = .error (.positional (1 + nfa.pat pos) (1 + x) (1 + pos)))
  | [], set, _, hs, _ => Or.inl ⟨set, rfl, hs, by simp, by simp⟩
  | q :: fp, set, hf, hs, hc => by
    rw [List.pairwise_cons] at hf
    simp only [addFollow]
    by_cases hb : ((setInsert q set).2 || config.allowPositional) = true
    · rw [if_pos hb]
      have hq : ∀ r ∈ fp, r ∈ (setInsert q set).1 → r ∈ set := by
        intro r hr h
        rcases mem_setInsert.1 h with rfl | h
        · exact absurd (hf.1 _ hr) (Nat.lt_irrefl _)
        · exact h
      rcases addFollow_spec hP he fp (setInsert q set).1 hf.2 (setInsert_sorted hs)
        (fun r hr h => hc r (by simp [hr]) (hq r hr h)) with ⟨set', h1, h2, h3, h4⟩ | ⟨h1, r, x, h2, h3, h4⟩
      · refine Or.inl ⟨set', h1, h2, ?_, ?_⟩
        · intro r; rw [h3, mem_setInsert, List.mem_cons]; tauto
        · intro ha r hr
          rcases List.mem_cons.1 hr with rfl | hr
          · rw [ha, Bool.or_false, setInsert_inserted hs] at hb
            exact hb
          · intro h
            exact h4 ha r hr (mem_setInsert.2 (Or.inr h))
      · exact Or.inr ⟨h1, r, x, by simp [h2], hq r h2 h3, h4⟩
    · rw [if_neg hb]
      simp only [Bool.or_eq_true, not_or] at hb
      rw [setInsert_inserted hs] at hb
      have hq : q ∈ set := Classical.not_not.1 hb.1
      obtain ⟨x, h1, h2, h3, h4⟩ := reportConflict_spec hP earlier he (hc q (by simp) hq)
      exact Or.inr ⟨by simpa using hb.2, q, x, by simp, hq, h1, h2, h3, h4⟩

/-- The entry of a symbol. -/
def lookT (a : PatternSymbol) : List (PatternSymbol × List Nat) → List Nat
  | [] => []
  | (b, set) :: l => if a = b then set else lookT a l

theorem lookT_lt {a : PatternSymbol} : ∀ {l : List (PatternSymbol × List Nat)}, (∀ e ∈ l, a.lt e.1 = true) → lookT a l = []
  | [], _ => rfl
  | (b, set) :: l, h => by
    have h1 := h (b, set) (by simp)
    rw [lookT, if_neg, lookT_lt (fun e he => h e (by simp [he]))]
    rintro rfl
    simp [PatternSymbol.lt_irrefl] at h1

theorem modifyTarget_spec {a : PatternSymbol} {f : List Nat → Res (List Nat)} : ∀ (l : List (PatternSymbol × List Nat)),
    l.Pairwise (fun e e' => e.1.lt e'.1 = true) →
    (∃ set', f (lookT a l) = .ok set' ∧ ∃ l', modifyTarget a f l = .ok l' ∧ l'.Pairwise (fun e e' => e.1.lt e'.1 = true) ∧
      (∀ e, e ∈ l' ↔ e = (a, set') ∨ (e.1 ≠ a ∧ e ∈ l))) ∨
    (∃ e, f (lookT a l) = .error e ∧ modifyTarget a f l = .error e)
  | [], _ => by
    cases h : f [] with
    | ok set' => exact Or.inl ⟨set', by simp [lookT, h], [(a, set')], by simp [modifyTarget, h, bind, Except.bind], by simp, by simp⟩
    | error e => exact Or.inr ⟨e, by simp [lookT, h], by simp [modifyTarget, h, bind, Except.bind]⟩
  | (b, set) :: l, hl => by
    rw [List.pairwise_cons] at hl
    by_cases h1 : a.lt b = true
    · have hl' : ∀ e ∈ (b, set) :: l, a.lt e.1 = true := by
        intro e he
        rcases List.mem_cons.1 he with rfl | he
        · exact h1
        · exact PatternSymbol.lt_trans h1 (hl.1 e he)
      rw [lookT_lt hl']
      simp only [modifyTarget, h1, if_true]
      cases h : f [] with
      | ok set' =>
        refine Or.inl ⟨set', rfl, _, rfl, ?_, ?_⟩
        · rw [List.pairwise_cons, List.pairwise_cons]; exact ⟨hl', hl⟩
        · intro e
          rw [List.mem_cons]
          constructor
          · rintro (h | h)
            · exact Or.inl h
            · refine Or.inr ⟨?_, h⟩
              intro he
              have := hl' e h
              rw [he, PatternSymbol.lt_irrefl] at this
              simp at this
          · tauto
      | error e => exact Or.inr ⟨e, rfl, rfl⟩
    · by_cases h2 : b.lt a = true
      · have hne : a ≠ b := by rintro rfl; exact h1 h2
        have hlook : lookT a ((b, set) :: l) = lookT a l := by rw [lookT, if_neg hne]
        rw [hlook]
        simp only [modifyTarget, h1, h2, if_true, Bool.false_eq_true, if_false]
        rcases modifyTarget_spec (a := a) (f := f) l hl.2 with ⟨set', h3, l', h4, h5, h6⟩ | ⟨e, h3, h4⟩
        · refine Or.inl ⟨set', h3, (b, set) :: l', by simp [h4, bind, Except.bind], ?_, ?_⟩
          · rw [List.pairwise_cons]
            refine ⟨?_, h5⟩
            intro e he
            rcases (h6 e).1 he with rfl | ⟨_, he⟩
            · exact h2
            · exact hl.1 e he
          · intro e
            rw [List.mem_cons, h6, List.mem_cons]
            constructor
            · rintro (h | h | h)
              · subst h; exact Or.inr ⟨fun h => hne h.symm, Or.inl rfl⟩
              · exact Or.inl h
              · exact Or.inr ⟨h.1, Or.inr h.2⟩
            · tauto
        · exact Or.inr ⟨e, h3, by simp [h4, bind, Except.bind]⟩
      · have hab := PatternSymbol.eq_of_not_lt h1 h2
        subst hab
        simp only [modifyTarget, h1, Bool.false_eq_true, if_false, lookT, if_true]
        cases h : f set with
        | ok set' =>
          refine Or.inl ⟨set', rfl, _, rfl, ?_, ?_⟩
          · rw [List.pairwise_cons]; exact hl
          · intro e
            rw [List.mem_cons, List.mem_cons]
            constructor
            · rintro (h | h)
              · exact Or.inl h
              · refine Or.inr ⟨?_, Or.inr h⟩
                intro he
                have := hl.1 e h
                rw [he, PatternSymbol.lt_irrefl] at this
                simp at this
            · rintro (h | ⟨h, h' | h'⟩)
              · exact Or.inl h
              · subst h'; exact absurd rfl h
              · exact Or.inr h'
        | error e => exact Or.inr ⟨e, rfl, rfl⟩

theorem lookT_mem {a : PatternSymbol} {set : List Nat} : ∀ {l : List (PatternSymbol × List Nat)},
    l.Pairwise (fun e e' => e.1.lt e'.1 = true) → (a, set) ∈ l → lookT a l = set
  | [], _, h => by simp at h
  | (b, s) :: l, hl, h => by
    rw [List.pairwise_cons] at hl
    rcases List.mem_cons.1 h with h | h
    · cases h; simp [lookT]
    · have := hl.1 _ h
      rw [lookT, if_neg, lookT_mem hl.2 h]
      rintro rfl
      simp [PatternSymbol.lt_irrefl] at this

theorem lookT_not_mem {a : PatternSymbol} : ∀ {l : List (PatternSymbol × List Nat)}, (∀ set, (a, set) ∉ l) → lookT a l = []
  | [], _ => rfl
  | (b, s) :: l, h => by
    rw [lookT, if_neg, lookT_not_mem (fun set hs => h set (by simp [hs]))]
    rintro rfl
    exact h s (by simp)

/-- The targets of the given positions. -/
structure TargetsOf (nfa : Nfa) (l : List Nat) (targets : List (PatternSymbol × List Nat)) : Prop where
  keys : targets.Pairwise (fun e e' => e.1.lt e'.1 = true)
  sets : ∀ a set, (a, set) ∈ targets → set.Pairwise (· < ·) ∧ set ≠ [] ∧ ∀ q, q ∈ set ↔ Next nfa (· ∈ l) a q
  all : ∀ a q, Next nfa (· ∈ l) a q → ∃ set, (a, set) ∈ targets

/-- Two positions have the same symbol and a common successor. -/
def Conflict (nfa : Nfa) (l : List Nat) (x y : Nat) : Prop :=
  x ∈ l ∧ y ∈ l ∧ x ≠ y ∧ nfa.sym x = nfa.sym y ∧ ∃ q, q ∈ nfa.fol x ∧ q ∈ nfa.fol y

theorem findTargets_spec (hsorted : ∀ x, (nfa.fol x).Pairwise (· < ·)) : ∀ (l earlier : List Nat) (targets : List (PatternSymbol × List Nat)),
    (earlier ++ l).Pairwise (· < ·) → (∀ x ∈ earlier ++ l, x < nfa.positions.length) → TargetsOf nfa earlier targets →
    (config.allowPositional = false → ∀ x y, ¬ Conflict nfa earlier x y) →
    (∃ targets', findTargets config nfa earlier l targets = .ok targets' ∧ TargetsOf nfa (earlier ++ l) targets' ∧
      (config.allowPositional = false → ∀ x y, ¬ Conflict nfa (earlier ++ l) x y)) ∨
    (config.allowPositional = false ∧ ∃ x y, Conflict nfa (earlier ++ l) x y ∧
      findTargets config nfa earlier l targets = .error (.positional (1 + nfa.pat y) (1 + x) (1 + y)))
  | [], earlier, targets, _, _, ht, hc => Or.inl ⟨targets, rfl, by simpa using ht, by simpa using hc⟩
  | pos :: l, earlier, targets, hs, hr, ht, hc => by
    have hs' : ((earlier ++ [pos]) ++ l).Pairwise (· < ·) := by simpa using hs
    have hr' : ∀ x ∈ (earlier ++ [pos]) ++ l, x < nfa.positions.length := by simpa using hr
    have happ : earlier ++ pos :: l = (earlier ++ [pos]) ++ l := by simp
    obtain ⟨P, h1, h2, h3, h4⟩ := get_pos (hr pos (by simp))
    have hlt : ∀ x ∈ earlier, x < pos := by
      intro x hx
      exact (List.pairwise_append.1 hs).2.2 x hx pos (by simp)
    by_cases hf : nfa.fol pos = []
    · have hunf : findTargets config nfa earlier (pos :: l) targets = findTargets config nfa (earlier ++ [pos]) l targets := by
        rw [findTargets, h1]
        simp [need, bind, Except.bind, h2, hf]
      have hnext : ∀ a q, Next nfa (· ∈ earlier ++ [pos]) a q ↔ Next nfa (· ∈ earlier) a q := by
        intro a q
        constructor
        · rintro ⟨x, hx, h5, h6⟩
          rcases List.mem_append.1 hx with hx | hx
          · exact ⟨x, hx, h5, h6⟩
          · have hx := List.mem_singleton.1 hx
            rw [hx, hf] at h6
            simp at h6
        · rintro ⟨x, hx, h5⟩; exact ⟨x, by simp [hx], h5⟩
      rw [hunf, happ]
      apply findTargets_spec hsorted l (earlier ++ [pos]) targets hs' hr'
      · exact ⟨ht.keys, fun a set h => by simp only [hnext]; exact ht.sets a set h, fun a q h => ht.all a q ((hnext a q).1 h)⟩
      · intro ha x y ⟨hx, hy, h5, h6, q, h7, h8⟩
        have : ∀ z q, z ∈ earlier ++ [pos] → q ∈ nfa.fol z → z ∈ earlier := by
          intro z q hz hq
          rcases List.mem_append.1 hz with hz | hz
          · exact hz
          · have hz := List.mem_singleton.1 hz
            rw [hz, hf] at hq
            simp at hq
        exact hc ha x y ⟨this x q hx h7, this y q hy h8, h5, h6, q, h7, h8⟩
    · have hne : (nfa.fol pos).isEmpty = false := by simpa using hf
      have hunf : findTargets config nfa earlier (pos :: l) targets =
          (modifyTarget P.symbol (addFollow config nfa earlier pos P (nfa.fol pos)) targets >>= fun targets =>
            findTargets config nfa (earlier ++ [pos]) l targets) := by
        rw [findTargets, h1]
        simp [need, bind, Except.bind, h2, hne]
      have hlook : (lookT P.symbol targets).Pairwise (· < ·) ∧ ∀ q, q ∈ lookT P.symbol targets ↔ Next nfa (· ∈ earlier) P.symbol q := by
        by_cases h : ∃ set, (P.symbol, set) ∈ targets
        · obtain ⟨set, hset⟩ := h
          rw [lookT_mem ht.keys hset]
          have := ht.sets _ _ hset
          exact ⟨this.1, this.2.2⟩
        · rw [lookT_not_mem (fun set hs => h ⟨set, hs⟩)]
          refine ⟨by simp, fun q => ?_⟩
          simp only [List.not_mem_nil, false_iff]
          exact fun hq => h (ht.all _ q hq)
      have hadd := addFollow_spec (earlier := earlier) (config := config) h3 (fun x hx => hr x (by simp [hx])) (nfa.fol pos) (lookT P.symbol targets)
        (hsorted pos) hlook.1 (by
          intro q _ hq
          obtain ⟨x, hx, h5, h6⟩ := (hlook.2 q).1 hq
          exact ⟨x, hx, h5, h6⟩)
      rcases modifyTarget_spec (a := P.symbol) (f := addFollow config nfa earlier pos P (nfa.fol pos)) targets ht.keys with
        ⟨set', h5, targets', h6, h7, h8⟩ | ⟨e, h5, h6⟩
      · rcases hadd with ⟨set'', h9, h10, h11, h12⟩ | ⟨_, _, _, _, _, _, _, _, h9⟩
        · rw [h5] at h9
          cases h9
          rw [hunf, h6, happ]
          have hnext : ∀ a q, Next nfa (· ∈ earlier ++ [pos]) a q ↔ Next nfa (· ∈ earlier) a q ∨ (P.symbol = a ∧ q ∈ nfa.fol pos) := by
            intro a q
            constructor
            · rintro ⟨x, hx, h5, h6⟩
              rcases List.mem_append.1 hx with hx | hx
              · exact Or.inl ⟨x, hx, h5, h6⟩
              · have hx := List.mem_singleton.1 hx
                rw [hx] at h5 h6
                rw [h4] at h5
                exact Or.inr ⟨Option.some.inj h5, h6⟩
            · rintro (⟨x, hx, h5⟩ | ⟨rfl, h5⟩)
              · exact ⟨x, by simp [hx], h5⟩
              · exact ⟨pos, by simp, h4, h5⟩
          apply findTargets_spec hsorted l (earlier ++ [pos]) targets' hs' hr'
          · refine ⟨h7, ?_, ?_⟩
            · intro a set hm
              rcases (h8 _).1 hm with h | ⟨h, hm⟩
              · cases h
                refine ⟨h10, ?_, ?_⟩
                · rintro rfl
                  obtain ⟨q, hq⟩ := List.exists_mem_of_ne_nil _ hf
                  exact absurd ((h11 q).2 (Or.inr hq)) (by simp)
                · intro q
                  rw [h11, hlook.2, hnext]
                  tauto
              · obtain ⟨h9, h10, h11⟩ := ht.sets a set hm
                refine ⟨h9, h10, ?_⟩
                intro q
                rw [h11, hnext]
                constructor
                · tauto
                · rintro (h' | ⟨h', _⟩)
                  · exact h'
                  · exact absurd h'.symm h
            · intro a q h
              by_cases ha : a = P.symbol
              · subst ha; exact ⟨set', (h8 _).2 (Or.inl rfl)⟩
              · rcases (hnext a q).1 h with h | ⟨h, _⟩
                · obtain ⟨set, hset⟩ := ht.all a q h
                  exact ⟨set, (h8 _).2 (Or.inr ⟨ha, hset⟩)⟩
                · exact absurd h.symm ha
          · intro ha x y ⟨hx, hy, h13, h14, q, h15, h16⟩
            have hno := h12 ha
            rcases List.mem_append.1 hx with hx | hx <;> rcases List.mem_append.1 hy with hy | hy
            · exact hc ha x y ⟨hx, hy, h13, h14, q, h15, h16⟩
            · have hy' := List.mem_singleton.1 hy
              rw [hy'] at h14 h16
              exact hno q h16 ((hlook.2 q).2 ⟨x, hx, by rw [h14, h4], h15⟩)
            · have hx' := List.mem_singleton.1 hx
              rw [hx'] at h14 h15
              exact hno q h15 ((hlook.2 q).2 ⟨y, hy, by rw [← h14, h4], h16⟩)
            · simp only [List.mem_singleton] at hx hy
              exact h13 (hx.trans hy.symm)
        · rw [h5] at h9; cases h9
      · rcases hadd with ⟨set'', h9, _⟩ | ⟨ha, q, x, h7, h8, h9, h10, h11, h12⟩
        · rw [h5] at h9; cases h9
        · refine Or.inr ⟨ha, x, pos, ⟨by simp [h9], by simp, ?_, by rw [h10, h4], q, h11, h7⟩, ?_⟩
          · have := hlt x h9; omega
          · rw [h5] at h12
            rw [hunf, h6, Except.error.inj h12]
            rfl

end

end Verif.CliPattern
