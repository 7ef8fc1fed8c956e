import Verif.CliPattern.Dfa
import Mathlib.Data.Finset.Powerset
import Mathlib.Data.Finset.Range
/-!
The construction of the states of the deterministic automaton.
-/
namespace Verif.CliPattern

/-- What is known about a state. -/
structure StOK (config : Config) (nfa : Nfa) (st : DState) : Prop where
  sorted : st.positions.Pairwise (· < ·)
  reach : ∃ w, ∀ q, q ∈ st.positions ↔ Reach nfa w q
  final : st.finalpos = st.positions.find? (fun x => (nfa.fol x).isEmpty)
  cross : config.allowCross = false → ∀ x ∈ st.positions, ∀ y ∈ st.positions, nfa.fol x = [] → nfa.fol y = [] → x = y

structure InvA (config : Config) (nfa : Nfa) (states : List DState) : Prop where
  ok : ∀ st ∈ states, StOK config nfa st
  nodup : (states.map DState.positions).Nodup

def posOf (states : List DState) (j : Nat) : Option (List Nat) := (states[j]?).map DState.positions

def CrossErr (config : Config) (nfa : Nfa) (e : Stop) : Prop :=
  ∃ w x y, Reach nfa w x ∧ Reach nfa w y ∧ x < y ∧ nfa.fol x = [] ∧ nfa.fol y = [] ∧ config.allowCross = false ∧
    e = .cross (1 + nfa.pat x) (1 + nfa.pat y)

def DelegErr (patterns : List PatternSpec) (nfa : Nfa) (e : Stop) : Prop :=
  ∃ w f a q pt, Reach nfa w f ∧ nfa.fol f = [] ∧ (∀ g, Reach nfa w g → nfa.fol g = [] → f ≤ g) ∧ Next nfa (Reach nfa w) a q ∧
    patterns[nfa.pat f]? = some pt ∧ pt.isDeleg = true ∧ e = .prefixDeleg (1 + nfa.pat f)

def PosErr (config : Config) (nfa : Nfa) (e : Stop) : Prop :=
  config.allowPositional = false ∧ ∃ w x y q, Reach nfa w x ∧ Reach nfa w y ∧ x ≠ y ∧ nfa.sym x = nfa.sym y ∧ q ∈ nfa.fol x ∧ q ∈ nfa.fol y ∧
    e = .positional (1 + nfa.pat y) (1 + x) (1 + y)

theorem find_sorted {f : Nat → Bool} : ∀ {l : List Nat} {x : Nat}, l.Pairwise (· < ·) → l.find? f = some x →
    x ∈ l ∧ f x = true ∧ ∀ y ∈ l, f y = true → x ≤ y
  | [], _, _, h => by simp at h
  | z :: l, x, hl, h => by
    rw [List.pairwise_cons] at hl
    rw [List.find?_cons] at h
    cases hz : f z with
    | true =>
      simp only [hz, Option.some.injEq] at h
      subst h
      refine ⟨by simp, hz, ?_⟩
      intro y hy _
      rcases List.mem_cons.1 hy with rfl | hy
      · exact Nat.le_refl _
      · exact Nat.le_of_lt (hl.1 y hy)
    | false =>
      simp only [hz] at h
      obtain ⟨h1, h2, h3⟩ := find_sorted hl.2 h
      refine ⟨by simp [h1], h2, ?_⟩
      intro y hy hfy
      rcases List.mem_cons.1 hy with rfl | hy
      · rw [hz] at hfy; simp at hfy
      · exact h3 y hy hfy

section
variable {nfa : Nfa} {ps : List Pat} (hn : NfaOf nfa ps) (hwf : ∀ p ∈ ps, Wf p .seq) {config : Config}
include hn hwf

theorem ensureState_spec {states : List DState} {set : List Nat} (hi : InvA config nfa states) (hs : set.Pairwise (· < ·))
    (hr : ∃ w, ∀ q, q ∈ set ↔ Reach nfa w q) :
    (∃ states' j, ensureState config nfa set states = .ok (states', j) ∧ InvA config nfa states' ∧ posOf states' j = some set ∧
      (states' = states ∨ ∃ f, states' = states ++ [⟨set, f, []⟩])) ∨
    (∃ e, ensureState config nfa set states = .error e ∧ CrossErr config nfa e) := by
  unfold ensureState
  cases hfi : states.findIdx? (fun state => decide (state.positions = set)) with
  | some i =>
    left
    refine ⟨states, i, rfl, hi, ?_, Or.inl rfl⟩
    obtain ⟨h, h1, _⟩ := List.findIdx?_eq_some_iff_getElem.1 hfi
    simp only [decide_eq_true_eq] at h1
    simp only [posOf, List.getElem?_eq_getElem h, Option.map_some, h1]
  | none =>
    obtain ⟨w, hw⟩ := hr
    have hrange : ∀ x ∈ set, x < nfa.positions.length := fun x hx => reach_range hn ((hw x).1 hx)
    rcases findFinal_spec hn hwf config set none hs hrange (by simp) with ⟨r, h1, h2, h3⟩ | ⟨x, y, h1, h2, h3, h4, h5, h6, h7⟩
    · left
      refine ⟨states ++ [⟨set, r, []⟩], states.length, by simp only [h1]; rfl, ⟨?_, ?_⟩, ?_, Or.inr ⟨r, rfl⟩⟩
      · intro st hst
        rcases List.mem_append.1 hst with hst | hst
        · exact hi.ok st hst
        · simp only [List.mem_singleton] at hst
          subst hst
          refine ⟨hs, ⟨w, hw⟩, by simpa using h2, ?_⟩
          intro hc x hx y hy
          exact h3 hc x (by simpa using hx) y (by simpa using hy)
      · rw [List.map_append, List.nodup_append]
        refine ⟨hi.nodup, by simp, ?_⟩
        intro a ha b hb
        simp only [List.map_cons, List.map_nil, List.mem_singleton] at hb
        subst hb
        rintro rfl
        obtain ⟨st, h4, h5⟩ := List.mem_map.1 ha
        rw [List.findIdx?_eq_none_iff] at hfi
        have := hfi st h4
        simp [h5] at this
      · simp [posOf]
    · right
      refine ⟨_, by simp only [h7]; rfl, w, x, y, (hw x).1 (by simpa using h1), (hw y).1 h2, h3, h4, h5, h6, rfl⟩

end

/-- What adding transitions to a state does. -/
structure AddTr (config : Config) (nfa : Nfa) (states states' : List DState) (k : Nat) (st : DState)
    (trs : List (PatternSymbol × Nat)) (targets : List (PatternSymbol × List Nat)) : Prop where
  inv : InvA config nfa states'
  le : states.length ≤ states'.length
  here : states'[k]? = some { st with transitions := st.transitions ++ trs }
  trs : List.Forall₂ (fun tr tg => tr.1 = tg.1 ∧ posOf states' tr.2 = some tg.2) trs targets
  other : ∀ i, i ≠ k → i < states.length → states'[i]? = states[i]?
  new : ∀ i st', states.length ≤ i → states'[i]? = some st' → st'.transitions = []

theorem posOf_set {states : List DState} {k : Nat} {st st' : DState} (h : states[k]? = some st) (he : st'.positions = st.positions) (j : Nat) :
    posOf (states.set k st') j = posOf states j := by
  unfold posOf
  by_cases hj : j = k
  · subst hj
    rw [List.getElem?_set_self (List.getElem?_eq_some_iff.1 h).1, h]
    simp [he]
  · rw [List.getElem?_set_ne (fun h => hj h.symm)]

theorem map_set_same {states : List DState} {k : Nat} {st st' : DState} (h : states[k]? = some st) (he : st'.positions = st.positions) :
    (states.set k st').map DState.positions = states.map DState.positions := by
  apply List.ext_getElem?
  intro j
  rw [List.getElem?_map, List.getElem?_map]
  exact posOf_set h he j

theorem InvA.set {config : Config} {nfa : Nfa} {states : List DState} {k : Nat} {st : DState} (hi : InvA config nfa states)
    (h : states[k]? = some st) (tr : List (PatternSymbol × Nat)) : InvA config nfa (states.set k { st with transitions := tr }) := by
  refine ⟨?_, ?_⟩
  · intro s hs
    rcases List.mem_or_eq_of_mem_set hs with hs | rfl
    · exact hi.ok s hs
    · have := hi.ok st (List.mem_of_getElem? h)
      exact ⟨this.sorted, this.reach, this.final, this.cross⟩
  · rw [map_set_same (st' := { st with transitions := tr }) h rfl]; exact hi.nodup

theorem checkDeleg_spec {patterns : List PatternSpec} {nfa : Nfa} {st : DState} (hf : ∀ f, st.finalpos = some f →
      f < nfa.positions.length ∧ ∃ pt, patterns[nfa.pat f]? = some pt) :
    (checkDeleg patterns nfa st = .ok () ∧ (st.transitions = [] → ∀ f, st.finalpos = some f → ∀ pt, patterns[nfa.pat f]? = some pt →
      pt.isDeleg = false)) ∨
    (st.transitions = [] ∧ ∃ f pt, st.finalpos = some f ∧ patterns[nfa.pat f]? = some pt ∧ pt.isDeleg = true ∧
      checkDeleg patterns nfa st = .error (.prefixDeleg (1 + nfa.pat f))) := by
  unfold checkDeleg
  cases ht : st.transitions with
  | cons e l =>
    left
    simp
  | nil =>
    cases hfp : st.finalpos with
    | none => left; simp
    | some f =>
      obtain ⟨h1, pt, h2⟩ := hf f hfp
      obtain ⟨P, h3, _, h4, _⟩ := get_pos h1
      simp only [h3, need, bind, Except.bind, h4, h2]
      cases hd : pt.isDeleg with
      | true => right; exact ⟨by simp, f, pt, rfl, h2, hd, by simp⟩
      | false =>
        left
        refine ⟨by simp, ?_⟩
        intro _ g hg pt' hpt
        cases hg
        rw [h2] at hpt
        cases hpt
        exact hd

section
variable {nfa : Nfa} {ps : List Pat} (hn : NfaOf nfa ps) (hwf : ∀ p ∈ ps, Wf p .seq) {config : Config} {patterns : List PatternSpec}
  (hlen : patterns.length = ps.length)
include hn hwf hlen

theorem final_info {st : DState} (hok : StOK config nfa st) : ∀ f, st.finalpos = some f →
      f < nfa.positions.length ∧ ∃ pt, patterns[nfa.pat f]? = some pt := by
  intro f hf
  rw [hok.final] at hf
  obtain ⟨h1, h2, _⟩ := find_sorted hok.sorted hf
  obtain ⟨w, hw⟩ := hok.reach
  have h3 := reach_range hn ((hw f).1 h1)
  refine ⟨h3, ?_⟩
  obtain ⟨p, h4, _⟩ := final_pos hn hwf h3 (by simpa using h2)
  have := (List.getElem?_eq_some_iff.1 h4).1
  exact ⟨patterns[nfa.pat f]'(by omega), by simp⟩

theorem addTransitions_spec {k : Nat} : ∀ (targets : List (PatternSymbol × List Nat)) (states : List DState) (st : DState),
    InvA config nfa states → states[k]? = some st →
    (∀ a set, (a, set) ∈ targets → set.Pairwise (· < ·) ∧ set ≠ [] ∧ ∀ q, q ∈ set ↔ Next nfa (· ∈ st.positions) a q) →
    (∃ states' trs, addTransitions config patterns nfa k targets states = .ok states' ∧ AddTr config nfa states states' k st trs targets ∧
      (targets ≠ [] → st.transitions = [] → ∀ f, st.finalpos = some f → ∀ pt, patterns[nfa.pat f]? = some pt → pt.isDeleg = false)) ∨
    (∃ e, addTransitions config patterns nfa k targets states = .error e ∧ (CrossErr config nfa e ∨ DelegErr patterns nfa e))
  | [], states, st, hi, hk, _ => by
    left
    refine ⟨states, [], rfl, ⟨hi, Nat.le_refl _, by simpa using hk, .nil, fun _ _ _ => rfl, ?_⟩, by simp⟩
    intro i st' h1 h2
    have := (List.getElem?_eq_some_iff.1 h2).1
    omega
  | (a, set) :: targets, states, st, hi, hk, ht => by
    obtain ⟨hs, hne, hset⟩ := ht a set (by simp)
    have hok := hi.ok st (List.mem_of_getElem? hk)
    obtain ⟨w, hw⟩ := hok.reach
    have hreach : ∃ w, ∀ q, q ∈ set ↔ Reach nfa w q := by
      refine ⟨w ++ [a], fun q => ?_⟩
      rw [hset, reach_snoc]
      simp only [Next, hw]
    have hemp : set.isEmpty = false := by simpa using hne
    simp only [addTransitions, hemp, Bool.false_eq_true, if_false]
    rcases ensureState_spec hn hwf (config := config) hi hs hreach with ⟨states1, j, h1, hi1, hj, hst⟩ | ⟨e, h1, h2⟩
    · have hkl := (List.getElem?_eq_some_iff.1 hk).1
      have hk1 : states1[k]? = some st := by
        rcases hst with rfl | ⟨f, rfl⟩
        · exact hk
        · rw [List.getElem?_append_left hkl, hk]
      have hle : states.length ≤ states1.length := by
        rcases hst with rfl | ⟨f, rfl⟩
        · exact Nat.le_refl _
        · simp
      simp only [h1, bind, Except.bind, hk1, need]
      rcases checkDeleg_spec (final_info hn hwf hlen hok) with ⟨h2, h3⟩ | ⟨h2, f, pt, h3, h4, h5, h6⟩
      · simp only [h2]
        have hk2 : (states1.set k { st with transitions := st.transitions ++ [(a, j)] })[k]? =
            some { st with transitions := st.transitions ++ [(a, j)] } := List.getElem?_set_self (by omega)
        rcases addTransitions_spec targets (states1.set k { st with transitions := st.transitions ++ [(a, j)] })
          { st with transitions := st.transitions ++ [(a, j)] } (hi1.set hk1 _) hk2 (fun b s hb => ht b s (by simp [hb])) with
          ⟨states', trs, h4, h5, _⟩ | ⟨e, h4, h5⟩
        · left
          have hle2 := h5.le
          rw [List.length_set] at hle2
          refine ⟨states', (a, j) :: trs, h4, ⟨h5.inv, by omega, ?_, ?_, ?_, ?_⟩, fun _ => h3⟩
          · rw [h5.here]; simp
          · refine .cons ⟨rfl, ?_⟩ h5.trs
            have hj1 : posOf (states1.set k { st with transitions := st.transitions ++ [(a, j)] }) j = some set := by
              rw [posOf_set (st' := { st with transitions := st.transitions ++ [(a, j)] }) hk1 rfl, hj]
            show posOf states' j = some set
            have hjl : j < states1.length := by
              unfold posOf at hj
              rw [Option.map_eq_some_iff] at hj
              obtain ⟨s, hs, _⟩ := hj
              exact (List.getElem?_eq_some_iff.1 hs).1
            by_cases hjk : j = k
            · subst hjk
              unfold posOf at hj1 ⊢
              rw [h5.here]
              rw [hk2] at hj1
              simpa using hj1
            · unfold posOf at hj1 ⊢
              rw [h5.other j hjk (by rw [List.length_set]; exact hjl)]
              exact hj1
          · intro i hik hil
            rw [h5.other i hik (by rw [List.length_set]; omega), List.getElem?_set_ne (fun h => hik h.symm)]
            rcases hst with rfl | ⟨f, rfl⟩
            · rfl
            · rw [List.getElem?_append_left hil]
          · intro i st' hil hi'
            by_cases h : states1.length ≤ i
            · exact h5.new i st' (by rw [List.length_set]; exact h) hi'
            · have hik : i ≠ k := by omega
              rw [h5.other i hik (by rw [List.length_set]; omega), List.getElem?_set_ne (fun h => hik h.symm)] at hi'
              rcases hst with rfl | ⟨f, rfl⟩
              · omega
              · simp only [List.length_append, List.length_singleton] at h
                have : i = states.length := by omega
                subst this
                simp only [List.getElem?_concat_length, Option.some.injEq] at hi'
                subst hi'
                rfl
        · right; exact ⟨e, h4, h5⟩
      · right
        refine ⟨_, by simp only [h6]; rfl, Or.inr ⟨w, f, ?_⟩⟩
        rw [hok.final] at h3
        obtain ⟨h7, h8, h9⟩ := find_sorted hok.sorted h3
        obtain ⟨q, hq⟩ := List.exists_mem_of_ne_nil _ hne
        refine ⟨a, q, pt, (hw f).1 h7, by simpa using h8, ?_, ?_, h4, h5, rfl⟩
        · intro g hg hfg
          exact h9 g ((hw g).2 hg) (by simpa using hfg)
        · have := (hset q).1 hq
          simpa only [Next, hw] using this
    · right
      exact ⟨e, by simp only [h1]; rfl, Or.inl h2⟩

/-- What is known about a state whose transitions are complete. -/
structure Done (config : Config) (patterns : List PatternSpec) (nfa : Nfa) (states : List DState) (st : DState) : Prop where
  trans : ∀ a j, (a, j) ∈ st.transitions → ∃ P, posOf states j = some P ∧ P ≠ [] ∧ ∀ q, q ∈ P ↔ Next nfa (· ∈ st.positions) a q
  all : ∀ a q, Next nfa (· ∈ st.positions) a q → ∃ j, (a, j) ∈ st.transitions
  pos : config.allowPositional = false → ∀ x y, ¬ Conflict nfa st.positions x y
  deleg : st.transitions ≠ [] → ∀ f, st.finalpos = some f → ∀ pt, patterns[nfa.pat f]? = some pt → pt.isDeleg = false

/-- The invariant of the main loop. -/
structure Inv (config : Config) (patterns : List PatternSpec) (nfa : Nfa) (k : Nat) (states : List DState) : Prop where
  invA : InvA config nfa states
  le : k ≤ states.length
  pos : 0 < states.length
  done : ∀ i st, states[i]? = some st → i < k → Done config patterns nfa states st
  todo : ∀ i st, states[i]? = some st → k ≤ i → st.transitions = []
  start : posOf states 0 = some nfa.starts

theorem finalizeState_spec {k : Nat} {states : List DState} (hi : Inv config patterns nfa k states) (hk : k < states.length) :
    (∃ states', finalizeState config patterns nfa k states = .ok states' ∧ Inv config patterns nfa (k + 1) states') ∨
    (∃ e, finalizeState config patterns nfa k states = .error e ∧ (CrossErr config nfa e ∨ DelegErr patterns nfa e ∨ PosErr config nfa e)) := by
  have hst : states[k]? = some states[k] := by simp
  generalize states[k] = st at hst
  have hok := hi.invA.ok st (List.mem_of_getElem? hst)
  obtain ⟨w, hw⟩ := hok.reach
  have htr := hi.todo k st hst (Nat.le_refl _)
  simp only [finalizeState, hst, need, bind, Except.bind, htr, List.isEmpty_nil, Bool.not_true, Bool.false_eq_true, if_false]
  rcases findTargets_spec (config := config) hn.sorted st.positions [] [] hok.sorted
    (fun x hx => reach_range hn ((hw x).1 hx)) ⟨by simp, by simp, by simp [Next]⟩ (by simp [Conflict]) with
    ⟨targets, h1, h2, h3⟩ | ⟨ha, x, y, h1, h2⟩
  · simp only [h1]
    rw [List.nil_append] at h2 h3
    rcases addTransitions_spec hn hwf hlen (config := config) targets states st hi.invA hst h2.sets with
      ⟨states', trs, h4, h5, h6⟩ | ⟨e, h4, h5⟩
    · left
      have hposOf : ∀ j P, posOf states j = some P → posOf states' j = some P := by
        intro j P hj
        by_cases hjk : j = k
        · subst hjk
          unfold posOf at hj ⊢
          rw [hst] at hj
          rw [h5.here]
          simpa using hj
        · unfold posOf at hj ⊢
          rw [Option.map_eq_some_iff] at hj
          obtain ⟨s, hs, rfl⟩ := hj
          rw [h5.other j hjk (List.getElem?_eq_some_iff.1 hs).1, hs]
          rfl
      refine ⟨states', h4, h5.inv, by have := h5.le; omega, by have := h5.le; omega, ?_, ?_, hposOf _ _ hi.start⟩
      · intro i s hs hik
        by_cases hik' : i = k
        · subst hik'
          rw [h5.here] at hs
          cases hs
          refine ⟨?_, ?_, h3, ?_⟩
          · intro a j haj
            simp only [htr, List.nil_append] at haj
            have := h5.trs
            obtain ⟨n, hn', hne⟩ := List.getElem_of_mem haj
            rw [List.forall₂_iff_get] at this
            obtain ⟨hl, hall⟩ := this
            have hn2 : n < targets.length := by omega
            obtain ⟨e1, e2⟩ := hall n hn' hn2
            simp only [List.get_eq_getElem, hne] at e1 e2
            have hm : targets[n] ∈ targets := List.getElem_mem _
            obtain ⟨_, h7, h8⟩ := h2.sets targets[n].1 targets[n].2 hm
            exact ⟨_, e2, h7, by rw [e1]; exact h8⟩
          · intro a q hq
            obtain ⟨set, hset⟩ := h2.all a q hq
            obtain ⟨n, hn', hne⟩ := List.getElem_of_mem hset
            have := h5.trs
            rw [List.forall₂_iff_get] at this
            obtain ⟨hl, hall⟩ := this
            have hn2 : n < trs.length := by omega
            obtain ⟨e1, e2⟩ := hall n hn2 hn'
            simp only [List.get_eq_getElem, hne] at e1
            refine ⟨trs[n].2, ?_⟩
            simp only [List.mem_append]
            right
            rw [← e1]
            exact List.getElem_mem hn2
          · intro hne
            apply h6 ?_ htr
            rintro rfl
            have := h5.trs
            cases this
            simp [htr] at hne
        · have hil : i < states.length := by omega
          rw [h5.other i hik' hil] at hs
          have hd := hi.done i s hs (by omega)
          refine ⟨?_, hd.all, hd.pos, hd.deleg⟩
          intro a j haj
          obtain ⟨P, h7, h8⟩ := hd.trans a j haj
          exact ⟨P, hposOf _ _ h7, h8⟩
      · intro i s hs hik
        by_cases hil : i < states.length
        · rw [h5.other i (by omega) hil] at hs
          exact hi.todo i s hs (by omega)
        · exact h5.new i s (by omega) hs
    · right
      refine ⟨e, h4, ?_⟩
      tauto
  · right
    simp only [h2]
    refine ⟨_, rfl, Or.inr (Or.inr ⟨ha, w, x, y, ?_⟩)⟩
    obtain ⟨hx, hy, h3, h4, q, h5, h6⟩ := h1
    exact ⟨q, (hw x).1 (by simpa using hx), (hw y).1 (by simpa using hy), h3, h4, h5, h6, rfl⟩

omit hwf hlen in
theorem states_bound {states : List DState} (hi : InvA config nfa states) : states.length ≤ 2 ^ nfa.positions.length := by
  have hinj : ∀ a ∈ states.map DState.positions, ∀ b ∈ states.map DState.positions, a.toFinset = b.toFinset → a = b := by
    intro a ha b hb hab
    obtain ⟨s, hs, rfl⟩ := List.mem_map.1 ha
    obtain ⟨s', hs', rfl⟩ := List.mem_map.1 hb
    apply sorted_ext (hi.ok s hs).sorted (hi.ok s' hs').sorted
    intro x
    have := congrArg (x ∈ ·) hab
    simpa using this
  have hnd : ((states.map DState.positions).map List.toFinset).Nodup := by
    exact List.Nodup.map_on (fun a ha b hb h => hinj a ha b hb h) hi.nodup
  have hsub : ((states.map DState.positions).map List.toFinset).toFinset ⊆ (Finset.range nfa.positions.length).powerset := by
    intro F hF
    simp only [List.mem_toFinset, List.mem_map] at hF
    obtain ⟨_, ⟨s, hs, rfl⟩, rfl⟩ := hF
    rw [Finset.mem_powerset]
    intro x hx
    obtain ⟨w, hw⟩ := (hi.ok s hs).reach
    rw [Finset.mem_range]
    exact reach_range hn ((hw x).1 (by simpa using hx))
  have := Finset.card_le_card hsub
  rw [List.toFinset_card_of_nodup hnd, Finset.card_powerset, Finset.card_range] at this
  simpa using this

theorem finalizeStates_spec : ∀ (fuel k : Nat) (states : List DState), Inv config patterns nfa k states → k < states.length →
    2 ^ nfa.positions.length ≤ k + fuel →
    (∃ states', finalizeStates config patterns nfa fuel k states = .ok states' ∧ Inv config patterns nfa states'.length states') ∨
    (∃ e, finalizeStates config patterns nfa fuel k states = .error e ∧ (CrossErr config nfa e ∨ DelegErr patterns nfa e ∨ PosErr config nfa e))
  | 0, k, states, hi, hk, hf => by
    have := states_bound hn hi.invA
    omega
  | fuel + 1, k, states, hi, hk, hf => by
    simp only [finalizeStates]
    rcases finalizeState_spec hn hwf hlen hi hk with ⟨states', h1, h2⟩ | ⟨e, h1, h2⟩
    · simp only [h1, bind, Except.bind]
      split
      · next h => exact finalizeStates_spec fuel (k + 1) states' h2 h (by omega)
      · next h =>
        left
        have : k + 1 = states'.length := by have := h2.le; omega
        exact ⟨states', rfl, by rw [← this]; exact h2⟩
    · right
      exact ⟨e, by simp only [h1]; rfl, h2⟩

end

end Verif.CliPattern
