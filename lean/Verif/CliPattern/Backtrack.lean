import Verif.CliPattern.Outcome
/-!
Backtracking through the history of a match.
-/
namespace Verif.CliPattern

/-- `Ran m l m'`: Starting with `m`, the symbols of `l` were consumed, one by one, with the specified argument indexes. -/
inductive Ran (m : Matcher) : List (PatternSymbol × Nat) → Matcher → Prop
  | start : Ran m [] m
  | step {l : List (PatternSymbol × Nat)} {m' m'' : Matcher} {a : PatternSymbol} {i : Nat} : Ran m l m' → i < m.numArgs →
      m'.consume a i = some (some m'') → Ran m (l ++ [(a, i)]) m''

/-- Reverse history for a reverse list of consumed symbols. -/
def Hist (nfa : Nfa) (states : List DState) : List (PatternSymbol × Nat) → List HistoryEntry → Nat → Prop
  | [], [], s => s = 0
  | (a, i) :: l, e :: h, _ => e.symbol = a ∧ e.argIndex = i ∧
      (∃ st, states[e.priorStateIndex]? = some st ∧ ∀ q, q ∈ st.positions ↔ Reach nfa (l.reverse.map Prod.fst) q) ∧
      Hist nfa states l h e.priorStateIndex
  | _, _, _ => False

theorem ran_spec {config : Config} {ps : List Pat} {m : Matcher} (hm : MatcherOf config ps m []) (h0 : m.history = []) (h1 : m.stateIndex = 0)
    {l : List (PatternSymbol × Nat)} {m' : Matcher} (h : Ran m l m') :
    MatcherOf config ps m' (l.map Prod.fst) ∧ m'.patterns = m.patterns ∧ m'.numArgs = m.numArgs ∧ m'.nfa = m.nfa ∧ m'.states = m.states ∧
      Hist m.nfa m.states l.reverse m'.history.reverse m'.stateIndex := by
  induction h with
  | start => exact ⟨hm, rfl, rfl, rfl, rfl, by rw [h0]; simpa [Hist] using h1⟩
  | @step l m' m'' a i hr hi hc ih =>
    obtain ⟨h2, h3, h4, h5, h6, h7⟩ := ih
    rcases consume_main h2 (a := a) (i := i) (by rw [h4]; exact hi) with ⟨m2, h8, h9, h10, h11, h12, h13, h14, _⟩ | ⟨h8, _⟩
    · rw [hc] at h8
      simp only [Option.some.injEq] at h8
      subst h8
      refine ⟨by simpa using h9, h10.trans h3, h11.trans h4, h12.trans h5, h13.trans h6, ?_⟩
      rw [h14, List.reverse_append, List.reverse_append]
      obtain ⟨st, h15, h16, _⟩ := h2.get
      rw [h5] at h16
      rw [h6] at h15
      exact ⟨rfl, rfl, ⟨st, h15, by simpa using h16⟩, h7⟩
    · rw [hc] at h8
      simp at h8

section
variable {ps : List Pat} {m : Matcher} (hn : NfaOf m.nfa ps)
include hn

theorem priorPos_spec {a : PatternSymbol} {pos : Nat} : ∀ (l : List Nat), (∀ x ∈ l, x < m.nfa.positions.length) →
    (∃ x ∈ l, m.nfa.sym x = some a ∧ pos ∈ m.nfa.fol x) →
    ∃ x ∈ l, priorPos m.nfa a pos l = some x ∧ m.nfa.sym x = some a ∧ pos ∈ m.nfa.fol x
  | [], _, h => by obtain ⟨x, hx, _⟩ := h; simp at hx
  | y :: l, hr, h => by
    obtain ⟨P, h1, h2, _, h3⟩ := get_pos (nfa := m.nfa) (hr y (by simp))
    simp only [priorPos, h1, Option.bind_eq_bind, Option.bind_some, h2]
    by_cases hy : m.nfa.sym y = some a ∧ pos ∈ m.nfa.fol y
    · refine ⟨y, by simp, ?_, hy⟩
      have : P.symbol = a := by rw [h3] at hy; simpa using hy.1
      simp [this, hy.2]
    · obtain ⟨x, hx, hxa, hxp⟩ := h
      have hxl : x ∈ l := by
        rcases List.mem_cons.1 hx with rfl | hx
        · exact absurd ⟨hxa, hxp⟩ hy
        · exact hx
      obtain ⟨z, hz, h4, h5⟩ := priorPos_spec (a := a) (pos := pos) l (fun z hz => hr z (by simp [hz])) ⟨x, hxl, hxa, hxp⟩
      refine ⟨z, by simp [hz], ?_, h5⟩
      rw [h3] at hy
      by_cases hs : P.symbol = a
      · simp only [hs, true_and] at hy
        simp [hs, hy, h4]
      · simp [hs, h4]

theorem backtrackLoop_spec {k : Nat} {p : Pat} (hk : ps[k]? = some p) : ∀ (l : List (PatternSymbol × Nat)) (h : List HistoryEntry) (s : Nat)
    (pos arg : Nat) (tail : List MatchPos), Hist m.nfa m.states l h s → Reach m.nfa (l.reverse.map Prod.fst) pos → base ps k ≤ pos →
    pos ≤ base ps k + size p →
    ∃ xs, Trace m.nfa xs pos ∧ xs.map m.nfa.sym = (l.reverse.map Prod.fst).map some ∧
      backtrackLoop m s pos arg h tail =
        some (List.zipWith (fun x i => ⟨x - base ps k, i⟩) xs (l.reverse.map Prod.snd) ++ ⟨pos - base ps k, arg⟩ :: tail)
  | [], [], s, pos, arg, tail, hh, hr, h1, h2 => by
    obtain ⟨P, h3, _, h4⟩ := pattern_eq hn hk h1 h2
    refine ⟨[], hr, rfl, ?_⟩
    unfold backtrackLoop
    simp only [Hist] at hh
    simp [h3, h4, hh]
  | (a, i) :: l, e :: h, s, pos, arg, tail, hh, hr, h1, h2 => by
    obtain ⟨hea, hei, ⟨st, h3, h4⟩, hh⟩ := hh
    obtain ⟨P, h5, _, h6⟩ := pattern_eq hn hk h1 h2
    rw [List.reverse_cons, List.map_append, List.map_cons, List.map_nil, reach_snoc] at hr
    obtain ⟨x, hx, hxa, hxp⟩ := hr
    obtain ⟨y, hy, h7, h8, h9⟩ := priorPos_spec hn (a := a) (pos := pos) st.positions (fun z hz => reach_range hn ((h4 z).1 hz))
      ⟨x, (h4 x).2 hx, hxa, hxp⟩
    have hr := Edge_range ((edge_iff' hn hk h1 h2).1 h9)
    obtain ⟨xs, h10, h11, h12⟩ := backtrackLoop_spec hk l h e.priorStateIndex y i (⟨pos - base ps k, arg⟩ :: tail) hh ((h4 y).1 hy) hr.1.1
      (by omega)
    refine ⟨xs ++ [y], trace_snoc.2 ⟨h10, h9⟩, by simpa [h8] using h11, ?_⟩
    have hlen : xs.length = (l.reverse.map Prod.snd).length := by simpa using congrArg List.length h11
    rw [backtrackLoop]
    simp only [h5, h6, h3, hea, h7, hei, h12, Option.bind_eq_bind, Option.bind_some, List.reverse_cons, List.map_append, List.map_cons, List.map_nil,
      List.zipWith_append hlen]
    simp

end

theorem backtrack_main {config : Config} {ps : List Pat} {m : Matcher} (hm : MatcherOf config ps m []) (h0 : m.history = [])
    (h1 : m.stateIndex = 0) {l : List (PatternSymbol × Nat)} {m' : Matcher} (h : Ran m l m') {k : Nat} (hk : m'.isMatch = some (some k)) :
    ∃ p is, ps[k]? = some p ∧ Path p 0 is ∧ Visits p is (l.map Prod.fst) ∧
      m'.backtrack = some (List.zipWith MatchPos.mk is (l.map Prod.snd) ++ [⟨size p, m.numArgs⟩]) := by
  obtain ⟨h2, h3, h4, h5, h6, h7⟩ := ran_spec hm h0 h1 h
  obtain ⟨st, h8, h9, h10, _⟩ := h2.get
  simp only [Matcher.isMatch, h8, Option.bind_eq_bind, Option.bind_some] at hk
  cases hf : st.finalpos with
  | none => simp [hf] at hk
  | some f =>
    have hfin := h10.final
    rw [hf] at hfin
    obtain ⟨h11, h12, _⟩ := find_sorted h10.sorted hfin.symm
    have hf' := (h9 f).1 h11
    obtain ⟨p, h13, h14, h15⟩ := h2.of_final hf' (by simpa using h12)
    obtain ⟨P, h16, _, h17, _⟩ := get_pos (nfa := m'.nfa) (reach_range h2.nfaOf hf')
    have hkk : k = m'.nfa.pat f := by simpa [hf, h16, h17] using hk.symm
    subst hkk
    obtain ⟨xs, h18, h19, h20⟩ := backtrackLoop_spec h2.nfaOf h13 l.reverse m'.history.reverse m'.stateIndex f m'.numArgs []
      (by rw [h5, h6]; exact h7) (by simpa using hf') (by omega) (by omega)
    rw [List.reverse_reverse] at h19 h20
    rw [h15] at h18
    have hb : m'.nfa.pat (base ps (m'.nfa.pat f) + size p) = m'.nfa.pat f := by rw [← h15]
    obtain ⟨is, h21, h22, h23⟩ := path_visits h2.nfaOf h13 h18 h19
    refine ⟨p, is, h13, h22, h23, ?_⟩
    simp only [Matcher.backtrack, h8, hf, Option.bind_eq_bind, Option.bind_some, h20, Option.some.injEq]
    have hsub : f - base ps (m'.nfa.pat f) = size p := by omega
    rw [h4, hsub]
    congr 1
    rw [h21, List.zipWith_map_left]
    simp only [Nat.add_sub_cancel_left]

end Verif.CliPattern
