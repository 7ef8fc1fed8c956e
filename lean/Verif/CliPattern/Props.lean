import Verif.CliPattern.Constructs
/-!
C80, C81, C82: matching of command-line patterns.
-/
namespace Verif.CliPattern

theorem error_of {e : Stop} : ∀ (r : Res Matcher), (match r with | .ok _ => none | .error e => some e) = some e → r = .error e
  | .ok _, h => by simp at h
  | .error _, h => by simp only [Option.some.injEq] at h; rw [h]

theorem base_sum : ∀ (ps : List Pat) (k : Nat), base ps k = ((ps.take k).map (fun q => size q + 1)).sum
  | [], 0 | [], _ + 1 | _ :: _, 0 => rfl
  | p :: ps, k + 1 => by simp [base, base_sum ps k]

section
variable {t : Tables} {specs : List PatternSpec} {ps : List Pat} (hd : Described t specs ps) (hne : specs ≠ [])
  {config : Config} {numArgs : Nat} {m : Matcher} (hm : Constructs t specs numArgs config (.ok m))
  {l : List (PatternSymbol × Nat)} {m' : Matcher} (hr : Ran m l m')
include hd hne

include hm hr

/-- C80: a symbol is accepted precisely when what has then been consumed is the beginning of a match of one of the patterns. A symbol that
is not accepted changes nothing. -/
theorem C80_consume (a : PatternSymbol) {i : Nat} (hi : i < numArgs) :
    ((∃ m'', m'.consume a i = some (some m'')) ↔ ∃ p ∈ ps, ∃ v, Lang p (l.map Prod.fst ++ a :: v)) ∧
    (m'.consume a i = some none ↔ ¬ ∃ p ∈ ps, ∃ v, Lang p (l.map Prod.fst ++ a :: v)) := by
  obtain ⟨h1, h2, h3, h4, h5⟩ := constructed hd hne hm
  obtain ⟨h6, _, h7, _⟩ := ran_spec h1 h4 h5 hr
  rcases consume_main h6 (a := a) (i := i) (by omega) with ⟨m'', h8, _, _, _, _, _, _, h9⟩ | ⟨h8, h9⟩
  · simp only [List.append_assoc, List.cons_append, List.nil_append] at h9
    rw [h8]
    exact ⟨by simpa using h9, by simpa using h9⟩
  · simp only [List.append_assoc, List.cons_append, List.nil_append] at h9
    rw [h8]
    exact ⟨by simpa using h9, by simpa using h9⟩

/-- C80: the consumed symbols are reported as a match precisely when one of the patterns matches them, and the reported pattern is then
the first of those that match. -/
theorem C80_is_match : ∃ r, m'.isMatch = some r ∧
    (∀ k, r = some k ↔ (∃ p, ps[k]? = some p ∧ Lang p (l.map Prod.fst)) ∧
      ∀ j p, j < k → ps[j]? = some p → ¬ Lang p (l.map Prod.fst)) ∧
    (r = none ↔ ∀ p ∈ ps, ¬ Lang p (l.map Prod.fst)) := by
  obtain ⟨h1, h2, h3, h4, h5⟩ := constructed hd hne hm
  obtain ⟨h6, _, h7, _⟩ := ran_spec h1 h4 h5 hr
  obtain ⟨r, h8, h9, h10⟩ := isMatch_main h6
  refine ⟨r, h8, ?_, ?_⟩
  · intro k
    constructor
    · intro h
      refine ⟨(h9 k h).1, ?_⟩
      intro j p hj hp hl
      have := (h9 k h).2 j p hp hl
      omega
    · rintro ⟨⟨p, hp, hl⟩, hmin⟩
      cases r with
      | none => exact absurd hl (h10 rfl p (List.mem_of_getElem? hp))
      | some k' =>
        obtain ⟨⟨p', hp', hl'⟩, h11⟩ := h9 k' rfl
        have := h11 k p hp hl
        rcases Nat.lt_or_eq_of_le this with h | h
        · exact absurd hl' (hmin k' p' h hp')
        · rw [h]
  · constructor
    · exact h10
    · intro h
      cases r with
      | none => rfl
      | some k =>
        obtain ⟨⟨p, hp, hl⟩, _⟩ := h9 k rfl
        exact absurd hl (h p (List.mem_of_getElem? hp))

/-- C80: more can be consumed precisely when what has been consumed is a proper prefix of a match. -/
theorem C80_can_consume : ∃ b, m'.canConsume = some b ∧ (b = true ↔ ∃ p ∈ ps, ∃ v, v ≠ [] ∧ Lang p (l.map Prod.fst ++ v)) := by
  obtain ⟨h1, h2, h3, h4, h5⟩ := constructed hd hne hm
  obtain ⟨h6, _, h7, _⟩ := ran_spec h1 h4 h5 hr
  obtain ⟨b, h8, h9⟩ := canConsume_main h6
  refine ⟨b, h8, ?_⟩
  rw [h9]
  constructor
  · rintro ⟨p, hp, a, u, h⟩; exact ⟨p, hp, a :: u, by simp, h⟩
  · rintro ⟨p, hp, v, hv, h⟩
    cases v with
    | nil => exact absurd rfl hv
    | cons a u => exact ⟨p, hp, a, u, h⟩

/-- C80: delegation is possible precisely when what has been consumed is the beginning of a match of a delegating pattern. -/
theorem C80_can_delegate : ∃ b, m'.canDelegate = some b ∧
    (b = true ↔ ∃ (k : Nat) (s : PatternSpec) (p : Pat), specs[k]? = some s ∧ s.isDeleg = true ∧ ps[k]? = some p ∧
      ∃ v, Lang p (l.map Prod.fst ++ v)) := by
  obtain ⟨h1, h2, h3, h4, h5⟩ := constructed hd hne hm
  obtain ⟨h6, h6', h7, _⟩ := ran_spec h1 h4 h5 hr
  obtain ⟨b, h8, h9⟩ := canDelegate_main h6
  refine ⟨b, h8, ?_⟩
  rw [h9, h6', h2]
  constructor
  · rintro ⟨k, p, s, u, h10, h11, h12, h13⟩; exact ⟨k, s, p, h11, h12, h10, u, h13⟩
  · rintro ⟨k, s, p, h11, h12, h10, u, h13⟩; exact ⟨k, p, s, u, h10, h11, h12, h13⟩

/-- C82: backtracking from a match of a pattern succeeds, and associates each consumed argument with a symbol of that pattern such that
the symbols are those of a match of the pattern as a whole. The final entry is the end of the pattern. -/
theorem C82_backtrack {k : Nat} (hk : m'.isMatch = some (some k)) : ∃ p is, ps[k]? = some p ∧ Path p 0 is ∧
    Visits p is (l.map Prod.fst) ∧ m'.backtrack = some (List.zipWith MatchPos.mk is (l.map Prod.snd) ++ [⟨size p, numArgs⟩]) := by
  obtain ⟨h1, h2, h3, h4, h5⟩ := constructed hd hne hm
  rw [← h3]
  exact backtrack_main h1 h4 h5 hr hk

/-- C82: when positional ambiguity is disallowed, there is only one such association. -/
theorem C82_unique (hc : config.allowPositional = false) {k : Nat} {p : Pat} (hk : m'.isMatch = some (some k)) (hp : ps[k]? = some p)
    {is : List Nat} (h : Path p 0 is) (hv : Visits p is (l.map Prod.fst)) :
    m'.backtrack = some (List.zipWith MatchPos.mk is (l.map Prod.snd) ++ [⟨size p, numArgs⟩]) := by
  obtain ⟨h1, h2, h3, h4, h5⟩ := constructed hd hne hm
  obtain ⟨p', is', h6, h7, h8, h9⟩ := C82_backtrack hd hne hm hr hk
  rw [hp] at h6
  cases h6
  have : is = is' := by
    apply Classical.byContradiction
    intro hne'
    exact h1.no_positional hc p (List.mem_of_getElem? hp) ⟨_, is, is', hne', h, h7, hv, h8⟩
  rw [this]
  exact h9

end

section
variable {t : Tables} {specs : List PatternSpec} {ps : List Pat} (hd : Described t specs ps) (hne : specs ≠ [])
  (config : Config) (numArgs : Nat)
include hd hne

/-- C81: the construction of a pattern matcher terminates without a violated assertion. -/
theorem C81_total : ∃ r, Constructs t specs numArgs config r ∧ r ≠ .error .ub ∧ r ≠ .error .unfinished := by
  rcases constructs_main hd hne config numArgs with ⟨m, h, _⟩ | ⟨e, nfa, h, h1, h2, h3⟩
  · exact ⟨_, h, by simp, by simp⟩
  · refine ⟨_, h, ?_⟩
    rcases h3 with h3 | h3 | h3
    · obtain ⟨_, i, j, _, rfl⟩ := crossErr h1 h2 h3; exact ⟨by simp, by simp⟩
    · obtain ⟨i, j, _, _, _, rfl⟩ := delegErr h1 h2 h3; exact ⟨by simp, by simp⟩
    · obtain ⟨_, k, p, i, j, _, _, _, _, _, _, rfl⟩ := posErr h1 h2 h3; exact ⟨by simp, by simp⟩

/-- C81: the construction succeeds precisely when there is no disallowed ambiguity between patterns, no disallowed positional ambiguity
within a pattern, and no sequence that is matched first by a delegating pattern but is a proper prefix of a match. -/
theorem C81_succeeds : (∃ m, Constructs t specs numArgs config (.ok m)) ↔
    (config.allowCross = false → ∀ (i j : Nat) (p q : Pat) (w : List PatternSymbol), i < j → ps[i]? = some p → ps[j]? = some q →
      ¬ (Lang p w ∧ Lang q w)) ∧
    (config.allowPositional = false → ∀ p ∈ ps, ¬ PositionallyAmbiguous p) ∧
    (∀ (k : Nat) (s : PatternSpec) (p : Pat) (w v : List PatternSymbol), specs[k]? = some s → s.isDeleg = true → ps[k]? = some p →
      Lang p w → (∀ j q, j < k → ps[j]? = some q → ¬ Lang q w) → v ≠ [] → ∀ q ∈ ps, ¬ Lang q (w ++ v)) := by
  constructor
  · rintro ⟨m, h⟩
    obtain ⟨h1, h2, h3, h4, h5⟩ := constructed hd hne h
    refine ⟨?_, fun hc p hp => h1.no_positional hc p hp, ?_⟩
    · intro hc i j p q w hij hp hq ⟨hl1, hl2⟩
      exact h1.no_cross hc i j ⟨hij, p, q, w, hp, hq, hl1, hl2⟩
    · intro k s p w v hs hdel hp hl hmin hv q hq hlv
      cases v with
      | nil => exact hv rfl
      | cons a v => exact h1.no_deleg (by rw [h2]; exact hs) hdel ⟨p, w, hp, hl, hmin, q, hq, a, v, hlv⟩
  · rintro ⟨hc, hp, hdel⟩
    rcases constructs_main hd hne config numArgs with ⟨m, h, _⟩ | ⟨e, nfa, h, h1, h2, h3⟩
    · exact ⟨m, h⟩
    · exfalso
      rcases h3 with h3 | h3 | h3
      · obtain ⟨ha, i, j, ⟨hij, p, q, w, h4, h5, h6, h7⟩, _⟩ := crossErr h1 h2 h3
        exact hc ha i j p q w hij h4 h5 ⟨h6, h7⟩
      · obtain ⟨k, s, hs, hd', ⟨p, w, h4, h5, h6, q, hq, a, v, h7⟩, _⟩ := delegErr h1 h2 h3
        exact hdel k s p w (a :: v) hs hd' h4 h5 h6 (by simp) q hq h7
      · obtain ⟨ha, k, p, i, j, h4, h5, _⟩ := posErr h1 h2 h3
        exact hp ha p (List.mem_of_getElem? h4) h5

/-- C81: a reported ambiguity between two patterns is real: Both match some sequence. -/
theorem C81_cross {a b : Nat} (h : Constructs t specs numArgs config (.error (.cross a b))) : config.allowCross = false ∧
    ∃ (i j : Nat) (p q : Pat) (w : List PatternSymbol), a = i + 1 ∧ b = j + 1 ∧ i < j ∧ ps[i]? = some p ∧ ps[j]? = some q ∧ Lang p w ∧ Lang q w := by
  rcases constructs_main hd hne config numArgs with ⟨m, h', _⟩ | ⟨e, nfa, h', h1, h2, h3⟩
  · exact absurd (h.unique h') (by intro h; cases h)
  · have he := Except.error.inj (h.unique h')
    subst he
    rcases h3 with h3 | h3 | h3
    · obtain ⟨ha, i, j, ⟨hij, p, q, w, h4, h5, h6, h7⟩, he⟩ := crossErr h1 h2 h3
      simp only [Stop.cross.injEq] at he
      exact ⟨ha, i, j, p, q, w, by omega, by omega, hij, h4, h5, h6, h7⟩
    · obtain ⟨_, _, _, _, _, he⟩ := delegErr h1 h2 h3; simp at he
    · obtain ⟨_, k, p, i, j, _, _, _, _, _, _, he⟩ := posErr h1 h2 h3; simp at he

/-- C81: a reported positional ambiguity is real: There is a match of the reported pattern that associates some argument with two
different symbols. The reported numbers of these symbols are one plus their index in the pattern plus the number of positions of the
preceding patterns. -/
theorem C81_positional_partial {n a b : Nat} (h : Constructs t specs numArgs config (.error (.positional n a b))) : config.allowPositional = false ∧
    ∃ (k : Nat) (p : Pat) (i j : Nat) (w : List PatternSymbol) (xs ys : List Nat) (r : Nat), n = k + 1 ∧ ps[k]? = some p ∧
      Path p 0 xs ∧ Path p 0 ys ∧ Visits p xs w ∧ Visits p ys w ∧ xs[r]? = some i ∧ ys[r]? = some j ∧ i ≠ j ∧
      a = 1 + (((ps.take k).map (fun q => size q + 1)).sum + i) ∧ b = 1 + (((ps.take k).map (fun q => size q + 1)).sum + j) := by
  rcases constructs_main hd hne config numArgs with ⟨m, h', _⟩ | ⟨e, nfa, h', h1, h2, h3⟩
  · exact absurd (h.unique h') (by intro h; cases h)
  · have he := Except.error.inj (h.unique h')
    subst he
    rcases h3 with h3 | h3 | h3
    · obtain ⟨_, i, j, _, he⟩ := crossErr h1 h2 h3; simp at he
    · obtain ⟨_, _, _, _, _, he⟩ := delegErr h1 h2 h3; simp at he
    · obtain ⟨ha, k, p, i, j, h4, h5, h6, h7, h8, ⟨w, xs, ys, r, h9, h10, h11, h12, h13, h14, h15⟩, he⟩ := posErr h1 h2 h3
      simp only [Stop.positional.injEq] at he
      exact ⟨ha, k, p, i, j, w, xs, ys, r, by omega, h4, h10, h11, h12, h13, h14, h15, h8, by rw [← base_sum]; exact he.2.1, by rw [← base_sum]; exact he.2.2⟩

/-- C81: a reported delegating pattern is the first to match some sequence that is a proper prefix of a match. -/
theorem C81_prefix_deleg {n : Nat} (h : Constructs t specs numArgs config (.error (.prefixDeleg n))) :
    ∃ (k : Nat) (s : PatternSpec) (p : Pat) (w v : List PatternSymbol), n = k + 1 ∧ specs[k]? = some s ∧ s.isDeleg = true ∧
      ps[k]? = some p ∧ Lang p w ∧ (∀ j q, j < k → ps[j]? = some q → ¬ Lang q w) ∧ v ≠ [] ∧ ∃ q ∈ ps, Lang q (w ++ v) := by
  rcases constructs_main hd hne config numArgs with ⟨m, h', _⟩ | ⟨e, nfa, h', h1, h2, h3⟩
  · exact absurd (h.unique h') (by intro h; cases h)
  · have he := Except.error.inj (h.unique h')
    subst he
    rcases h3 with h3 | h3 | h3
    · obtain ⟨_, i, j, _, he⟩ := crossErr h1 h2 h3; simp at he
    · obtain ⟨k, s, hs, hd', ⟨p, w, h4, h5, h6, q, hq, a, v, h7⟩, he⟩ := delegErr h1 h2 h3
      simp only [Stop.prefixDeleg.injEq] at he
      exact ⟨k, s, p, w, a :: v, by omega, hs, hd', h4, h5, h6, by simp, q, hq, h7⟩
    · obtain ⟨_, k, p, i, j, _, _, _, _, _, _, he⟩ := posErr h1 h2 h3; simp at he

end

/-- C81: the positional ambiguity error in the second of two patterns is about the first and the second symbol of the pattern, but the
message has the numbers of the third and the fourth symbol. -/
theorem C81_positional_numbers_wrong : ∃ (t : Tables) (specs : List PatternSpec) (p q : Pat), Described t specs [p, q] ∧ size q = 2 ∧
    Constructs t specs 1 ⟨false, false⟩ (.error (.positional 2 3 4)) := by
  refine ⟨⟨[⟨.keyword, 0⟩, ⟨.keyword, 1⟩, ⟨.keyword, 1⟩],
    [⟨.sym, false, false, 0, 1⟩, ⟨.sym, false, false, 1, 1⟩, ⟨.sym, false, false, 2, 2⟩, ⟨.alt, true, true, 0, 2⟩],
    [⟨1, 0, 0, 1, false⟩, ⟨1, 1, 0, 1, false⟩, ⟨1, 2, 0, 2, false⟩, ⟨1, 3, 1, 2, false⟩], [⟨2, 1, 2⟩]⟩, [⟨0, false⟩, ⟨3, false⟩],
    .cons (.sym ⟨.keyword, 0⟩) .nil,
    .cons (.alt (.or (.cons (.sym ⟨.keyword, 1⟩) .nil) (.or (.cons (.sym ⟨.keyword, 1⟩) .nil) .none))) .nil, ?_, rfl, ?_⟩
  · refine .cons ⟨by simp [Wf], ?_⟩ (.cons ⟨by simp [Wf], ?_⟩ .nil)
    · simp [Enc, size, len, nul, params]
    · simp [Enc, size, len, nul, nullIndex, params]
  · exact constructs_of (fuel := 30) (error_of _ (by decide +kernel)) (by simp) (by simp)

/-- The patterns `get <value>...` and `get [all]`. -/
def exampleTables : Tables where
  syms := [⟨.keyword, 0⟩, ⟨.valueSlot, 0⟩, ⟨.keyword, 0⟩, ⟨.keyword, 1⟩]
  elems := [⟨.sym, true, false, 1, 2⟩, ⟨.sym, false, false, 0, 1⟩, ⟨.rep, true, false, 0, 2⟩, ⟨.sym, false, false, 3, 2⟩,
    ⟨.sym, false, false, 2, 1⟩, ⟨.opt, true, true, 2, 2⟩]
  seqs := [⟨1, 0, 1, 2, false⟩, ⟨2, 1, 1, 2, false⟩, ⟨1, 3, 0, 2, false⟩, ⟨2, 4, 1, 2, false⟩]
  alts := []

def examplePatterns : List Pat :=
  [.cons (.sym ⟨.keyword, 0⟩) (.cons (.rep (.cons (.sym ⟨.valueSlot, 0⟩) .nil)) .nil),
    .cons (.sym ⟨.keyword, 0⟩) (.cons (.opt (.cons (.sym ⟨.keyword, 1⟩) .nil)) .nil)]

def exampleSpecs : List PatternSpec := [⟨1, false⟩, ⟨3, false⟩]

theorem example_described : Described exampleTables exampleSpecs examplePatterns := by
  refine .cons ⟨by simp [Wf], ?_⟩ (.cons ⟨by simp [Wf], ?_⟩ .nil)
  · simp [exampleTables, Enc, size, len, nul, params]
  · simp [exampleTables, Enc, size, len, nul, params]

/-- A run of the pattern matcher. -/
def exampleRun (m : Matcher) : Option (List (Option Nat) × List Bool × List MatchPos) := do
  let m ← (← m.consume ⟨.keyword, 0⟩ 0)
  let k ← m.isMatch
  let m ← (← m.consume ⟨.valueSlot, 0⟩ 2)
  let m ← (← m.consume ⟨.valueSlot, 0⟩ 3)
  let r ← m.consume ⟨.keyword, 1⟩ 4
  some ([k, ← m.isMatch], [← m.canConsume, ← m.canDelegate, r.isNone], ← m.backtrack)

/-- C80, C82: `get` is a match of the second pattern. `get x y` is a match of the first pattern, but cannot be followed by `all`. -/
example : (makeMatcher 30 exampleTables exampleSpecs 5 ⟨false, false⟩).toOption.bind exampleRun =
    some ([some 1, some 0], [true, false, true], [⟨0, 0⟩, ⟨1, 2⟩, ⟨1, 3⟩, ⟨2, 5⟩]) := by decide +kernel

/-- C81: `get [all]` cannot be delegating, as `get` is a match of it, and a proper prefix of `get all`. -/
example : Constructs exampleTables [⟨1, false⟩, ⟨3, true⟩] 5 ⟨true, true⟩ (.error (.prefixDeleg 2)) :=
  constructs_of (fuel := 30) (error_of _ (by decide +kernel)) (by simp) (by simp)

/-- C81: two copies of a pattern are ambiguous. -/
example : Constructs exampleTables [⟨1, false⟩, ⟨1, false⟩] 5 ⟨false, false⟩ (.error (.cross 1 2)) :=
  constructs_of (fuel := 30) (error_of _ (by decide +kernel)) (by simp) (by simp)

/-- C81: a positional ambiguity, which may be allowed. -/
example : PositionallyAmbiguous (.cons (.opt (.cons (.sym ⟨.keyword, 0⟩) .nil)) (.cons (.opt (.cons (.sym ⟨.keyword, 0⟩) .nil)) .nil)) :=
  ⟨[⟨.keyword, 0⟩], [0], [1], by simp, by simp [Path, size], by simp [Path, size], by simp [Visits, symbols], by simp [Visits, symbols]⟩

end Verif.CliPattern
