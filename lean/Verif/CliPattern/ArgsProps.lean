import Verif.CliPattern.CheckLemmas
import Verif.CliPattern.ParseLemmas
import Verif.CliPattern.DescProps
/-!
C84: the parameters of the pattern function.
-/
namespace Verif.CliPattern

/-- C84: the function is accepted if, and only if its parameters go with the pattern. No assertion is violated. -/
theorem C84_check {t : Tables} {p : Pat} {i : Nat} (henc : EncRoot t p i) {ts : Ty} (h1 : isList ts) (h2 : TyOk ts) :
    ∃ b, checkFunc t ts i = some b ∧ (b = true ↔ Fits p ts) := checkFunc_main henc h1 h2

/-- C84: when the function is accepted, the parameters get the one and only values that go with the match. Missing from the claim:
`std::size_t` cannot be used for alternatives constructs, see `C84_size_for_alternatives_fails`. -/
theorem C84_values_partial {t : Tables} {p : Pat} {i : Nat} (henc : EncRoot t p i) (hc : Clear p) {ts : Ty} (hf : Fits p ts)
    (ha : ¬ AltSize p ts) {ms : List MatchPos} (h : Path p 0 (ms.map MatchPos.pos)) {numArgs : Nat}
    (hms : ∀ m ∈ ms, m.argIndex < numArgs) (good : Ty → Nat → Bool) : ∃ vs, (∀ vs', Value good p 0 ms ts vs' ↔ vs' = vs) ∧
      ∃ N, ∀ fuel, N ≤ fuel → ((generateDescs fuel t i (ms ++ [⟨size p, numArgs⟩])).bind fun descs => parseArgs t good numArgs ts descs) =
        some (vs, bads vs) := by
  obtain ⟨ds, h1, D, h2, N, h3⟩ := C83_descs henc hc h numArgs
  obtain ⟨vs, h4, h5⟩ := parseArgs_main (good := good) henc.1 hf ha ((h1 0 ds).2 ⟨rfl, rfl⟩) h2 hms
  refine ⟨vs, ?_, N, fun fuel hfuel => by rw [h3 fuel hfuel]; exact h5⟩
  intro vs'
  constructor
  · intro hv
    obtain ⟨ds', h6, h7⟩ := parseArgs_unique (t := t) henc.1 hf ha hv hms
    have := ((h1 0 ds').1 h6).2
    subst this
    have := h7 D h2
    rw [h5] at this
    cases this
    rfl
  · rintro rfl
    exact h4

/-- C84: from the arguments to the values of the parameters. -/
theorem C84_match_partial {t : Tables} {specs : List PatternSpec} {ps : List Pat} (hd : Described t specs ps) (hne : specs ≠ [])
    {config : Config} {numArgs : Nat} {m : Matcher} (hm : Constructs t specs numArgs config (.ok m))
    {l : List (PatternSymbol × Nat)} {m' : Matcher} (hr : Ran m l m') {k : Nat} (hk : m'.isMatch = some (some k)) {s : PatternSpec}
    {p : Pat} (hs : specs[k]? = some s) (hp : ps[k]? = some p) (hc : Clear p) {ts : Ty} (h1 : isList ts) (h2 : TyOk ts)
    (hf : checkFunc t ts s.elemSeqIndex = some true) (ha : ¬ AltSize p ts) (hl : ∀ x ∈ l, x.2 < numArgs) (good : Ty → Nat → Bool) :
    ∃ ms vs D, m'.backtrack = some (ms ++ [⟨size p, numArgs⟩]) ∧ ms.map MatchPos.argIndex = l.map Prod.snd ∧
      Visits p (ms.map MatchPos.pos) (l.map Prod.fst) ∧ Value good p 0 ms ts vs ∧
      (∃ N, ∀ fuel, N ≤ fuel → generateDescs fuel t s.elemSeqIndex (ms ++ [⟨size p, numArgs⟩]) = some D) ∧
      parseArgs t good numArgs ts D = some (vs, bads vs) := by
  obtain ⟨ms, ds, D, h3, h4, h5, h6, h7, h8⟩ := C83_match hd hne hm hr hk hs hp hc
  have henc : EncRoot t p s.elemSeqIndex := described_at hd hs hp
  obtain ⟨b, h9, h10⟩ := C84_check henc h1 h2
  rw [hf] at h9
  cases h9
  have hms : ∀ m ∈ ms, m.argIndex < numArgs := by
    intro m hm
    have : m.argIndex ∈ l.map Prod.snd := by
      rw [← h3]
      exact List.mem_map.2 ⟨m, hm, rfl⟩
    obtain ⟨x, hx, hxm⟩ := List.mem_map.1 this
    rw [← hxm]
    exact hl x hx
  obtain ⟨vs, h11, h12⟩ := parseArgs_main (good := good) henc.1 (h10.1 rfl) ha h5 h7 hms
  exact ⟨ms, vs, D, h6, h3, h4, h11, h8, h12⟩

/-- The pattern `foo | bar`. -/
def altTables : Tables where
  syms := [⟨.keyword, 0⟩, ⟨.keyword, 1⟩]
  elems := [⟨.sym, false, false, 0, 1⟩, ⟨.sym, false, false, 1, 2⟩, ⟨.alt, true, true, 0, 2⟩]
  seqs := [⟨1, 0, 0, 1, false⟩, ⟨1, 1, 0, 2, false⟩, ⟨1, 2, 1, 2, false⟩]
  alts := [⟨2, 0, 2⟩]

def altPattern : Pat := .cons (.alt (.or (.cons (.sym ⟨.keyword, 0⟩) .nil) (.or (.cons (.sym ⟨.keyword, 1⟩) .nil) .none))) .nil

theorem altTables_enc : EncRoot altTables altPattern 2 := by
  refine ⟨by simp [altPattern, Wf], ?_⟩
  simp [altTables, altPattern, Enc, size, len, nul, params, nullIndex]

/-- C84: a function with a parameter of type `std::size_t` is accepted for the pattern `foo | bar`, but an assertion is violated when the
argument `bar` has been matched. -/
theorem C84_size_for_alternatives_fails (good : Ty → Nat → Bool) : EncRoot altTables altPattern 2 ∧ Clear altPattern ∧
    checkFunc altTables (.cons .size .nil) 2 = some true ∧ Path altPattern 0 [1] ∧
    generateDescs 20 altTables 2 [⟨1, 0⟩, ⟨2, 1⟩] = some [⟨2, 1⟩] ∧ parseArgs altTables good 1 (.cons .size .nil) [⟨2, 1⟩] = none := by
  refine ⟨altTables_enc, by simp [altPattern, Clear, nul], by decide +kernel, ?_, by decide +kernel, ?_⟩
  · exact ⟨[1], [], Or.inr (Or.inl ⟨[1], [], rfl, rfl, rfl⟩), rfl, rfl⟩
  · simp [parseArgs, parsersOf, parsers, parseAll, parseSize, nextDesc, altTables, parseRegular]

/-- C84: `get x y` with the pattern `get <value>...`, and a function of `std::vector<int>`. The second value is bad. -/
example : checkFunc exampleTables (.cons (.vector .other) .nil) 1 = some true ∧
    parseArgs exampleTables (fun _ a => decide (a = 2)) 5 (.cons (.vector .other) .nil) [⟨2, 2⟩, ⟨0, 2⟩, ⟨0, 3⟩] =
      some (.cons (.vec (.cons (.arg 2) (.cons (.bad 3) .nil))) .nil, [3]) := by decide +kernel

/-- C84: `get all` with the pattern `get [all]`, and a function of `bool`. -/
example : checkFunc exampleTables (.cons .bool .nil) 3 = some true ∧
    parseArgs exampleTables (fun _ _ => true) 5 (.cons .bool .nil) [⟨5, 1⟩] = some (.cons (.bool true) .nil, []) := by decide +kernel

/-- C84: functions that are not accepted. `std::optional<std::tuple<>>` can be used instead of `bool`. -/
example : checkFunc exampleTables (.cons .bool .nil) 1 = some false ∧ checkFunc exampleTables (.cons .size .nil) 1 = some false ∧
    checkFunc exampleTables (.cons .other .nil) 1 = some false ∧ checkFunc exampleTables .nil 1 = some false ∧
    checkFunc exampleTables (.cons (.optional .bool) .nil) 3 = some false ∧
    checkFunc exampleTables (.cons (.optional (.tuple .nil)) .nil) 3 = some true := by decide +kernel

/-- C84: `foo | bar` with a function of `std::variant<std::monostate, std::monostate>`. -/
example : checkFunc altTables (.cons (.variant (.cons (.tuple .nil) (.cons (.tuple .nil) .nil))) .nil) 2 = some true ∧
    parseArgs altTables (fun _ _ => true) 1 (.cons (.variant (.cons (.tuple .nil) (.cons (.tuple .nil) .nil))) .nil) [⟨2, 1⟩] =
      some (.cons (.variant 1 (.tuple .nil)) .nil, []) := by decide +kernel

end Verif.CliPattern
