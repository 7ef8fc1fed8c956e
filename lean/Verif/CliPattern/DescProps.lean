import Verif.CliPattern.Structure
import Verif.CliPattern.Props
/-!
C83: the structure of a match of a command-line pattern.
-/
namespace Verif.CliPattern

theorem described_at {t : Tables} : ∀ {specs : List PatternSpec} {ps : List Pat}, Described t specs ps → ∀ {k : Nat} {s : PatternSpec} {p : Pat},
    specs[k]? = some s → ps[k]? = some p → EncRoot t p s.elemSeqIndex := by
  intro specs ps h
  unfold Described at h
  induction h with
  | nil => intro k s p h; simp at h
  | cons h _ ih =>
    intro k s p hs hp
    cases k with
    | zero =>
      simp only [List.getElem?_cons_zero, Option.some.injEq] at hs hp
      subst hs hp
      exact h
    | succ k => exact ih (by simpa using hs) (by simpa using hp)

/-- C83: when the structure of a pattern is clear, the list of descriptors that is generated for a match is the one and only description
of that match. No assertion is violated. -/
theorem C83_descs {t : Tables} {p : Pat} {i : Nat} (henc : EncRoot t p i) (hc : Clear p) {ms : List MatchPos}
    (h : Path p 0 (ms.map MatchPos.pos)) (n : Nat) : ∃ ds, (∀ k d, Deriv p 0 ms k d ↔ k = 0 ∧ d = ds) ∧
      ∃ D, D.map (view t) = ds.map some ∧ ∃ N, ∀ fuel, N ≤ fuel → generateDescs fuel t i (ms ++ [⟨size p, n⟩]) = some D := by
  obtain ⟨k, ds, h1, h2⟩ := path_deriv p 0 ms .seq henc.1 h
  have hk := h2 (by simp)
  subst hk
  obtain ⟨D, h3, N, h4⟩ := generateDescs_main henc hc h1 n
  refine ⟨ds, ?_, D, h3, N, h4⟩
  intro k d
  constructor
  · intro hd
    have := deriv_zero hd henc.1
    subst this
    refine ⟨rfl, ?_⟩
    obtain ⟨D', h3', N', h4'⟩ := generateDescs_main henc hc hd n
    have e1 := h4 (N + N') (by omega)
    have e2 := h4' (N + N') (by omega)
    rw [e1] at e2
    cases e2
    rw [h3] at h3'
    exact List.map_injective_iff.2 (Option.some_injective _) h3'.symm
  · rintro ⟨rfl, rfl⟩
    exact h1

/-- C83: from the arguments to the descriptors. After a match of a pattern with a clear structure, backtracking and the generation of
descriptors produce the description of a match of that pattern with those arguments. -/
theorem C83_match {t : Tables} {specs : List PatternSpec} {ps : List Pat} (hd : Described t specs ps) (hne : specs ≠ [])
    {config : Config} {numArgs : Nat} {m : Matcher} (hm : Constructs t specs numArgs config (.ok m))
    {l : List (PatternSymbol × Nat)} {m' : Matcher} (hr : Ran m l m') {k : Nat} (hk : m'.isMatch = some (some k)) {s : PatternSpec}
    {p : Pat} (hs : specs[k]? = some s) (hp : ps[k]? = some p) (hc : Clear p) :
    ∃ ms ds D, ms.map MatchPos.argIndex = l.map Prod.snd ∧ Visits p (ms.map MatchPos.pos) (l.map Prod.fst) ∧ Deriv p 0 ms 0 ds ∧
      m'.backtrack = some (ms ++ [⟨size p, numArgs⟩]) ∧ D.map (view t) = ds.map some ∧
      ∃ N, ∀ fuel, N ≤ fuel → generateDescs fuel t s.elemSeqIndex (ms ++ [⟨size p, numArgs⟩]) = some D := by
  obtain ⟨p', is, h1, h2, h3, h4⟩ := C82_backtrack hd hne hm hr hk
  rw [hp] at h1
  cases h1
  have hlen : is.length = l.length := by simpa using congrArg List.length h3
  have henc : EncRoot t p s.elemSeqIndex := described_at hd hs hp
  have hzip : ∀ (xs ys : List Nat), xs.length = ys.length → (List.zipWith MatchPos.mk xs ys).map MatchPos.pos = xs ∧
      (List.zipWith MatchPos.mk xs ys).map MatchPos.argIndex = ys := by
    intro xs
    induction xs with
    | nil => intro ys h; cases ys <;> simp at h ⊢
    | cons x xs ih =>
      intro ys h
      cases ys with
      | nil => simp at h
      | cons y ys => simpa using ih ys (by simpa using h)
  obtain ⟨hpos, harg⟩ := hzip is (l.map Prod.snd) (by simp [hlen])
  obtain ⟨ds, h5, D, h6, h7⟩ := C83_descs henc hc (ms := List.zipWith MatchPos.mk is (l.map Prod.snd)) (by rw [hpos]; exact h2) numArgs
  exact ⟨_, ds, D, harg, by rw [hpos]; exact h3, (h5 0 ds).2 ⟨rfl, rfl⟩, h4, h6, h7⟩

/-- C83: a pattern whose structure is not clear has a match with two different descriptions. -/
theorem C83_unclear {p : Pat} (hw : Wf p .seq) (hc : ¬ Clear p) : ∃ ms ds ds', ds ≠ ds' ∧ Deriv p 0 ms 0 ds ∧ Deriv p 0 ms 0 ds' := by
  obtain ⟨ms, k, ds, k', ds', h1, h2, h3⟩ := unclear p 0 .seq hw hc
  have hk := deriv_zero h2 hw
  have hk' := deriv_zero h3 hw
  subst hk hk'
  exact ⟨ms, ds, ds', by simpa using h1, h2, h3⟩

/-- C83: a pattern is considered repeating precisely when something nonempty and all repetitions of it are matched. -/
theorem C83_repeating {p : Pat} (hw : Wf p .seq) (hc : Clear p) : repeating p = true ↔
    ∃ xs, xs ≠ [] ∧ ∀ n, 0 < n → Path p 0 (List.replicate n xs).flatten := by
  refine ⟨repeating_all p 0 .seq hw hc, ?_⟩
  rintro ⟨xs, h1, h2⟩
  have h3 := h2 1 (by omega)
  have h4 := h2 2 (by omega)
  simp only [List.replicate_succ, List.replicate_zero, List.flatten_cons, List.flatten_nil, List.append_nil] at h3 h4
  exact repeating_of_twice p 0 xs h1 h3 h4

/-- C83: `get x y` with the pattern `get <value>...`: Two repetitions, with the arguments 2 and 3. -/
example : generateDescs 20 exampleTables 1 [⟨0, 0⟩, ⟨1, 2⟩, ⟨1, 3⟩, ⟨2, 5⟩] = some [⟨2, 2⟩, ⟨0, 2⟩, ⟨0, 3⟩] := by decide +kernel

example : [⟨2, 2⟩, ⟨0, 2⟩, ⟨0, 3⟩].map (view exampleTables) = [some ⟨.rep, 2, false, 2⟩, some ⟨.sym, 2, false, 2⟩, some ⟨.sym, 2, false, 3⟩] := by decide +kernel

/-- C83: `get` and `get all` with the pattern `get [all]`. -/
example : generateDescs 20 exampleTables 3 [⟨0, 0⟩, ⟨2, 1⟩] = some [⟨5, 0⟩] ∧
    generateDescs 20 exampleTables 3 [⟨0, 0⟩, ⟨1, 1⟩, ⟨2, 2⟩] = some [⟨5, 1⟩] := by decide +kernel

/-- C83: a repetition of a repetition, `(x...)...`, is not clear: `x x` has two descriptions. -/
example (s : PatternSymbol) : ¬ Clear (.cons (.rep (.cons (.rep (.cons (.sym s) .nil)) .nil)) .nil) := by
  simp [Clear, repeating, nul]

/-- C83: `([x] y)...` is clear, and repeating. -/
example (s : PatternSymbol) : Clear (.cons (.rep (.cons (.opt (.cons (.sym s) .nil)) (.cons (.sym s) .nil))) .nil) := by
  simp [Clear, repeating, nul]

end Verif.CliPattern
