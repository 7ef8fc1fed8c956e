import Verif.XmlReport.Main

/-!
# Properties of the XML reporter (C174 - C175)
-/

namespace Verif.XmlReport

/-! ## C174: escaping -/

/-- Escaped text contains none of the characters that are special in XML, except `&`. -/
theorem C174_no_special (s : List Char) :
    ∀ c ∈ escape s, c ≠ '<' ∧ c ≠ '>' ∧ c ≠ '"' ∧ c ≠ '\'' := by
  intro c hc
  obtain ⟨d, _, hd⟩ := List.mem_flatMap.1 hc
  unfold escapeChar at hd
  split_ifs at hd with h1 h2 h3 h4 h5
  · clear hc; revert c; decide
  · clear hc; revert c; decide
  · clear hc; revert c; decide
  · clear hc; revert c; decide
  · clear hc; revert c; decide
  · simp only [List.mem_singleton] at hd
    subst hd
    exact ⟨h2, h3, h5, h4⟩

/-- A reader who encounters escaped text in an attribute value gets back the original text, whatever
follows, provided that there are no control characters. -/
theorem C174_read_back_partial (s rest : List Char) (h : Printable s) :
    parse ("<x y=\"".toList ++ escape s ++ "\"/>".toList ++ rest) =
      (parse rest).map fun tags => .empty ['x'] [(['y'], s)] :: tags := by
  have hx : ("<x y=\"".toList).foldl read (.text, []) = (.value ['x'] [] ['y'] [], []) := rfl
  have hy : ("\"/>".toList).foldl read (.value ['x'] [] ['y'] s, []) =
    (.text, [.empty ['x'] [(['y'], s)]]) := rfl
  have key : ∀ (rest : List Char) (mode : Mode) (pre tags : List Tag),
      rest.foldl read (mode, pre ++ tags) =
        ((rest.foldl read (mode, tags)).1, pre ++ (rest.foldl read (mode, tags)).2) := by
    intro rest
    induction rest with
    | nil => intros; rfl
    | cons c rest ih =>
      intro mode pre tags
      have hone : ∃ more, ∀ tags, read (mode, tags) c = ((read (mode, []) c).1, tags ++ more) := by
        cases mode <;> simp only [read]
        case entity n as a v e =>
          cases entityChar e <;> split_ifs <;>
            exact ⟨[], fun tags => by rw [List.append_nil]⟩
        all_goals try split_ifs
        all_goals first
          | exact ⟨[], fun tags => Prod.ext rfl (List.append_nil tags).symm⟩
          | exact ⟨_, fun tags => rfl⟩
      obtain ⟨more, hmore⟩ := hone
      rw [List.foldl_cons, List.foldl_cons, hmore, hmore tags, List.append_assoc, ih]
  unfold parse
  rw [List.foldl_append, List.foldl_append, List.foldl_append, hx, read_escape _ _ _ _ _ _ h,
    List.nil_append, hy]
  have := key rest .text [.empty ['x'] [(['y'], s)]] []
  rw [List.append_nil] at this
  rw [this]
  cases hm : (rest.foldl read (.text, [])) with
  | mk mode tags => cases mode <;> rfl

/-- Different texts are written differently. -/
theorem C174_injective (s t : List Char) (h : escape s = escape t) : s = t := by
  induction s generalizing t with
  | nil =>
    cases t with
    | nil => rfl
    | cons d t =>
      exfalso
      simp only [escape, List.flatMap_nil, List.flatMap_cons] at h
      have := congrArg List.length h
      rw [List.length_append] at this
      have hpos : 0 < (escapeChar d).length := by unfold escapeChar; split_ifs <;> simp
      simp only [List.length_nil] at this
      omega
  | cons c s ih =>
    cases t with
    | nil =>
      exfalso
      simp only [escape, List.flatMap_nil, List.flatMap_cons] at h
      have := congrArg List.length h
      rw [List.length_append] at this
      have hpos : 0 < (escapeChar c).length := by unfold escapeChar; split_ifs <;> simp
      simp only [List.length_nil] at this
      omega
    | cons d t =>
      have e1 : ∀ x l, escape (x :: l) = escapeChar x ++ escape l := by intro x l; simp [escape]
      rw [e1, e1] at h
      have hcd : c = d ∧ escape s = escape t := by
        unfold escapeChar at h
        split_ifs at h with h1 h2 h3 h4 h5 h6 h7 h8 h9 h10 h11 h12 h13 h14 h15 h16 h17 h18 h19 h20
        all_goals
          simp only [List.cons_append, List.nil_append, List.cons.injEq, true_and,
            Char.reduceEq, and_false, false_and] at h
        all_goals first
          | (subst_vars; exact ⟨rfl, h⟩)
          | (obtain ⟨ha, hb⟩ := h; subst_vars; first | exact ⟨rfl, hb⟩ | contradiction)
      rw [hcd.1, ih t hcd.2]

/-- The claim: a reader gets back every text. -/
def ReadBackClaim : Prop :=
  ∀ s, parse ("<x y=\"".toList ++ escape s ++ "\"/>".toList) = some [.empty ['x'] [(['y'], s)]]

/-- A line break is read as a space, and other control characters make the document malformed. -/
theorem C174_read_back_violated : ¬ ReadBackClaim ∧
    parse ("<x y=\"".toList ++ escape ['a', '\n', 'b'] ++ "\"/>".toList) =
      some [.empty ['x'] [(['y'], ['a', ' ', 'b'])]] ∧
    parse ("<x y=\"".toList ++ escape ['a', '\x01', 'b'] ++ "\"/>".toList) = none := by
  refine ⟨?_, by decide, by decide⟩
  intro h
  have := h ['a', '\n', 'b']
  revert this
  decide

example : escape "a<b & 'c'".toList = "a&lt;b &amp; &apos;c&apos;".toList := by decide
example : Printable "a<b & 'c'".toList := by unfold Printable; decide

/-! ## C175: the document -/

/-- What a reader finds in the report. -/
def docTags (suite : List Char) (context : Context) (summary : Summary) (cs : List Call)
    (keys : List Key) : List Tag :=
  [.open_ "unittest-results".toList [("tests".toList, showNat summary.tests),
    ("failedtests".toList, showNat summary.failedTests), ("checks".toList, showNat summary.checks),
    ("failures".toList, showNat summary.failures), ("time".toList, summary.time)]] ++
  (keys.flatMap fun key =>
    testTags pathOf suite (reportName context key) (elapsedOf cs key) (failuresOf cs key)) ++
  [.close "unittest-results".toList]

/-- If no assertion is to fail, and every failure is located in the file of its test, and paths need no
escaping, and there are no control characters, the report is a well-formed XML document that lists
each test execution exactly once, ordered by test and repetition, each with exactly its failures in
order. -/
theorem C175_report_partial (suite : List Char) (context : Context) (summary : Summary)
    (cs : List Call) (hp : Proper cs) (hs : Printable suite)
    (hn : ∀ i, Printable (context.testName i)) (ht : Plain summary.time)
    (he : ∀ key e, .end_ key e ∈ cs → Plain e)
    (hf : ∀ key f, .fail key f ∈ cs → GoodFailure f) :
    ∃ m keys doc, calls [] cs = some m ∧ keys.Pairwise (fun a b => keyLt a b = true) ∧
      (∀ k, k ∈ keys ↔ .begin_ k ∈ cs) ∧ rootEnd suite context summary m = some doc ∧
      parse doc = some (docTags suite context summary cs keys) := by
  obtain ⟨m, h1, h2, h3, h4, _⟩ := calls_spec cs hp
  have hmf : ∀ p ∈ m, ∀ f ∈ p.2.failures, GoodFailure f := by
    intro p hpm f hfm
    rw [h4 p hpm] at hfm
    simp only [failuresOf, List.mem_filterMap] at hfm
    obtain ⟨c, hc, hcf⟩ := hfm
    cases c with
    | begin_ k => simp at hcf
    | end_ k e => simp at hcf
    | fail k g =>
      simp only [Option.ite_none_right_eq_some, Option.some.injEq] at hcf
      rw [← hcf.2]
      exact hf k g hc
  have hme : ∀ p ∈ m, Plain p.2.elapsed := by
    intro p hpm
    rw [h4 p hpm]
    simp only [elapsedOf]
    cases hl : (cs.filterMap fun
        | .end_ k e => if k = p.1 then some e else none
        | _ => none).getLast? with
    | none => simp only [Option.getD_none]; unfold Plain; decide
    | some e =>
      simp only [Option.getD_some]
      have hmem := List.mem_of_getLast? hl
      obtain ⟨c, hc, hce⟩ := List.mem_filterMap.1 hmem
      cases c with
      | begin_ k => simp at hce
      | fail k f => simp at hce
      | end_ k x =>
        simp only [Option.ite_none_right_eq_some, Option.some.injEq] at hce
        rw [← hce.2]
        exact he k x hc
  obtain ⟨body, h5, h6⟩ := read_tests suite context m hs hn hme hmf
    [.open_ "unittest-results".toList [("tests".toList, showNat summary.tests),
    ("failedtests".toList, showNat summary.failedTests), ("checks".toList, showNat summary.checks),
    ("failures".toList, showNat summary.failures), ("time".toList, summary.time)]]
  refine ⟨m, m.map Prod.fst, _, h1, ?_, ?_, by simp only [rootEnd, h5]; rfl, ?_⟩
  · rw [List.pairwise_map]; exact h2
  · intro k
    rw [← h3 k, List.mem_map]
  · have e1 : ("<?xml version=\"1.0\"?>\n<unittest-results tests=\"".toList).foldl read (.text, []) =
      (.value "unittest-results".toList [] "tests".toList [], []) := rfl
    have e2 : ∀ as v, ("\" failedtests=\"".toList).foldl read
        (.value "unittest-results".toList as "tests".toList v, []) =
      (.value "unittest-results".toList (as ++ [("tests".toList, v)]) "failedtests".toList [], []) :=
      fun as v => rfl
    have e3 : ∀ as v, ("\" checks=\"".toList).foldl read
        (.value "unittest-results".toList as "failedtests".toList v, []) =
      (.value "unittest-results".toList (as ++ [("failedtests".toList, v)]) "checks".toList [], []) :=
      fun as v => rfl
    have e4 : ∀ as v, ("\" failures=\"".toList).foldl read
        (.value "unittest-results".toList as "checks".toList v, []) =
      (.value "unittest-results".toList (as ++ [("checks".toList, v)]) "failures".toList [], []) :=
      fun as v => rfl
    have e5 : ∀ as v, ("\" time=\"".toList).foldl read
        (.value "unittest-results".toList as "failures".toList v, []) =
      (.value "unittest-results".toList (as ++ [("failures".toList, v)]) "time".toList [], []) :=
      fun as v => rfl
    have e6 : ∀ as v, ("\">\n".toList).foldl read
        (.value "unittest-results".toList as "time".toList v, []) =
      (.text, [.open_ "unittest-results".toList (as ++ [("time".toList, v)])]) := fun as v => rfl
    have e7 : ∀ ts, ("</unittest-results>\n".toList).foldl read (.text, ts) =
      (.text, ts ++ [.close "unittest-results".toList]) := fun ts => rfl
    unfold parse
    simp only [List.foldl_append, e1, read_plain _ _ _ _ _ _ (plain_showNat _), e2, e3, e4, e5,
      read_plain _ _ _ _ _ _ ht, e6]
    simp only [List.nil_append, List.cons_append]
    rw [h6, e7]
    simp only [docTags, List.flatMap_map]
    congr 3
    apply List.flatMap_congr
    intro p hpm
    rw [h4 p hpm]

/-- The claim: if no assertion is to fail, the report is well-defined. -/
def DefinedClaim : Prop :=
  ∀ (suite : List Char) (context : Context) (summary : Summary) (cs : List Call), Proper cs →
    ∃ m doc, calls [] cs = some m ∧ rootEnd suite context summary m = some doc

/-- If a check fails in another file than that of the test (in a helper function, say), the reporter
refers to a string that is gone when the report is written. -/
theorem C175_dangling : ¬ DefinedClaim := by
  intro h
  obtain ⟨m, doc, h1, h2⟩ := h [] ⟨fun _ => [], 1⟩ ⟨1, 1, 1, 1, []⟩
    [.begin_ (0, 1), .fail (0, 1) ⟨.cache ['u', '.', 'h'], 7, []⟩, .end_ (0, 1) ['1']] (by
      intro x c y hxy
      rcases x with _ | ⟨a, _ | ⟨b, _ | ⟨d, x⟩⟩⟩
      · simp only [List.nil_append, List.cons.injEq] at hxy
        rw [← hxy.1]; trivial
      · simp only [List.cons_append, List.nil_append, List.cons.injEq] at hxy
        rw [← hxy.2.1, ← hxy.1]; simp
      · simp only [List.cons_append, List.nil_append, List.cons.injEq] at hxy
        rw [← hxy.2.2.1, ← hxy.1]; simp
      · simp only [List.cons_append, List.cons.injEq] at hxy
        have := hxy.2.2.2
        simp at this)
  have hm : m = [((0, 1), ⟨[⟨.cache ['u', '.', 'h'], 7, []⟩], ['1']⟩)] := by
    have h3 : calls [] [.begin_ (0, 1), .fail (0, 1) ⟨.cache ['u', '.', 'h'], 7, []⟩,
      .end_ (0, 1) ['1']] = some [((0, 1), ⟨[⟨.cache ['u', '.', 'h'], 7, []⟩], ['1']⟩)] := by decide
    rw [h3] at h1
    exact (Option.some.inj h1).symm
  rw [hm] at h2
  have h4 : rootEnd [] ⟨fun _ => [], 1⟩ ⟨1, 1, 1, 1, []⟩
    [((0, 1), ⟨[⟨.cache ['u', '.', 'h'], 7, []⟩], ['1']⟩)] = none := by decide
  rw [h4] at h2
  cases h2

/-- The path of a failure is not escaped. A path that contains an ampersand makes the document
malformed. -/
theorem C175_path_not_escaped : ∃ doc,
    rootEnd ['s'] ⟨fun _ => ['t'], 1⟩ ⟨1, 1, 1, 1, ['1']⟩
      [((0, 1), ⟨[⟨.test "r&d/x.cpp".toList, 7, ['m']⟩], ['1']⟩)] = some doc ∧ parse doc = none :=
  ⟨_, rfl, by decide +kernel⟩

example : ∃ m doc, calls [] [.begin_ (1, 1), .begin_ (0, 1), .fail (1, 1) ⟨.test ['x'], 7, ['<']⟩,
      .end_ (0, 1) ['2'], .end_ (1, 1) ['1']] = some m ∧
    rootEnd ['s'] ⟨fun i => if i = 0 then ['a'] else ['b'], 1⟩ ⟨2, 1, 1, 1, ['3']⟩ m = some doc ∧
    doc = ("<?xml version=\"1.0\"?>\n<unittest-results tests=\"2\" failedtests=\"1\" checks=\"1\" " ++
      "failures=\"1\" time=\"3\">\n  <test suite=\"s\" name=\"a\" time=\"2\"/>\n" ++
      "  <test suite=\"s\" name=\"b\" time=\"1\">\n    <failure message=\"x(7) : &lt;\"/>\n" ++
      "  </test>\n</unittest-results>\n").toList :=
  ⟨_, _, rfl, rfl, by decide +kernel⟩

theorem showNat_inj {a b : Nat} (h : showNat a = showNat b) : a = b := by
  unfold showNat at h
  have := congrArg (fun l => Nat.ofDigitChars 10 l 0) h
  simpa [Nat.ofDigitChars_toDigits] using this

/-- Repetitions of a test are reported under different names. A test that is executed only once is
reported under its own name. -/
theorem C175_names (context : Context) (i a b : Nat) :
    (1 < context.numRepetitions → reportName context (i, a) = reportName context (i, b) → a = b) ∧
    (context.numRepetitions ≤ 1 → reportName context (i, a) = context.testName i) := by
  refine ⟨?_, ?_⟩
  · intro h he
    unfold reportName at he
    rw [if_pos h, if_pos h] at he
    exact showNat_inj (List.append_cancel_left he)
  · intro h
    unfold reportName
    rw [if_neg (by omega)]

example : reportName ⟨fun _ => ['T'], 3⟩ (5, 12) = "T#12".toList := by decide

end Verif.XmlReport
