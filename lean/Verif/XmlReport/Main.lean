import Verif.XmlReport.Spec
import Mathlib.Tactic.SplitIfs
import Mathlib.Data.List.Induction

/-!
# Lemmas about the XML reporter
-/

namespace Verif.XmlReport

/-! ## Reading -/

theorem read_escapeChar (n : List Char) (as : Attrs) (a v : List Char) (tags : List Tag) (c : Char)
    (h : 32 ≤ c.toNat) :
    (escapeChar c).foldl read (.value n as a v, tags) = (.value n as a (v ++ [c]), tags) := by
  unfold escapeChar
  split_ifs with h1 h2 h3 h4 h5
  · subst h1; rfl
  · subst h2; rfl
  · subst h3; rfl
  · subst h4; rfl
  · subst h5; rfl
  · simp only [List.foldl_cons, List.foldl_nil, read, if_neg h5, if_neg h2, if_neg h1]
    by_cases hs : isSpace c = true
    · rw [if_pos hs]
      have : c = ' ' := by
        simp only [isSpace, Bool.or_eq_true, beq_iff_eq] at hs
        rcases hs with ((hs | hs) | hs) | hs
        · exact hs
        · subst hs; revert h; decide
        · subst hs; revert h; decide
        · subst hs; revert h; decide
      rw [this]
    · rw [if_neg hs, if_neg (by omega)]

theorem read_escape (n : List Char) (as : Attrs) (a v : List Char) (tags : List Tag) (s : List Char)
    (h : Printable s) :
    (escape s).foldl read (.value n as a v, tags) = (.value n as a (v ++ s), tags) := by
  induction s generalizing v with
  | nil => simp [escape]
  | cons c s ih =>
    have : escape (c :: s) = escapeChar c ++ escape s := by simp [escape]
    rw [this, List.foldl_append, read_escapeChar _ _ _ _ _ _ (h c (by simp)),
      ih _ (fun x hx => h x (by simp [hx]))]
    simp

theorem read_plain (n : List Char) (as : Attrs) (a v : List Char) (tags : List Tag) (s : List Char)
    (h : Plain s) :
    s.foldl read (.value n as a v, tags) = (.value n as a (v ++ s), tags) := by
  induction s generalizing v with
  | nil => simp
  | cons c s ih =>
    obtain ⟨h1, h2, h3, h4⟩ := h c (by simp)
    have hr : read (.value n as a v, tags) c = (.value n as a (v ++ [c]), tags) := by
      simp only [read, if_neg h2, if_neg h3, if_neg h4]
      by_cases hs : isSpace c = true
      · rw [if_pos hs]
        have : c = ' ' := by
          simp only [isSpace, Bool.or_eq_true, beq_iff_eq] at hs
          rcases hs with ((hs | hs) | hs) | hs
          · exact hs
          · subst hs; revert h1; decide
          · subst hs; revert h1; decide
          · subst hs; revert h1; decide
        rw [this]
      · rw [if_neg hs, if_neg (by omega)]
    rw [List.foldl_cons, hr, ih _ (fun x hx => h x (by simp [hx]))]
    simp

theorem plain_of_isDigit {c : Char} (h : c.isDigit = true) :
    32 ≤ c.toNat ∧ c ≠ '<' ∧ c ≠ '&' ∧ c ≠ '"' := by
  have hd : 48 ≤ c.toNat ∧ c.toNat ≤ 57 := by
    simp only [Char.isDigit, Bool.and_eq_true, decide_eq_true_eq, ge_iff_le] at h
    exact ⟨h.1, h.2⟩
  refine ⟨by omega, ?_, ?_, ?_⟩
  · rintro rfl; revert hd; decide
  · rintro rfl; revert hd; decide
  · rintro rfl; revert hd; decide

theorem plain_showNat (n : Nat) : Plain (showNat n) := by
  intro c hc
  exact plain_of_isDigit (Nat.isDigit_of_mem_toDigits (by omega) (by omega) hc)

theorem plain_showInt (n : Int) : Plain (showInt n) := by
  cases n with
  | ofNat n => exact plain_showNat n
  | negSucc n =>
    intro c hc
    simp only [showInt, List.mem_cons] at hc
    rcases hc with rfl | hc
    · decide
    · exact plain_showNat _ c hc

theorem printable_of_plain {s : List Char} (h : Plain s) : Printable s := fun c hc => (h c hc).1

theorem printable_append {s t : List Char} (h1 : Printable s) (h2 : Printable t) :
    Printable (s ++ t) := by
  intro c hc
  rcases List.mem_append.1 hc with h | h
  · exact h1 c h
  · exact h2 c h

/-- What is required of a failure. -/
def GoodFailure (f : Failure) : Prop := (∃ p, f.filePath = .test p ∧ Plain p) ∧ Printable f.message

/-- The path of a failure. -/
def pathOf (f : Failure) : List Char :=
  match f.filePath with
  | .test p => p
  | .cache p => p

/-- The tag of a failure. -/
def failureTag (f : Failure) : Tag := .empty "failure".toList
  [("message".toList, pathOf f ++ "(".toList ++ showInt f.line ++ ") : ".toList ++ f.message)]

theorem read_failure (f : Failure) (h : GoodFailure f) (tags : List Tag) :
    ∃ s, writeFailure f = some s ∧ s.foldl read (.text, tags) = (.text, tags ++ [failureTag f]) := by
  obtain ⟨⟨p, hp, hpl⟩, hm⟩ := h
  refine ⟨_, by simp only [writeFailure, hp, deref]; rfl, ?_⟩
  have e1 : ("    <failure message=\"".toList).foldl read (.text, tags) =
    (.value "failure".toList [] "message".toList [], tags) := rfl
  have e2 : ∀ v, ("(".toList).foldl read (.value "failure".toList [] "message".toList v, tags) =
    (.value "failure".toList [] "message".toList (v ++ "(".toList), tags) := fun v => rfl
  have e3 : ∀ v, (") : ".toList).foldl read (.value "failure".toList [] "message".toList v, tags) =
      (.value "failure".toList [] "message".toList (v ++ ") : ".toList), tags) := by
    intro v
    refine read_plain _ _ _ _ _ _ ?_
    unfold Plain
    decide
  have e4 : ∀ v, ("\"/>\n".toList).foldl read (.value "failure".toList [] "message".toList v, tags) =
    (.text, tags ++ [.empty "failure".toList [("message".toList, v)]]) := fun v => rfl
  rw [List.foldl_append, List.foldl_append, List.foldl_append, List.foldl_append, List.foldl_append,
    List.foldl_append, e1, read_plain _ _ _ _ _ _ hpl, e2, read_plain _ _ _ _ _ _ (plain_showInt _), e3,
    read_escape _ _ _ _ _ _ hm, e4]
  simp [failureTag, pathOf, hp]

theorem read_failures (fs : List Failure) (h : ∀ f ∈ fs, GoodFailure f) (tags : List Tag) :
    ∃ s, writeFailures fs = some s ∧
      s.foldl read (.text, tags) = (.text, tags ++ fs.map failureTag) := by
  induction fs generalizing tags with
  | nil => exact ⟨[], rfl, by simp⟩
  | cons f rest ih =>
    obtain ⟨a, h1, h2⟩ := read_failure f (h f (by simp)) tags
    obtain ⟨b, h3, h4⟩ := ih (fun g hg => h g (by simp [hg])) (tags ++ [failureTag f])
    refine ⟨a ++ b, by simp only [writeFailures, h1, h3], ?_⟩
    rw [List.foldl_append, h2, h4]
    simp

theorem read_test (suite : List Char) (context : Context) (key : Key) (t : Test)
    (hs : Printable suite) (hn : Printable (context.testName key.1)) (he : Plain t.elapsed)
    (hf : ∀ f ∈ t.failures, GoodFailure f) (tags : List Tag) :
    ∃ s, writeTest suite context key t = some s ∧ s.foldl read (.text, tags) =
      (.text, tags ++ testTags pathOf suite (reportName context key) t.elapsed t.failures) := by
  have hname : Printable (reportName context key) := by
    unfold reportName
    split
    · refine printable_append (printable_append hn ?_) (printable_of_plain (plain_showNat _))
      unfold Printable; decide
    · exact hn
  have e1 : ("  <test suite=\"".toList).foldl read (.text, tags) =
    (.value "test".toList [] "suite".toList [], tags) := rfl
  have e2 : ∀ v, ("\" name=\"".toList).foldl read (.value "test".toList [] "suite".toList v, tags) =
    (.value "test".toList [("suite".toList, v)] "name".toList [], tags) := fun v => rfl
  have e3 : ∀ as v, ("\" time=\"".toList).foldl read (.value "test".toList as "name".toList v, tags) =
    (.value "test".toList (as ++ [("name".toList, v)]) "time".toList [], tags) := fun as v => rfl
  have e4 : ∀ as v, ("\"".toList).foldl read (.value "test".toList as "time".toList v, tags) =
    (.attrs "test".toList (as ++ [("time".toList, v)]), tags) := fun as v => rfl
  have ehead : ("  <test suite=\"".toList ++ escape suite ++ "\" name=\"".toList ++
      escape (reportName context key) ++ "\" time=\"".toList ++ t.elapsed ++ "\"".toList).foldl read
        (.text, tags) = (.attrs "test".toList [("suite".toList, suite),
          ("name".toList, reportName context key), ("time".toList, t.elapsed)], tags) := by
    rw [List.foldl_append, List.foldl_append, List.foldl_append, List.foldl_append,
      List.foldl_append, List.foldl_append, e1, read_escape _ _ _ _ _ _ hs, e2,
      read_escape _ _ _ _ _ _ hname, e3, read_plain _ _ _ _ _ _ he, e4]
    simp
  unfold writeTest
  by_cases hfs : t.failures = []
  · refine ⟨_, by rw [if_pos hfs], ?_⟩
    rw [List.foldl_append, ehead]
    simp only [testTags, if_pos hfs]
    rfl
  · obtain ⟨body, h1, h2⟩ := read_failures t.failures hf (tags ++ [.open_ "test".toList
      [("suite".toList, suite), ("name".toList, reportName context key),
        ("time".toList, t.elapsed)]])
    refine ⟨_, by rw [if_neg hfs, h1], ?_⟩
    have e5 : ∀ as, (">\n".toList).foldl read (.attrs "test".toList as, tags) =
      (.text, tags ++ [.open_ "test".toList as]) := fun as => rfl
    have e6 : ∀ ts, ("  </test>\n".toList).foldl read (.text, ts) =
      (.text, ts ++ [.close "test".toList]) := fun ts => rfl
    rw [List.foldl_append, List.foldl_append, List.foldl_append, ehead, e5, h2, e6]
    simp only [testTags, if_neg hfs]
    simp only [← List.append_assoc]
    rfl

theorem read_tests (suite : List Char) (context : Context) (m : List (Key × Test))
    (hs : Printable suite) (hn : ∀ i, Printable (context.testName i))
    (he : ∀ p ∈ m, Plain p.2.elapsed) (hf : ∀ p ∈ m, ∀ f ∈ p.2.failures, GoodFailure f)
    (tags : List Tag) :
    ∃ s, writeTests suite context m = some s ∧ s.foldl read (.text, tags) =
      (.text, tags ++ m.flatMap fun p =>
        testTags pathOf suite (reportName context p.1) p.2.elapsed p.2.failures) := by
  induction m generalizing tags with
  | nil => exact ⟨[], rfl, by simp⟩
  | cons p rest ih =>
    obtain ⟨key, t⟩ := p
    obtain ⟨a, h1, h2⟩ := read_test suite context key t hs (hn _) (he _ List.mem_cons_self)
      (hf _ List.mem_cons_self) tags
    obtain ⟨b, h3, h4⟩ := ih (fun q hq => he q (List.mem_cons_of_mem _ hq))
      (fun q hq => hf q (List.mem_cons_of_mem _ hq))
      (tags ++ testTags pathOf suite (reportName context key) t.elapsed t.failures)
    refine ⟨a ++ b, by simp only [writeTests, h1, h3], ?_⟩
    rw [List.foldl_append, h2, h4]
    simp

/-! ## The map -/

theorem keyLt_irrefl (a : Key) : keyLt a a = false := by simp [keyLt]

theorem keyLt_trans {a b c : Key} (h1 : keyLt a b = true) (h2 : keyLt b c = true) :
    keyLt a c = true := by
  simp only [keyLt, Bool.or_eq_true, Bool.and_eq_true, decide_eq_true_eq] at *
  omega

theorem keyLt_total {a b : Key} (h1 : keyLt a b = false) (h2 : a ≠ b) : keyLt b a = true := by
  obtain ⟨a1, a2⟩ := a
  obtain ⟨b1, b2⟩ := b
  have h2' : ¬ (a1 = b1 ∧ a2 = b2) := fun h => h2 (by rw [h.1, h.2])
  simp only [keyLt, Bool.or_eq_true, Bool.or_eq_false_iff, Bool.and_eq_true, Bool.and_eq_false_iff,
    decide_eq_true_eq, decide_eq_false_iff_not] at *
  omega

/-- The keys are in order. -/
def Sorted (m : List (Key × Test)) : Prop := m.Pairwise fun a b => keyLt a.1 b.1 = true

theorem mem_emplace (key : Key) (m : List (Key × Test)) (hm : Sorted m) (p : Key × Test) :
    p ∈ emplace key m ↔ p ∈ m ∨ (p = (key, {}) ∧ ∀ q ∈ m, q.1 ≠ key) := by
  induction m with
  | nil => simp [emplace]
  | cons q rest ih =>
    obtain ⟨k, t⟩ := q
    unfold Sorted at hm
    rw [List.pairwise_cons] at hm
    simp only [emplace]
    split_ifs with h1 h2
    · have hne : ∀ q ∈ (k, t) :: rest, q.1 ≠ key := by
        intro q hq hc
        rcases List.mem_cons.1 hq with rfl | hq
        · rw [← hc, keyLt_irrefl] at h1; cases h1
        · have := keyLt_trans h1 (hm.1 q hq)
          rw [hc, keyLt_irrefl] at this; cases this
      constructor
      · intro h
        rcases List.mem_cons.1 h with h | h
        · exact Or.inr ⟨h, hne⟩
        · exact Or.inl h
      · rintro (h | ⟨h, _⟩)
        · exact List.mem_cons_of_mem _ h
        · rw [h]; simp
    · constructor
      · exact Or.inl
      · rintro (h | ⟨_, h⟩)
        · exact h
        · exact absurd h2.symm (h (k, t) (by simp))
    · rw [List.mem_cons, ih hm.2]
      constructor
      · rintro (h | h | ⟨h, hq⟩)
        · exact Or.inl (by rw [h]; simp)
        · exact Or.inl (List.mem_cons_of_mem _ h)
        · refine Or.inr ⟨h, ?_⟩
          intro q hqm
          rcases List.mem_cons.1 hqm with rfl | hqm
          · exact fun hc => h2 hc.symm
          · exact hq q hqm
      · rintro (h | ⟨h, hq⟩)
        · rcases List.mem_cons.1 h with h | h
          · exact Or.inl h
          · exact Or.inr (Or.inl h)
        · exact Or.inr (Or.inr ⟨h, fun q hqm => hq q (List.mem_cons_of_mem _ hqm)⟩)

theorem sorted_emplace (key : Key) (m : List (Key × Test)) (hm : Sorted m) :
    Sorted (emplace key m) := by
  induction m with
  | nil => simp [emplace, Sorted]
  | cons q rest ih =>
    obtain ⟨k, t⟩ := q
    have hm' := hm
    unfold Sorted at hm
    rw [List.pairwise_cons] at hm
    simp only [emplace]
    split_ifs with h1 h2
    · unfold Sorted
      rw [List.pairwise_cons]
      refine ⟨?_, hm'⟩
      intro p hp
      rcases List.mem_cons.1 hp with rfl | hp
      · exact h1
      · exact keyLt_trans h1 (hm.1 p hp)
    · exact hm'
    · unfold Sorted
      rw [List.pairwise_cons]
      refine ⟨?_, ih hm.2⟩
      intro p hp
      rcases (mem_emplace key rest hm.2 p).1 hp with hp | ⟨rfl, _⟩
      · exact hm.1 p hp
      · exact keyLt_total (by simpa using h1) h2

theorem modify_eq (key : Key) (f : Test → Test) (m : List (Key × Test)) (hm : Sorted m)
    (hk : ∃ p ∈ m, p.1 = key) :
    modify key f m = some (m.map fun p => if p.1 = key then (p.1, f p.2) else p) := by
  induction m with
  | nil => simp at hk
  | cons q rest ih =>
    obtain ⟨k, t⟩ := q
    unfold Sorted at hm
    rw [List.pairwise_cons] at hm
    simp only [modify]
    split_ifs with h1
    · rw [List.map_cons, if_pos h1.symm]
      have : rest.map (fun p => if p.1 = key then (p.1, f p.2) else p) = rest := by
        conv_rhs => rw [← List.map_id rest]
        apply List.map_congr_left
        intro p hp
        rw [if_neg]
        · rfl
        · intro hc
          have := hm.1 p hp
          simp only at this
          rw [hc, h1, keyLt_irrefl] at this
          cases this
      rw [this]
    · have hk' : ∃ p ∈ rest, p.1 = key := by
        obtain ⟨p, hp, hpk⟩ := hk
        rcases List.mem_cons.1 hp with rfl | hp
        · exact absurd hpk.symm h1
        · exact ⟨p, hp, hpk⟩
      rw [ih hm.2 hk']
      rw [List.map_cons, if_neg (fun hc => h1 hc.symm)]

theorem calls_append (m : List (Key × Test)) (a b : List Call) :
    calls m (a ++ b) = (calls m a).bind fun m => calls m b := by
  induction a generalizing m with
  | nil => rfl
  | cons c rest ih =>
    rw [List.cons_append]
    simp only [calls]
    cases call m c with
    | none => rfl
    | some m' => exact ih m'

theorem failuresOf_append (a b : List Call) (key : Key) :
    failuresOf (a ++ b) key = failuresOf a key ++ failuresOf b key := by
  simp [failuresOf]

theorem elapsedOf_snoc (a : List Call) (c : Call) (key : Key) :
    elapsedOf (a ++ [c]) key = match c with
      | .end_ k e => if k = key then e else elapsedOf a key
      | _ => elapsedOf a key := by
  cases c with
  | begin_ k => simp [elapsedOf]
  | fail k f => simp [elapsedOf]
  | end_ k e =>
    by_cases h : k = key
    · simp [elapsedOf, h]
    · simp [elapsedOf, h]

theorem proper_init {cs : List Call} {c : Call} (h : Proper (cs ++ [c])) : Proper cs := by
  intro x d y hxy
  exact h x d (y ++ [c]) (by rw [hxy]; simp)

/-- The contents of the map. -/
theorem calls_spec (cs : List Call) (h : Proper cs) :
    ∃ m, calls [] cs = some m ∧ Sorted m ∧ (∀ k, (∃ p ∈ m, p.1 = k) ↔ .begin_ k ∈ cs) ∧
      (∀ p ∈ m, p.2 = ⟨failuresOf cs p.1, elapsedOf cs p.1⟩) ∧
      (∀ k, .begin_ k ∉ cs → failuresOf cs k = [] ∧ elapsedOf cs k = ['0']) := by
  induction cs using List.reverseRecOn with
  | nil => exact ⟨[], rfl, by simp [Sorted], by simp, by simp, by simp [failuresOf, elapsedOf]⟩
  | append_singleton cs c ih =>
    obtain ⟨m, h1, h2, h3, h4, h5⟩ := ih (proper_init h)
    have hc := h cs c [] rfl
    rw [calls_append, h1, Option.bind_some]
    cases c with
    | begin_ key =>
      refine ⟨emplace key m, rfl, sorted_emplace key m h2, ?_, ?_, ?_⟩
      · intro k
        constructor
        · rintro ⟨p, hp, hpk⟩
          rcases (mem_emplace key m h2 p).1 hp with hp | ⟨rfl, _⟩
          · exact List.mem_append_left _ ((h3 k).1 ⟨p, hp, hpk⟩)
          · rw [← hpk]; simp
        · intro hk
          rcases List.mem_append.1 hk with hk | hk
          · obtain ⟨p, hp, hpk⟩ := (h3 k).2 hk
            exact ⟨p, (mem_emplace key m h2 p).2 (Or.inl hp), hpk⟩
          · simp only [List.mem_singleton, Call.begin_.injEq] at hk
            subst hk
            by_cases he : ∃ q ∈ m, q.1 = k
            · obtain ⟨p, hp, hpk⟩ := he
              exact ⟨p, (mem_emplace k m h2 p).2 (Or.inl hp), hpk⟩
            · exact ⟨(k, {}), (mem_emplace k m h2 _).2 (Or.inr ⟨rfl, fun q hq hc => he ⟨q, hq, hc⟩⟩),
                rfl⟩
      · intro p hp
        rw [failuresOf_append, elapsedOf_snoc]
        simp only [failuresOf, List.filterMap_cons, List.filterMap_nil, List.append_nil]
        rcases (mem_emplace key m h2 p).1 hp with hp | ⟨rfl, hne⟩
        · exact h4 p hp
        · have hnb : .begin_ key ∉ cs := by
            intro hb
            obtain ⟨q, hq, hqk⟩ := (h3 key).2 hb
            exact hne q hq hqk
          obtain ⟨e1, e2⟩ := h5 key hnb
          simp only [failuresOf] at e1
          simp only [e1, e2]
      · intro k hk
        rw [failuresOf_append, elapsedOf_snoc]
        have := h5 k (fun hc => hk (List.mem_append_left _ hc))
        rw [this.1]
        exact ⟨by simp [failuresOf], this.2⟩
    | fail key f =>
      have hex := (h3 key).2 hc
      have hm := modify_eq key (fun t => { t with failures := t.failures ++ [f] }) m h2 hex
      refine ⟨_, by simp only [calls, call, hm]; rfl, ?_, ?_, ?_, ?_⟩
      · unfold Sorted
        rw [List.pairwise_map]
        refine h2.imp ?_
        intro a b hab
        split_ifs <;> exact hab
      · intro k
        have : (.begin_ k ∈ cs ++ [.fail key f]) ↔ .begin_ k ∈ cs := by simp
        rw [this, ← h3 k]
        constructor
        · rintro ⟨p, hp, hpk⟩
          obtain ⟨q, hq, rfl⟩ := List.mem_map.1 hp
          refine ⟨q, hq, ?_⟩
          split_ifs at hpk <;> exact hpk
        · rintro ⟨q, hq, hqk⟩
          refine ⟨_, List.mem_map.2 ⟨q, hq, rfl⟩, ?_⟩
          split_ifs <;> exact hqk
      · intro p hp
        obtain ⟨q, hq, rfl⟩ := List.mem_map.1 hp
        have hq4 := h4 q hq
        rw [failuresOf_append, elapsedOf_snoc]
        by_cases hqk : q.1 = key
        · rw [if_pos hqk]
          simp only [hq4, hqk, failuresOf, List.filterMap_cons, if_true, List.filterMap_nil]
        · rw [if_neg hqk, hq4]
          simp [failuresOf, Ne.symm hqk]
      · intro k hk
        have hk' : .begin_ k ∉ cs := fun hc => hk (List.mem_append_left _ hc)
        have := h5 k hk'
        have hne : key ≠ k := fun hce => hk' (hce ▸ hc)
        rw [failuresOf_append, elapsedOf_snoc, this.1]
        exact ⟨by simp [failuresOf, hne], this.2⟩
    | end_ key e =>
      have hex := (h3 key).2 hc
      have hm := modify_eq key (fun t => { t with elapsed := e }) m h2 hex
      refine ⟨_, by simp only [calls, call, hm]; rfl, ?_, ?_, ?_, ?_⟩
      · unfold Sorted
        rw [List.pairwise_map]
        refine h2.imp ?_
        intro a b hab
        split_ifs <;> exact hab
      · intro k
        have : (.begin_ k ∈ cs ++ [.end_ key e]) ↔ .begin_ k ∈ cs := by simp
        rw [this, ← h3 k]
        constructor
        · rintro ⟨p, hp, hpk⟩
          obtain ⟨q, hq, rfl⟩ := List.mem_map.1 hp
          refine ⟨q, hq, ?_⟩
          split_ifs at hpk <;> exact hpk
        · rintro ⟨q, hq, hqk⟩
          refine ⟨_, List.mem_map.2 ⟨q, hq, rfl⟩, ?_⟩
          split_ifs <;> exact hqk
      · intro p hp
        obtain ⟨q, hq, rfl⟩ := List.mem_map.1 hp
        have hq4 := h4 q hq
        rw [failuresOf_append, elapsedOf_snoc]
        by_cases hqk : q.1 = key
        · rw [if_pos hqk]
          simp [hq4, hqk, failuresOf]
        · rw [if_neg hqk, hq4]
          simp [failuresOf, Ne.symm hqk]
      · intro k hk
        have hk' : .begin_ k ∉ cs := fun hc => hk (List.mem_append_left _ hc)
        have := h5 k hk'
        have hne : key ≠ k := fun hce => hk' (hce ▸ hc)
        rw [failuresOf_append, elapsedOf_snoc, this.1]
        refine ⟨by simp [failuresOf], ?_⟩
        simp only [if_neg hne]
        exact this.2

end Verif.XmlReport
