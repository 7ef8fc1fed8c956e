import Verif.TestPath.Model
import Verif.TestPath.Spec
import Verif.AsInt.Props
/-!
Properties of test files.
-/
namespace Verif.TestPath
open Verif.Integer Spec

/-! ### C203: Different test files have different paths -/

theorem components_plain : ∀ (text acc : List Char), '/' ∉ text → acc.reverse ++ text ≠ [] → components acc text = [acc.reverse ++ text] := by
  intro text
  induction text with
  | nil =>
    intro acc _ h
    have : acc ≠ [] := by rintro rfl; simp at h
    simp [components, this]
  | cons c rest ih =>
    intro acc hs _
    have hc : c ≠ '/' := by rintro rfl; simp at hs
    unfold components
    rw [if_neg hc, ih (c :: acc) (fun h => hs (by simp [h])) (by simp)]
    simp

theorem decimal_chars {v : Int} : ∀ c ∈ AsInt.Spec.numeral 10 v, c ≠ '.' ∧ c ≠ '/' := by
  obtain ⟨sign, w, he, hs, -, hw⟩ := AsInt.numeral_shape (radix := 10) (by decide) (by decide) v
  intro c hc
  rw [he] at hc
  rcases List.mem_append.mp hc with hc | hc
  · rcases hs with rfl | rfl
    · simp at hc
    · simp at hc; rw [hc]; decide
  · obtain ⟨n, rfl, hn⟩ := hw c hc
    have key : ∀ n < 91, (48 ≤ n ∧ n ≤ 57) ∨ (65 ≤ n ∧ n ≤ 90) → Char.ofNat n ≠ '.' ∧ Char.ofNat n ≠ '/' := by decide +kernel
    exact key n (by omega) hn

/-- The path of a test file is in the directory for test files, and its name is the name of the test, the repetition number, the name
of the variable, and the extension, with dots in between. -/
theorem C203_path (I : Nat) (hI : 7 ≤ I) (M : Nat) (hM : I + 2 ≤ M) (mem : List Char) (hm : mem.length ≤ M) (dir : Path) (name varName extension : List Char)
    (rep : Int) (hrep : -2 ^ I ≤ rep ∧ rep < 2 ^ I) (hn : Plain name) (hv : Plain varName) (he : '/' ∉ extension) :
    makeTestPath I M mem dir name rep (guardSuffix varName extension) =
      some (dir ++ [name ++ ['.'] ++ AsInt.Spec.numeral 10 rep ++ ['.'] ++ varName ++ extension]) := by
  have hT : (intTy I).bits + 1 < 2 ^ I := by
    have : ∀ n, 7 ≤ n → n + 1 < 2 ^ n := by
      intro n hn
      induction n, hn using Nat.le_induction with
      | base => decide
      | succ n hn ih => rw [Nat.pow_succ]; omega
    exact this I hI
  unfold makeTestPath formatName
  rw [AsInt.format_eq hI hT hM (by decide) (by decide) hm (PixelSize.int_fits.mpr hrep)]
  simp only [Option.map_some, guardSuffix]
  rw [components_plain]
  · simp
  · intro h
    simp only [List.mem_append, List.mem_cons] at h
    rcases h with h | h | h | h | h | h
    · exact hn.2 h
    · revert h; decide
    · exact (decimal_chars _ h).2 rfl
    · revert h; decide
    · exact hv.2 h
    · exact he h
  · simp

theorem dot_split {a b x y : List Char} (ha : '.' ∉ a) (hb : '.' ∉ b) (h : a ++ '.' :: x = b ++ '.' :: y) : a = b ∧ x = y := by
  induction a generalizing b with
  | nil =>
    cases b with
    | nil => simpa using h
    | cons c b => simp at h; exact absurd (by simp [← h.1]) hb
  | cons c a ih =>
    cases b with
    | nil => simp at h; exact absurd (by simp [h.1]) ha
    | cons d b =>
      simp at h
      obtain ⟨rfl, h⟩ := h
      obtain ⟨rfl, rfl⟩ := ih (fun hh => ha (by simp [hh])) (fun hh => hb (by simp [hh])) h
      exact ⟨rfl, rfl⟩

theorem numeral_inj {v w : Int} (h : AsInt.Spec.numeral 10 v = AsInt.Spec.numeral 10 w) : v = w := by
  have hT : ∀ v : Int, Integer.Spec.Fits (intTy (v.natAbs + 1)) v := by
    intro v
    rw [PixelSize.int_fits]
    have h1 : v.natAbs < 2 ^ (v.natAbs + 1) := Nat.lt_of_lt_of_le (Nat.lt_succ_self _) (Nat.le_of_lt Nat.lt_two_pow_self)
    have h2 : (v.natAbs : Int) < 2 ^ (v.natAbs + 1) := by exact_mod_cast h1
    omega
  have hv := (AsInt.numeral_isInt (radix := 10) (by decide) (by decide) (hT v)).1
  have hw := (AsInt.numeral_isInt (radix := 10) (by decide) (by decide) (hT w)).1
  rw [h] at hv
  exact IntText.C25_unique 10 (by decide) _ _ _ v w hv hw

/-- The part of the name of a test file that follows the name of the variable is empty, or it starts with a dot. -/
def IsExtension (e : List Char) : Prop := e = [] ∨ ∃ r, e = '.' :: r

/-- When two test files have the same path, they belong to the same repetition of the same test, and the variables have the same name. -/
theorem C203_distinct (I : Nat) (hI : 7 ≤ I) (M : Nat) (hM : I + 2 ≤ M) (mem : List Char) (hm : mem.length ≤ M) (dir : Path)
    (name1 varName1 ext1 name2 varName2 ext2 : List Char) (rep1 rep2 : Int) (hr1 : -2 ^ I ≤ rep1 ∧ rep1 < 2 ^ I) (hr2 : -2 ^ I ≤ rep2 ∧ rep2 < 2 ^ I)
    (hn1 : Plain name1) (hv1 : Plain varName1) (he1 : IsExtension ext1 ∧ '/' ∉ ext1) (hn2 : Plain name2) (hv2 : Plain varName2)
    (he2 : IsExtension ext2 ∧ '/' ∉ ext2)
    (h : makeTestPath I M mem dir name1 rep1 (guardSuffix varName1 ext1) = makeTestPath I M mem dir name2 rep2 (guardSuffix varName2 ext2)) :
    name1 = name2 ∧ rep1 = rep2 ∧ varName1 = varName2 ∧ ext1 = ext2 := by
  rw [C203_path I hI M hM mem hm dir _ _ _ _ hr1 hn1 hv1 he1.2, C203_path I hI M hM mem hm dir _ _ _ _ hr2 hn2 hv2 he2.2] at h
  simp only [Option.some.injEq, List.append_cancel_left_eq, List.cons.injEq, and_true, List.append_assoc, List.cons_append, List.nil_append] at h
  obtain ⟨h1, h2⟩ := dot_split hn1.1 hn2.1 h
  obtain ⟨h3, h4⟩ := dot_split (fun hc => (decimal_chars _ hc).1 rfl) (fun hc => (decimal_chars _ hc).1 rfl) h2
  refine ⟨h1, numeral_inj h3, ?_⟩
  rcases he1.1 with rfl | ⟨e1, rfl⟩ <;> rcases he2.1 with rfl | ⟨e2, rfl⟩
  · simpa using h4
  · simp at h4; exact absurd (by simp [h4]) hv1.1
  · simp at h4; exact absurd (by simp [← h4]) hv2.1
  · obtain ⟨h5, h6⟩ := dot_split hv1.1 hv2.1 h4
    exact ⟨h5, by rw [h6]⟩

/-- No test file is in the directory of another one, when the two belong to different tests, or to different repetitions of a test, or when the
variables have different names. -/
theorem C203_disjoint (I : Nat) (hI : 7 ≤ I) (M : Nat) (hM : I + 2 ≤ M) (mem : List Char) (hm : mem.length ≤ M) (dir : Path)
    (name1 varName1 ext1 name2 varName2 ext2 : List Char) (rep1 rep2 : Int) (hr1 : -2 ^ I ≤ rep1 ∧ rep1 < 2 ^ I) (hr2 : -2 ^ I ≤ rep2 ∧ rep2 < 2 ^ I)
    (hn1 : Plain name1) (hv1 : Plain varName1) (he1 : IsExtension ext1 ∧ '/' ∉ ext1) (hn2 : Plain name2) (hv2 : Plain varName2)
    (he2 : IsExtension ext2 ∧ '/' ∉ ext2) (hne : (name1, rep1, varName1) ≠ (name2, rep2, varName2)) (p1 p2 : Path)
    (h1 : makeTestPath I M mem dir name1 rep1 (guardSuffix varName1 ext1) = some p1)
    (h2 : makeTestPath I M mem dir name2 rep2 (guardSuffix varName2 ext2) = some p2) : ¬ ∃ q, Within p1 q ∧ Within p2 q := by
  rintro ⟨q, ⟨r1, e1⟩, ⟨r2, e2⟩⟩
  have hp : p1 = p2 := by
    have g1 := C203_path I hI M hM mem hm dir _ _ _ _ hr1 hn1 hv1 he1.2
    have g2 := C203_path I hI M hM mem hm dir _ _ _ _ hr2 hn2 hv2 he2.2
    rw [g1] at h1
    rw [g2] at h2
    have h1 := Option.some.inj h1
    have h2 := Option.some.inj h2
    rw [e1] at e2
    exact (List.append_inj e2 (by rw [← h1, ← h2]; simp)).1
  rw [← hp, ← h1] at h2
  obtain ⟨h3, h4, h5, -⟩ := C203_distinct I hI M hM mem hm dir _ _ _ _ _ _ _ _ hr2 hr1 hn2 hv2 he2 hn1 hv1 he1 h2
  exact hne (by rw [h3, h4, h5])

example : components [] "Foo.0.file.txt".toList = ["Foo.0.file.txt".toList] := by decide
example : components [] "a/b//c".toList = ["a".toList, "b".toList, "c".toList] := by decide

/-! ### C204: Life of test files -/

theorem within_iff {p q : Path} : p.isPrefixOf q = true ↔ Within p q := by
  rw [List.isPrefixOf_iff_prefix]
  constructor
  · rintro ⟨r, h⟩; exact ⟨r, h.symm⟩
  · rintro ⟨r, h⟩; exact ⟨r, h.symm⟩

/-- There is a guard for the path that has not been moved from. -/
def Guarded (s : State) (p : Path) : Prop := ∃ v, s.guards v = some ⟨true, p⟩

/-- Immediately after the creation of a guard, there is nothing at the path, or, for directories, there is an empty directory. -/
theorem C204_fresh (keep : Bool) (s : State) (v : Nat) (isDir : Bool) (p : Path) (hv : s.guards v = none) :
    Guarded (step keep s (.construct v isDir p)) p ∧
    ∀ q, Within p q → ((step keep s (.construct v isDir p)).fs q = true ↔ isDir = true ∧ q = p) := by
  constructor
  · exact ⟨v, by simp [step, hv, set]⟩
  · intro q hq
    have := within_iff.mpr hq
    cases isDir <;> simp [step, hv, prepare, cleanup, removeAll, createDirectory, this]

/-- The path of the guard whose life ends, or begins, with the operation. -/
inductive Ends (s : State) : Op → Path → Prop
  | construct (v : Nat) (isDir : Bool) (p : Path) : s.guards v = none → Ends s (.construct v isDir p) p
  | moveAssign (v w : Nat) (left p : Path) : s.guards v = some ⟨true, p⟩ → s.guards w ≠ none → Ends s (.moveAssign v w left) p
  | destroy (v : Nat) (p : Path) : s.guards v = some ⟨true, p⟩ → Ends s (.destroy v) p

theorem destroy_fs {keep : Bool} {fs : Files} {g : Guard} {q : Path} :
    destroy keep fs g q = (fs q && !(g.active && !keep && g.path.isPrefixOf q)) := by
  obtain ⟨a, p⟩ := g
  cases a <;> cases keep <;> simp [destroy, cleanup, removeAll]

/-- Something is removed precisely if it is at the path of a guard whose life begins or ends, or is in a directory at that path. When files are
to be kept, only the beginning of the life of a guard matters. -/
theorem C204_removed (keep : Bool) (s : State) (op : Op) (q : Path) (h : s.fs q = true) :
    ((step keep s op).fs q = false → ∃ p, Ends s op p ∧ Within p q) ∧
    (∀ p, Ends s op p → Within p q → (∃ v isDir, op = .construct v isDir p) ∨ ((step keep s op).fs q = false ↔ keep = false)) := by
  cases op with
  | construct v isDir p =>
    refine ⟨?_, fun p' he _ => ?_⟩
    · intro h2
      cases hv : s.guards v with
      | some g => simp [step, hv, h] at h2
      | none =>
        refine ⟨p, .construct v isDir p hv, ?_⟩
        rw [← within_iff]
        cases isDir <;> simp_all [step, prepare, cleanup, removeAll, createDirectory]
    · cases he; exact Or.inl ⟨_, _, rfl⟩
  | moveConstruct v w left =>
    refine ⟨?_, fun p he _ => by cases he⟩
    intro h2
    exfalso
    cases hv : s.guards v <;> cases hw : s.guards w <;> simp [step, hv, hw, h] at h2
  | moveAssign v w left =>
    cases hv : s.guards v with
    | none =>
      refine ⟨fun h2 => by simp [step, hv, h] at h2, fun p he _ => ?_⟩
      cases he with
      | moveAssign _ _ _ _ h3 _ => rw [hv] at h3; cases h3
    | some g =>
      cases hw : s.guards w with
      | none =>
        refine ⟨fun h2 => by simp [step, hv, hw, h] at h2, fun p he _ => ?_⟩
        cases he with
        | moveAssign _ _ _ _ _ h3 => exact absurd hw h3
      | some g2 =>
        have hfs : (step keep s (.moveAssign v w left)).fs = destroy keep s.fs g := by
          simp only [step, hv, hw]; split <;> rfl
        rw [hfs, destroy_fs, h]
        constructor
        · intro h2
          simp at h2
          obtain ⟨a, p⟩ := g
          simp at h2
          refine ⟨p, .moveAssign v w left p (by rw [hv, h2.1.1]) (by rw [hw]; simp), ?_⟩
          rw [← within_iff, List.isPrefixOf_iff_prefix]; exact h2.2
        · intro p he hq
          cases he with
          | moveAssign _ _ _ _ h3 _ =>
            rw [hv] at h3
            have h3 := Option.some.inj h3
            subst h3
            right
            rw [within_iff.mpr hq]
            cases keep <;> simp
  | destroy v =>
    cases hv : s.guards v with
    | none =>
      refine ⟨fun h2 => by simp [step, hv, h] at h2, fun p he _ => ?_⟩
      cases he with
      | destroy _ _ h3 => rw [hv] at h3; cases h3
    | some g =>
      have hfs : (step keep s (.destroy v)).fs = destroy keep s.fs g := by simp only [step, hv]
      rw [hfs, destroy_fs, h]
      constructor
      · intro h2
        simp at h2
        obtain ⟨a, p⟩ := g
        simp at h2
        refine ⟨p, .destroy v p (by rw [hv, h2.1.1]), ?_⟩
        rw [← within_iff, List.isPrefixOf_iff_prefix]; exact h2.2
      · intro p he hq
        cases he with
        | destroy _ _ h3 =>
          rw [hv] at h3
          have h3 := Option.some.inj h3
          subst h3
          right
          rw [within_iff.mpr hq]
          cases keep <;> simp
  | write r =>
    refine ⟨fun h2 => by simp [step, h] at h2, fun p he _ => by cases he⟩

/-- Something is created by a test only at guarded paths, or in directories at such paths. -/
def Behaved (keep : Bool) : State → List Op → Prop
  | _, [] => True
  | s, op :: ops => (∀ q, op = .write q → ∃ p, Guarded s p ∧ Within p q) ∧ Behaved keep (step keep s op) ops

theorem step_left (s : State) (op : Op) (fs0 : Files) (hb : ∀ q, op = .write q → ∃ p, Guarded s p ∧ Within p q)
    (h : ∀ q, s.fs q = true → fs0 q = true ∨ ∃ p, Guarded s p ∧ Within p q) :
    ∀ q, (step false s op).fs q = true → fs0 q = true ∨ ∃ p, Guarded (step false s op) p ∧ Within p q := by
  intro q hq
  cases op with
  | construct v isDir p =>
    cases hv : s.guards v with
    | some g => simp only [step, hv] at hq ⊢; exact h q hq
    | none =>
      have keepG : ∀ p', Guarded s p' → Guarded (step false s (.construct v isDir p)) p' := by
        rintro p' ⟨u, hu⟩
        refine ⟨u, ?_⟩
        have : u ≠ v := by rintro rfl; rw [hv] at hu; cases hu
        simp [step, hv, set, this, hu]
      by_cases hp : q = p
      · right
        exact ⟨p, ⟨v, by simp [step, hv, set]⟩, ⟨[], by simp [hp]⟩⟩
      · have : s.fs q = true := by
          cases isDir <;> simp_all [step, prepare, cleanup, removeAll, createDirectory]
        rcases h q this with h | ⟨p', h1, h2⟩
        · exact Or.inl h
        · exact Or.inr ⟨p', keepG p' h1, h2⟩
  | moveConstruct v w left =>
    cases hv : s.guards v with
    | some g => simp only [step, hv] at hq ⊢; exact h q hq
    | none =>
      cases hw : s.guards w with
      | none => simp only [step, hv, hw] at hq ⊢; exact h q hq
      | some g =>
        have hvw : v ≠ w := by rintro rfl; rw [hv] at hw; cases hw
        have hq' : s.fs q = true := by simpa only [step, hv, hw] using hq
        rcases h q hq' with h | ⟨p', ⟨u, hu⟩, h2⟩
        · exact Or.inl h
        · right
          refine ⟨p', ?_, h2⟩
          by_cases huw : u = w
          · subst huw
            refine ⟨v, ?_⟩
            rw [hw] at hu
            simp [step, hv, hw, set, hvw, hu]
          · have huv : u ≠ v := by rintro rfl; rw [hv] at hu; cases hu
            exact ⟨u, by simp [step, hv, hw, set, huw, huv, hu]⟩
  | moveAssign v w left =>
    cases hv : s.guards v with
    | none => simp only [step, hv] at hq ⊢; exact h q hq
    | some g =>
      cases hw : s.guards w with
      | none => simp only [step, hv, hw] at hq ⊢; exact h q hq
      | some g2 =>
        have hfs : (step false s (.moveAssign v w left)).fs = destroy false s.fs g := by
          simp only [step, hv, hw]; split <;> rfl
        rw [hfs, destroy_fs] at hq
        simp only [Bool.and_eq_true, Bool.not_eq_true', Bool.not_false, Bool.and_true, Bool.and_eq_false_iff] at hq
        rcases h q hq.1 with h | ⟨p', ⟨u, hu⟩, h2⟩
        · exact Or.inl h
        · right
          have huv : u ≠ v := by
            rintro rfl
            rw [hv] at hu
            have hu := Option.some.inj hu
            subst hu
            have := within_iff.mpr h2
            simp [this] at hq
          refine ⟨p', ?_, h2⟩
          by_cases huw : u = w
          · subst huw
            refine ⟨v, ?_⟩
            rw [hw] at hu
            simp [step, hv, hw, set, Ne.symm huv, hu]
          · refine ⟨u, ?_⟩
            simp only [step, hv, hw]
            split <;> simp [set, huw, huv, hu]
  | destroy v =>
    cases hv : s.guards v with
    | none => simp only [step, hv] at hq ⊢; exact h q hq
    | some g =>
      have hfs : (step false s (.destroy v)).fs = destroy false s.fs g := by simp only [step, hv]
      rw [hfs, destroy_fs] at hq
      simp only [Bool.and_eq_true, Bool.not_eq_true', Bool.not_false, Bool.and_true, Bool.and_eq_false_iff] at hq
      rcases h q hq.1 with h | ⟨p', ⟨u, hu⟩, h2⟩
      · exact Or.inl h
      · right
        have huv : u ≠ v := by
          rintro rfl
          rw [hv] at hu
          have hu := Option.some.inj hu
          subst hu
          have := within_iff.mpr h2
          simp [this] at hq
        exact ⟨p', ⟨u, by simp [step, hv, set, huv, hu]⟩, h2⟩
  | write r =>
    simp only [step, Bool.or_eq_true, beq_iff_eq] at hq
    rcases hq with hq | rfl
    · rcases h q hq with h | ⟨p', ⟨u, hu⟩, h2⟩
      · exact Or.inl h
      · exact Or.inr ⟨p', ⟨u, by simp [step, hu]⟩, h2⟩
    · obtain ⟨p', ⟨u, hu⟩, h2⟩ := hb q rfl
      exact Or.inr ⟨p', ⟨u, by simp [step, hu]⟩, h2⟩

/-- When test files are not to be kept, what exists at any time either existed to begin with, or is guarded. In particular, nothing is left behind
when there are no more guards. -/
theorem C204_nothing_left (s0 : State) (ops : List Op) (hb : Behaved false s0 ops) :
    (∀ q, (run false s0 ops).fs q = true → s0.fs q = true ∨ ∃ p, Guarded (run false s0 ops) p ∧ Within p q) ∧
    ((∀ p, ¬ Guarded (run false s0 ops) p) → ∀ q, (run false s0 ops).fs q = true → s0.fs q = true) := by
  have key : ∀ (ops : List Op) (s : State) (fs0 : Files), Behaved false s ops →
      (∀ q, s.fs q = true → fs0 q = true ∨ ∃ p, Guarded s p ∧ Within p q) →
      ∀ q, (run false s ops).fs q = true → fs0 q = true ∨ ∃ p, Guarded (run false s ops) p ∧ Within p q := by
    intro ops
    induction ops with
    | nil => intro s fs0 _ h; exact h
    | cons op ops ih =>
      intro s fs0 hb h
      exact ih (step false s op) fs0 hb.2 (step_left s op fs0 hb.1 h)
  have h := key ops s0 s0.fs hb (fun q hq => Or.inl hq)
  refine ⟨h, fun hn q hq => ?_⟩
  rcases h q hq with h | ⟨p, hp, -⟩
  · exact h
  · exact absurd hp (hn p)

/-- Moving passes on responsibility: no path is guarded by more variables than before, and none ceases to be guarded. -/
theorem C204_move (keep : Bool) (s : State) (v w : Nat) (left : Path) (g : Guard) (hv : s.guards v = none) (hw : s.guards w = some g) :
    (step keep s (.moveConstruct v w left)).fs = s.fs ∧ (step keep s (.moveConstruct v w left)).guards v = some g ∧
    (∃ p, (step keep s (.moveConstruct v w left)).guards w = some ⟨false, p⟩) ∧
    (∀ u, u ≠ v → u ≠ w → (step keep s (.moveConstruct v w left)).guards u = s.guards u) ∧
    (∀ q, (step keep (step keep s (.moveConstruct v w left)) (.destroy w)).fs q = s.fs q) := by
  have hvw : v ≠ w := by rintro rfl; rw [hv] at hw; cases hw
  have hst : step keep s (.moveConstruct v w left) = ⟨s.fs, set (set s.guards v (some g)) w (some ⟨false, left⟩)⟩ := by simp only [step, hv, hw]
  rw [hst]
  refine ⟨rfl, by simp [set, hvw], ⟨left, by simp [set]⟩, fun u h1 h2 => by simp [set, h1, h2], fun q => ?_⟩
  simp [step, set, destroy]

/-- Two guards for the same path, as with two variables of the same name in nested scopes: When the inner one is created, the file of the
outer one is removed. -/
theorem C204_same_name : ∃ (s : State) (ops : List Op) (p : Path), Behaved false s ops ∧ Guarded (run false s ops) p ∧ s.fs p = false ∧
    (run false s (ops.take 2)).fs p = true ∧ (run false s ops).fs p = false := by
  refine ⟨⟨fun _ => false, fun _ => none⟩, [.construct 0 false [['a']], .write [['a']], .construct 1 false [['a']]], [['a']], ?_, ⟨0, rfl⟩, rfl, rfl, rfl⟩
  refine ⟨fun q h => (by cases h), ⟨?_, ⟨fun q h => (by cases h), trivial⟩⟩⟩
  intro q h
  cases h
  exact ⟨[['a']], ⟨0, rfl⟩, [], rfl⟩

/-- A run with two guards. -/
def sample : List Op :=
  [.construct 0 true [['a']], .write [['a'], ['b']], .construct 1 false [['c']], .write [['c']], .moveConstruct 2 0 [], .destroy 0, .destroy 1]

example : (run false ⟨fun _ => false, fun _ => none⟩ sample).fs [['a'], ['b']] = true := by decide
example : (run false ⟨fun _ => false, fun _ => none⟩ sample).fs [['c']] = false := by decide
example : (run true ⟨fun _ => false, fun _ => none⟩ sample).fs [['c']] = true := by decide
example : (run false ⟨fun _ => false, fun _ => none⟩ (sample ++ [.destroy 2])).fs [['a'], ['b']] = false := by decide

end Verif.TestPath
