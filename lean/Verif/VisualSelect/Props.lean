import Verif.VisualSelect.Main

/-!
# Properties of the selection of visuals (C176 - C177)
-/

namespace Verif.VisualSelect

/-! ## C176: the best visual -/

/-- Comparison of visuals is a strict weak ordering, as required by the sorting function. -/
theorem C176_strict_weak_order (screen : Screen) (params : Params) :
    ∃ lt : Visual → Visual → Bool, (∀ a b, less screen params a b = some (lt a b)) ∧
      (∀ a, lt a a = false) ∧ (∀ a b c, lt a b = true → lt b c = true → lt a c = true) ∧
      ∀ a b c, lt a b = false → lt b c = false → lt a c = false := by
  classical
  refine ⟨fun a b => decide (Better screen params b a), fun a b => less_eq _ _ _ _, ?_, ?_, ?_⟩
  · intro a; exact decide_eq_false (better_irrefl _ _ _)
  · intro a b c h1 h2
    simp only [decide_eq_true_eq] at *
    exact better_trans h2 h1
  · intro a b c h1 h2
    simp only [decide_eq_false_iff_not] at *
    exact better_negtrans h2 h1

/-- A visual is found if, and only if there is an acceptable one. The one that is found is
acceptable, no acceptable visual is better, and it is the first one of those that are as good. -/
theorem C176_find (screen : Screen) (params : Params) (specs : List Visual) :
    ∃ r, find screen params specs = some r ∧
      (r = none ↔ ∀ v ∈ specs, ¬ Acceptable params v) ∧
      ∀ i, r = some i → ∃ v, specs[i]? = some v ∧ Acceptable params v ∧
        (∀ w ∈ specs, Acceptable params w → ¬ Better screen params w v) ∧
        ∀ j w, j < i → specs[j]? = some w → Acceptable params w → Better screen params v w := by
  obtain ⟨r, h1, h2, h3⟩ := findLoop_spec screen params [] specs none (by simp) (by simp)
  refine ⟨r.map Prod.fst, by unfold find; rw [List.length_nil] at h1; rw [h1]; rfl, ?_, ?_⟩
  · constructor
    · intro h
      exact h2 (Option.map_eq_none_iff.1 h)
    · intro h
      cases r with
      | none => rfl
      | some b =>
        obtain ⟨g1, g2, _⟩ := h3 b rfl
        exact absurd g2 (h _ (List.mem_of_getElem? g1))
  · intro i hi
    obtain ⟨b, hb, rfl⟩ := Option.map_eq_some_iff.1 hi
    exact ⟨b.2, h3 b hb⟩

/-- All the acceptable visuals are listed exactly once. No visual is better than one that comes before
it, and visuals that are equally good are in the original order. -/
theorem C176_find_all (screen : Screen) (params : Params) (specs : List Visual) :
    ∃ l, findAll screen params specs = some l ∧ (l.map Prod.fst).Nodup ∧
      (∀ i v, (i, v) ∈ l ↔ specs[i]? = some v ∧ Acceptable params v) ∧
      l.Pairwise (fun a b => ¬ Better screen params b.2 a.2 ∧
        (Better screen params a.2 b.2 ∨ a.1 < b.1)) := by
  classical
  unfold findAll
  simp only [less_eq, Option.isSome_some, List.all_eq_true, implies_true, if_true, Option.getD_some]
  set chosen := (specs.zipIdx.map fun p => (p.2, p.1)).filter fun p => filter p.2 params with hchosen
  set le : Nat × Visual → Nat × Visual → Bool :=
    fun a b => !decide (Better screen params b.2 a.2) with hle
  have hmem : ∀ i v, (i, v) ∈ chosen ↔ specs[i]? = some v ∧ Acceptable params v := by
    intro i v
    rw [hchosen, List.mem_filter, filter_iff, List.mem_map]
    constructor
    · rintro ⟨⟨⟨w, j⟩, hw, he⟩, ha⟩
      simp only [Prod.mk.injEq] at he
      obtain ⟨rfl, rfl⟩ := he
      exact ⟨by simpa using List.mem_zipIdx_iff_getElem?.1 hw, ha⟩
    · rintro ⟨hv, ha⟩
      exact ⟨⟨(v, i), List.mem_zipIdx_iff_getElem?.2 hv, rfl⟩, ha⟩
  have hinc : chosen.Pairwise (fun a b => a.1 < b.1) := by
    apply List.Pairwise.filter
    rw [List.pairwise_map]
    simp only
    rw [List.pairwise_iff_getElem]
    intro i j hi hj hij
    simp only [List.getElem_zipIdx]
    omega
  have htrans : ∀ a b c, le a b = true → le b c = true → le a c = true := by
    intro a b c h1 h2
    simp only [hle, Bool.not_eq_true', decide_eq_false_iff_not] at *
    exact better_negtrans h2 h1
  have htotal : ∀ a b, (le a b || le b a) = true := by
    intro a b
    simp only [hle, Bool.or_eq_true, Bool.not_eq_true', decide_eq_false_iff_not]
    by_cases h : Better screen params b.2 a.2
    · exact .inr (better_asymm h)
    · exact .inl h
  have hperm := List.mergeSort_perm chosen le
  have hnodup : (chosen.map Prod.fst).Nodup := by
    unfold List.Nodup
    rw [List.pairwise_map]
    exact hinc.imp (fun h => Nat.ne_of_lt h)
  have hnodup2 : ((chosen.mergeSort le).map Prod.fst).Nodup :=
    (hperm.map Prod.fst).nodup_iff.2 hnodup
  refine ⟨chosen.mergeSort le, rfl, hnodup2, ?_, ?_⟩
  · intro i v
    rw [hperm.mem_iff]
    exact hmem i v
  · have hsorted := List.pairwise_mergeSort htrans htotal chosen
    -- elements in the result: `a` before `b`
    rw [List.pairwise_iff_forall_sublist] at hsorted ⊢
    intro a b hab
    have hle_ab := hsorted hab
    have hnb : ¬ Better screen params b.2 a.2 := by
      simpa only [hle, Bool.not_eq_true', decide_eq_false_iff_not] using hle_ab
    refine ⟨hnb, ?_⟩
    by_cases hB : Better screen params a.2 b.2
    · exact .inl hB
    · right
      by_contra hlt
      have ha : a ∈ chosen := hperm.mem_iff.1 (hab.subset (by simp))
      have hb : b ∈ chosen := hperm.mem_iff.1 (hab.subset (by simp))
      have hne : a ≠ b := by
        intro h
        have hd := (hab.map Prod.fst).nodup hnodup2
        rw [h] at hd
        simp at hd
      have hne1 : a.1 ≠ b.1 := by
        intro h
        have hd := (hab.map Prod.fst).nodup hnodup2
        simp [h] at hd
      -- `b` is before `a` in the input, and they are equally good
      have hsub : List.Sublist [b, a] chosen := by
        obtain ⟨x, y, hxy⟩ := List.append_of_mem ha
        have hby : b ∈ x ∨ b ∈ a :: y := by
          rw [← List.mem_append, ← hxy]; exact hb
        rcases hby with hby | hby
        · rw [hxy]
          exact (List.singleton_sublist.2 hby).append (List.singleton_sublist.2 List.mem_cons_self)
        · rcases List.mem_cons.1 hby with rfl | hby
          · exact absurd rfl hne
          · exfalso
            rw [hxy, List.pairwise_append, List.pairwise_cons] at hinc
            have := hinc.2.1.1 b hby
            omega
      have hpw : List.Pairwise (fun p q => le p q = true) [b, a] := by
        simp only [List.pairwise_cons, List.mem_singleton, forall_eq, List.not_mem_nil,
          false_implies, implies_true, List.Pairwise.nil, and_true]
        simpa only [hle, Bool.not_eq_true', decide_eq_false_iff_not] using hB
      have hres := List.sublist_mergeSort htrans htotal hpw hsub
      -- then both `[a, b]` and `[b, a]` are sublists of a list without duplicates
      have h1 := (hab.map Prod.fst)
      have h2 := (hres.map Prod.fst)
      simp only [List.map_cons, List.map_nil] at h1 h2
      have hsortedNo : ∀ (l : List Nat) (p q : Nat), l.Nodup → List.Sublist [p, q] l →
          List.Sublist [q, p] l → False := by
        intro l p q hn s1 s2
        induction l with
        | nil => cases s1
        | cons c l ih =>
          have hn' := List.nodup_cons.1 hn
          cases s1 with
          | cons _ s1 =>
            cases s2 with
            | cons _ s2 => exact ih hn'.2 s1 s2
            | cons_cons _ s2 => exact hn'.1 (s1.subset (by simp))
          | cons_cons _ s1 =>
            cases s2 with
            | cons _ s2 => exact hn'.1 (s2.subset (by simp))
            | cons_cons _ s2 => exact hn'.1 (s1.subset (by simp))
      exact hsortedNo _ _ _ hnodup2 h1 h2

/-- The first one in the list is the one that is found by itself. -/
theorem C176_first (screen : Screen) (params : Params) (specs : List Visual) :
    ∃ l, findAll screen params specs = some l ∧
      find screen params specs = some (l.head?.map Prod.fst) := by
  obtain ⟨l, h1, h2, h3, h4⟩ := C176_find_all screen params specs
  obtain ⟨r, g1, g2, g3⟩ := C176_find screen params specs
  refine ⟨l, h1, ?_⟩
  rw [g1]
  congr 1
  cases l with
  | nil =>
    apply g2.2
    intro v hv ha
    obtain ⟨i, hi⟩ := List.mem_iff_getElem?.1 hv
    have := (h3 i v).2 ⟨hi, ha⟩
    simp at this
  | cons b l =>
    simp only [List.head?_cons, Option.map_some]
    obtain ⟨hb1, hb2⟩ := (h3 b.1 b.2).1 List.mem_cons_self
    cases r with
    | none => exact absurd hb2 (g2.1 rfl _ (List.mem_of_getElem? hb1))
    | some i =>
      congr 1
      obtain ⟨v, k1, k2, k3, k4⟩ := g3 i rfl
      have hmem := (h3 i v).2 ⟨k1, k2⟩
      rcases List.mem_cons.1 hmem with he | he
      · rw [← he]
      · have := (List.pairwise_cons.1 h4).1 _ he
        have hnb : ¬ Better screen params b.2 v := k3 _ (List.mem_of_getElem? hb1) hb2
        rcases this.2 with hc | hc
        · exact absurd hc hnb
        · exact absurd (k4 b.1 b.2 hc hb1 hb2) this.1

/-! ## C177: preferences -/

/-- What is found, as a relation. -/
def Finds (screen : Screen) (params : Params) (specs : List Visual) (v : Visual) : Prop :=
  ∃ i, find screen params specs = some (some i) ∧ specs[i]? = some v

theorem finds_max {screen : Screen} {params : Params} {specs : List Visual} {v : Visual}
    (h : Finds screen params specs v) : Acceptable params v ∧
      ∀ w ∈ specs, Acceptable params w → ¬ Better screen params w v := by
  obtain ⟨i, h1, h2⟩ := h
  obtain ⟨r, g1, _, g3⟩ := C176_find screen params specs
  rw [h1] at g1
  obtain ⟨w, k1, k2, k3, _⟩ := g3 i (Option.some.inj g1).symm
  rw [h2] at k1
  obtain rfl := Option.some.inj k1
  exact ⟨k2, k3⟩

/-- If the default visual is preferred, and it is acceptable, it is the one that is found. -/
theorem C177_default_visual (screen : Screen) (params : Params) (specs : List Visual) (v d : Visual)
    (h : Finds screen params specs v) (hp : params.preferDefaultType = true) (hd : d ∈ specs)
    (ha : Acceptable params d) (hid : d.visualId = screen.defaultVisual) :
    v.visualId = screen.defaultVisual := by
  by_contra hc
  apply (finds_max h).2 d hd ha
  refine ⟨[], _, _, by unfold criteria only; rw [hp]; rfl, by simp, ?_⟩
  simp [yes, hc, hid]

/-- If the default visual is out of the question, and the default depth is preferred, the one that is
found has at least the default depth, if there is such a visual among the acceptable ones, and none
of those has a lower depth. -/
theorem C177_default_depth (screen : Screen) (params : Params) (specs : List Visual) (v d : Visual)
    (h : Finds screen params specs v) (hp : params.preferDefaultDepth = true)
    (hno : params.preferDefaultType = true →
      ∀ w ∈ specs, Acceptable params w → w.visualId ≠ screen.defaultVisual)
    (hd : d ∈ specs) (ha : Acceptable params d) (hdd : screen.defaultDepth ≤ d.depth) :
    screen.defaultDepth ≤ v.depth ∧ v.depth ≤ d.depth := by
  obtain ⟨i, hi1, hi2⟩ := h
  have hv : v ∈ specs := List.mem_of_getElem? hi2
  obtain ⟨hva, hmax⟩ := finds_max ⟨i, hi1, hi2⟩
  have hz : ∀ g ∈ only params.preferDefaultType (yes fun v => v.visualId = screen.defaultVisual),
      g d = g v := by
    intro g hg
    unfold only at hg
    split_ifs at hg with hpt
    · rw [List.mem_singleton] at hg
      subst hg
      have n1 := hno hpt d hd ha
      have n2 := hno hpt v hv hva
      simp [yes, n1, n2]
    · simp at hg
  have e1 : only params.preferDefaultDepth (yes fun v => screen.defaultDepth ≤ v.depth) =
    [yes fun v => screen.defaultDepth ≤ v.depth] := by unfold only; rw [hp]; rfl
  have e2 : only params.preferDefaultDepth
    (fun v => if screen.defaultDepth ≤ v.depth then -v.depth else 0) =
    [fun v => if screen.defaultDepth ≤ v.depth then -v.depth else 0] := by
    unfold only; rw [hp]; rfl
  have h1 : screen.defaultDepth ≤ v.depth := by
    by_contra hc
    apply hmax d hd ha
    refine ⟨_, yes fun v => screen.defaultDepth ≤ v.depth, _, by
      unfold criteria; rw [e1]; simp only [List.append_assoc]; rfl, hz, ?_⟩
    simp [yes, hc, hdd]
  refine ⟨h1, ?_⟩
  by_contra hc
  apply hmax d hd ha
  refine ⟨only params.preferDefaultType (yes fun v => v.visualId = screen.defaultVisual) ++
    [yes fun v => screen.defaultDepth ≤ v.depth],
    fun v => if screen.defaultDepth ≤ v.depth then -v.depth else 0, _, by
      unfold criteria; rw [e1, e2]; simp only [List.append_assoc]; rfl, ?_, ?_⟩
  · intro g hg
    rcases List.mem_append.1 hg with hg | hg
    · exact hz g hg
    · rw [List.mem_singleton.1 hg]
      simp [yes, h1, hdd]
  · simp only [h1, hdd, if_true]
    omega

/-- Without preference for the defaults, the class decides: `TrueColor` is best, then `DirectColor`,
`StaticColor`, `PseudoColor`, `StaticGray`, and `GrayScale`. -/
theorem C177_class (screen : Screen) (params : Params) (specs : List Visual) (v d : Visual)
    (h : Finds screen params specs v) (hp1 : params.preferDefaultType = false)
    (hp2 : params.preferDefaultDepth = false) (hd : d ∈ specs) (ha : Acceptable params d) :
    [Class.trueColor, .directColor, .staticColor, .pseudoColor, .staticGray, .grayScale].idxOf v.cls ≤
    [Class.trueColor, .directColor, .staticColor, .pseudoColor, .staticGray, .grayScale].idxOf
      d.cls := by
  by_contra hc
  apply (finds_max h).2 d hd ha
  refine ⟨[], _, _, by unfold criteria only; rw [hp1, hp2]; rfl, by simp, ?_⟩
  revert hc
  cases v.cls <;> cases d.cls <;> decide

/-- Two visuals of a typical screen. -/
def v24 : Visual := ⟨24, .trueColor, 33, false, true, true, false, 0, 0, 0, 24, 8, 0⟩
def v32 : Visual := ⟨32, .trueColor, 34, false, true, true, false, 0, 0, 0, 24, 8, 0⟩
def v8 : Visual := ⟨8, .pseudoColor, 35, false, false, false, false, 0, 0, 0, 0, 0, 0⟩

example : find ⟨24, 33⟩ {} [v8, v32, v24] = some (some 2) ∧
    find ⟨24, 40⟩ {} [v8, v32, v24] = some (some 2) ∧
    find ⟨24, 33⟩ { preferDefaultType := false, preferDefaultDepth := false } [v8, v32, v24] =
      some (some 1) ∧
    find ⟨24, 33⟩ { cls := some .pseudoColor } [v8, v32, v24] = some (some 0) ∧
    find ⟨24, 33⟩ { cls := some .pseudoColor, requireOpengl := true } [v8, v32, v24] = some none := by
  decide

example : Acceptable {} v24 := (filter_iff _ _).1 (by decide)

end Verif.VisualSelect
