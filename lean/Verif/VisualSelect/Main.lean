import Verif.VisualSelect.Spec

/-!
# Lemmas
-/

namespace Verif.VisualSelect

theorem filter_iff (spec : Visual) (params : Params) :
    filter spec params = true ↔ Acceptable params spec := by
  unfold filter
  constructor
  · intro h
    split_ifs at h with h1 h2 h3 h4 h5 h6 h7 h8 h9
    refine ⟨?_, ?_, ?_, ?_, ?_, ?_, ?_, ?_, ?_⟩
    · intro d hd
      by_contra hc
      exact h1 ⟨by rw [hd]; rfl, by rw [hd]; exact fun he => hc (Option.some.inj he)⟩
    · intro d hd
      by_contra hc
      exact h2 ⟨by rw [hd]; rfl, by rw [hd]; exact fun he => hc (Option.some.inj he)⟩
    · intro d hd
      by_contra hc
      exact h3 ⟨by rw [hd]; rfl, by rw [hd]; exact fun he => hc (Option.some.inj he)⟩
    · intro hr; by_contra hc; exact h4 ⟨hr, hc⟩
    · by_contra hc; exact h5 hc
    · exact Bool.eq_false_iff.2 h6
    · intro hr; by_contra hc; exact h7 ⟨hr, by omega⟩
    · intro hr; by_contra hc; exact h8 ⟨hr, by omega⟩
    · intro hr; by_contra hc; exact h9 ⟨hr, by omega⟩
  · intro h
    have n1 : ¬ (params.depth.isSome ∧ some spec.depth ≠ params.depth) := by
      rintro ⟨ha, hb⟩
      obtain ⟨d, hd⟩ := Option.isSome_iff_exists.1 ha
      exact hb (by rw [hd, h.depth d hd])
    have n2 : ¬ (params.cls.isSome ∧ some spec.cls ≠ params.cls) := by
      rintro ⟨ha, hb⟩
      obtain ⟨d, hd⟩ := Option.isSome_iff_exists.1 ha
      exact hb (by rw [hd, h.cls d hd])
    have n3 : ¬ (params.type.isSome ∧ some spec.visualId ≠ params.type) := by
      rintro ⟨ha, hb⟩
      obtain ⟨d, hd⟩ := Option.isSome_iff_exists.1 ha
      exact hb (by rw [hd, h.type d hd])
    rw [if_neg n1, if_neg n2, if_neg n3, if_neg (fun hc => hc.2 (h.opengl hc.1)),
      if_neg (fun hc => hc h.level), if_neg (by rw [h.stereo]; decide),
      if_neg (fun hc => by have := h.depthBits hc.1; omega),
      if_neg (fun hc => by have := h.stencilBits hc.1; omega),
      if_neg (fun hc => by have := h.accumBits hc.1; omega)]

theorem app {α : Type} {a a' b b' : List α} (h1 : a = a') (h2 : b = b') : a ++ b = a' ++ b' := by
  rw [h1, h2]

theorem map_only (c : Bool) (f : Visual → Int) (v : Visual) :
    (only c f).map (fun f => f v) = if c then [f v] else [] := by
  cases c <;> rfl

theorem ite_not_bool (c : Bool) (x : Int) :
    (if ¬ c = true then [x] else []) = if (!c) = true then [x] else [] := by
  cases c <;> rfl

theorem values_eq (screen : Screen) (params : Params) (v : Visual) :
    values screen params v = (criteria screen params).map fun f => f v := by
  unfold values criteria
  simp only [List.map_append, map_only, ite_not_bool]
  refine app (app (app (app (app (app (app (app (app (app (app (app (app (app (app ?_ ?_) rfl) rfl)
    rfl) rfl) rfl) rfl) rfl) rfl) rfl) rfl) rfl) rfl) rfl) ?_
  · cases params.preferDefaultType <;> cases params.preferDefaultDepth <;>
      by_cases hd : screen.defaultDepth ≤ v.depth <;>
      by_cases hv : v.visualId = screen.defaultVisual <;> simp [ofBool, yes, hd, hv]
  · simp only [List.map_cons, List.map_nil]
    cases v.cls <;> rfl
  · cases params.requireOpengl <;> cases h : v.openglSupported <;> simp [yes, h]

theorem length_values (screen : Screen) (params : Params) (v : Visual) :
    (values screen params v).length ≤ 18 := by
  unfold values
  cases params.preferDefaultType <;> cases params.preferDefaultDepth <;>
    cases params.preferDoubleBuffered <;> cases params.requireOpengl <;>
    cases params.requireDepthBuffer <;> cases params.requireStencilBuffer <;>
    cases params.requireAccumBuffer <;> simp <;> split_ifs <;> simp

theorem lexLess_map (fs : List (Visual → Int)) (a b : Visual) :
    lexLess (fs.map fun f => f a) (fs.map fun f => f b) = true ↔
      ∃ xs f ys, fs = xs ++ f :: ys ∧ (∀ g ∈ xs, g a = g b) ∧ f a < f b := by
  induction fs with
  | nil => simp [lexLess]
  | cons f fs ih =>
    simp only [List.map_cons, lexLess]
    by_cases h1 : f a < f b
    · simp only [h1, if_true, true_iff]
      exact ⟨[], f, fs, rfl, by simp, h1⟩
    · by_cases h2 : f b < f a
      · rw [if_neg h1, if_pos h2]
        simp only [Bool.false_eq_true, false_iff]
        rintro ⟨xs, g, ys, he, hx, hg⟩
        cases xs with
        | nil =>
          simp only [List.nil_append, List.cons.injEq] at he
          rw [he.1] at h1
          exact h1 hg
        | cons x xs =>
          simp only [List.cons_append, List.cons.injEq] at he
          have := hx x List.mem_cons_self
          rw [← he.1] at this
          omega
      · rw [if_neg h1, if_neg h2, ih]
        constructor
        · rintro ⟨xs, g, ys, he, hx, hg⟩
          refine ⟨f :: xs, g, ys, by rw [he]; rfl, ?_, hg⟩
          intro k hk
          rcases List.mem_cons.1 hk with rfl | hk
          · omega
          · exact hx k hk
        · rintro ⟨xs, g, ys, he, hx, hg⟩
          cases xs with
          | nil =>
            simp only [List.nil_append, List.cons.injEq] at he
            rw [he.1] at h1
            exact absurd hg h1
          | cons x xs =>
            simp only [List.cons_append, List.cons.injEq] at he
            exact ⟨xs, g, ys, he.2, fun k hk => hx k (List.mem_cons_of_mem _ hk), hg⟩

/-- Comparison of scores. -/
theorem lexLess_irrefl (x : List Int) : lexLess x x = false := by
  induction x with
  | nil => rfl
  | cons a x ih => simp [lexLess, ih]

theorem lexLess_negtrans (x y z : List Int) (h1 : lexLess x y = false) (h2 : lexLess y z = false)
    (hxy : x.length = y.length) (hyz : y.length = z.length) : lexLess x z = false := by
  induction x generalizing y z with
  | nil =>
    cases y with
    | nil =>
      cases z with
      | nil => rfl
      | cons c z => simp at hyz
    | cons b y => simp at hxy
  | cons a x ih =>
    cases y with
    | nil => simp at hxy
    | cons b y =>
      cases z with
      | nil => simp at hyz
      | cons c z =>
        simp only [lexLess] at h1 h2 ⊢
        split_ifs at h1 with h3 h4
        · split_ifs at h2 with h5 h6
          · rw [if_neg (by omega), if_pos (by omega)]
          · rw [if_neg (by omega), if_pos (by omega)]
        · split_ifs at h2 with h5 h6
          · rw [if_neg (by omega), if_pos (by omega)]
          · rw [if_neg (by omega), if_neg (by omega)]
            exact ih y z h1 h2 (by simpa using hxy) (by simpa using hyz)

theorem lexLess_asymm (x y : List Int) (h : lexLess x y = true) : lexLess y x = false := by
  induction x generalizing y with
  | nil => cases y <;> simp_all [lexLess]
  | cons a x ih =>
    cases y with
    | nil => simp [lexLess] at h
    | cons b y =>
      simp only [lexLess] at h ⊢
      split_ifs at h with h3 h4
      · rw [if_neg (by omega), if_pos h3]
      · rw [if_neg (by omega), if_neg (by omega)]
        exact ih y h

theorem better_iff (screen : Screen) (params : Params) (a b : Visual) :
    Better screen params a b ↔ lexLess (values screen params b) (values screen params a) = true := by
  rw [values_eq, values_eq, lexLess_map]
  unfold Better
  constructor
  · rintro ⟨xs, f, ys, h1, h2, h3⟩
    exact ⟨xs, f, ys, h1, fun g hg => (h2 g hg).symm, h3⟩
  · rintro ⟨xs, f, ys, h1, h2, h3⟩
    exact ⟨xs, f, ys, h1, fun g hg => (h2 g hg).symm, h3⟩

open Classical in
theorem less_eq (screen : Screen) (params : Params) (a b : Visual) :
    less screen params a b = some (decide (Better screen params b a)) := by
  unfold less
  rw [if_pos (length_values _ _ _)]
  by_cases h : Better screen params b a
  · rw [decide_eq_true h, (better_iff _ _ _ _).1 h]
  · rw [decide_eq_false h]
    rw [better_iff, Bool.not_eq_true] at h
    rw [h]

theorem length_eq (screen : Screen) (params : Params) (a b : Visual) :
    (values screen params a).length = (values screen params b).length := by
  rw [values_eq, values_eq, List.length_map, List.length_map]

theorem better_irrefl (screen : Screen) (params : Params) (a : Visual) :
    ¬ Better screen params a a := by
  rw [better_iff, lexLess_irrefl]; decide

theorem better_asymm {screen : Screen} {params : Params} {a b : Visual}
    (h : Better screen params a b) : ¬ Better screen params b a := by
  rw [better_iff] at h ⊢
  rw [lexLess_asymm _ _ h]; decide

theorem better_negtrans {screen : Screen} {params : Params} {a b c : Visual}
    (h1 : ¬ Better screen params a b) (h2 : ¬ Better screen params b c) :
    ¬ Better screen params a c := by
  rw [better_iff, Bool.not_eq_true] at h1 h2 ⊢
  exact lexLess_negtrans _ _ _ h2 h1 (length_eq _ _ _ _) (length_eq _ _ _ _)

theorem better_trans {screen : Screen} {params : Params} {a b c : Visual}
    (h1 : Better screen params a b) (h2 : Better screen params b c) :
    Better screen params a c := by
  by_contra hc
  exact better_negtrans hc (better_asymm h2) h1

open Classical in
/-- The loop of `find()`. -/
theorem findLoop_spec (screen : Screen) (params : Params) (pre specs : List Visual)
    (best : Option (Nat × Visual))
    (hn : best = none → ∀ v ∈ pre, ¬ Acceptable params v)
    (hs : ∀ b, best = some b → pre[b.1]? = some b.2 ∧ Acceptable params b.2 ∧
      (∀ v ∈ pre, Acceptable params v → ¬ Better screen params v b.2) ∧
      ∀ j v, j < b.1 → pre[j]? = some v → Acceptable params v → Better screen params b.2 v) :
    ∃ r, findLoop screen params specs pre.length best = some r ∧
      (r = none → ∀ v ∈ pre ++ specs, ¬ Acceptable params v) ∧
      ∀ b, r = some b → (pre ++ specs)[b.1]? = some b.2 ∧ Acceptable params b.2 ∧
      (∀ v ∈ pre ++ specs, Acceptable params v → ¬ Better screen params v b.2) ∧
      ∀ j v, j < b.1 → (pre ++ specs)[j]? = some v → Acceptable params v →
        Better screen params b.2 v := by
  induction specs generalizing pre best with
  | nil =>
    refine ⟨best, rfl, ?_, ?_⟩
    · rw [List.append_nil]; exact hn
    · rw [List.append_nil]; exact hs
  | cons spec specs ih =>
    have hlen : (pre ++ [spec]).length = pre.length + 1 := by simp
    have happ : pre ++ spec :: specs = (pre ++ [spec]) ++ specs := by simp
    have hext : ∀ (j : Nat) (v : Visual), (pre ++ [spec])[j]? = some v →
        (j < pre.length ∧ pre[j]? = some v) ∨ (j = pre.length ∧ v = spec) := by
      intro j v hv
      rcases Nat.lt_or_ge j pre.length with hj | hj
      · rw [List.getElem?_append_left hj] at hv
        exact .inl ⟨hj, hv⟩
      · rw [List.getElem?_append_right hj] at hv
        rcases Nat.eq_zero_or_pos (j - pre.length) with h0 | h0
        · rw [h0] at hv
          exact .inr ⟨by omega, by simpa using hv.symm⟩
        · rw [List.getElem?_eq_none (by simp; omega)] at hv
          cases hv
    rw [happ]
    unfold findLoop
    rw [← hlen]
    by_cases hf : filter spec params = true
    · rw [if_pos hf]
      have hacc := (filter_iff _ _).1 hf
      cases best with
      | none =>
        refine ih (pre ++ [spec]) (some (pre.length, spec)) (fun h => by cases h) ?_
        intro b hb
        obtain rfl := Option.some.inj hb
        refine ⟨by simp, hacc, ?_, ?_⟩
        · intro v hv ha
          rcases List.mem_append.1 hv with hv | hv
          · exact absurd ha (hn rfl v hv)
          · rw [List.mem_singleton.1 hv]; exact better_irrefl _ _ _
        · intro j v hj hv ha
          rcases hext j v hv with ⟨_, h2⟩ | ⟨h1, _⟩
          · exact absurd ha (hn rfl v (List.mem_of_getElem? h2))
          · simp only at hj; omega
      | some b =>
        obtain ⟨g1, g2, g3, g4⟩ := hs b rfl
        simp only [less_eq]
        by_cases hb : Better screen params spec b.2
        · rw [decide_eq_true hb]
          refine ih (pre ++ [spec]) (some (pre.length, spec)) (fun h => by cases h) ?_
          intro b' hb'
          obtain rfl := Option.some.inj hb'
          have hall : ∀ v ∈ pre, Acceptable params v → Better screen params spec v := by
            intro v hv ha
            by_contra hc
            exact better_negtrans hc (g3 v hv ha) hb
          refine ⟨by simp, hacc, ?_, ?_⟩
          · intro v hv ha
            rcases List.mem_append.1 hv with hv | hv
            · exact better_asymm (hall v hv ha)
            · rw [List.mem_singleton.1 hv]; exact better_irrefl _ _ _
          · intro j v hj hv ha
            rcases hext j v hv with ⟨_, h2⟩ | ⟨h1, _⟩
            · exact hall v (List.mem_of_getElem? h2) ha
            · simp only at hj; omega
        · rw [decide_eq_false hb]
          refine ih (pre ++ [spec]) (some b) (fun h => by cases h) ?_
          intro b' hb'
          obtain rfl := Option.some.inj hb'
          have hlt : b.1 < pre.length := (List.getElem?_eq_some_iff.1 g1).1
          refine ⟨by rw [List.getElem?_append_left hlt]; exact g1, g2, ?_, ?_⟩
          · intro v hv ha
            rcases List.mem_append.1 hv with hv | hv
            · exact g3 v hv ha
            · rw [List.mem_singleton.1 hv]; exact hb
          · intro j v hj hv ha
            rcases hext j v hv with ⟨_, h2⟩ | ⟨h1, _⟩
            · exact g4 j v hj h2 ha
            · omega
    · rw [if_neg hf]
      have hacc : ¬ Acceptable params spec := fun h => hf ((filter_iff _ _).2 h)
      refine ih (pre ++ [spec]) best ?_ ?_
      · intro hb v hv
        rcases List.mem_append.1 hv with hv | hv
        · exact hn hb v hv
        · rw [List.mem_singleton.1 hv]; exact hacc
      · intro b hb
        obtain ⟨g1, g2, g3, g4⟩ := hs b hb
        have hlt : b.1 < pre.length := (List.getElem?_eq_some_iff.1 g1).1
        refine ⟨by rw [List.getElem?_append_left hlt]; exact g1, g2, ?_, ?_⟩
        · intro v hv ha
          rcases List.mem_append.1 hv with hv | hv
          · exact g3 v hv ha
          · rw [List.mem_singleton.1 hv] at ha; exact absurd ha hacc
        · intro j v hj hv ha
          rcases hext j v hv with ⟨_, h2⟩ | ⟨h1, _⟩
          · exact g4 j v hj h2 ha
          · omega

end Verif.VisualSelect
