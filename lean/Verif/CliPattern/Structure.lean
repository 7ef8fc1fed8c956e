import Verif.CliPattern.DescLemmas
/-!
Patterns with unclear structure.
-/
namespace Verif.CliPattern

theorem replicate_flatten_append {α : Type} (n : Nat) (l : List α) : (List.replicate (n + 1) l).flatten = l ++ (List.replicate n l).flatten := by
  simp [List.replicate_succ]

/-- A repeating pattern matches all repetitions of something nonempty. -/
theorem repeating_all : ∀ (p : Pat) (b : Nat) (kind : Kind), Wf p kind → Clear p → repeating p = true →
    ∃ xs, xs ≠ [] ∧ ∀ n, 0 < n → Path p b (List.replicate n xs).flatten := by
  intro p
  induction p with
  | sym s => intro b _ _ _ h; simp [repeating] at h
  | opt p ih =>
    intro b kind hw hc h
    cases kind with
    | elem =>
      obtain ⟨xs, h1, h2⟩ := ih b .seq hw hc.2 h
      exact ⟨xs, h1, fun n hn => Or.inr (h2 n hn)⟩
    | seq => exact hw.elim
    | branches => exact hw.elim
  | rep p ih =>
    intro b kind hw hc h
    cases kind with
    | elem =>
      obtain ⟨xs, h1⟩ := path_exists p b .seq hw (by rintro rfl; exact hw.elim)
      refine ⟨xs, ?_, ?_⟩
      · rintro rfl
        have : nul p = true := (path_local p b []).1 h1
        rw [hc.1] at this
        simp at this
      · intro n hn
        refine ⟨List.replicate n xs, ?_, ?_, rfl⟩
        · intro h; simp at h; omega
        · intro x hx; rw [List.eq_of_mem_replicate hx]; exact h1
    | seq => exact hw.elim
    | branches => exact hw.elim
  | alt p ih =>
    intro b kind hw hc h
    cases kind with
    | elem => exact ih b .branches hw.1 hc h
    | seq => exact hw.elim
    | branches => exact hw.elim
  | nil => intro b _ _ _ h; simp [repeating] at h
  | none => intro b _ _ _ h; simp [repeating] at h
  | cons e s ihe ihs =>
    intro b kind hw hc h
    cases kind with
    | seq =>
      simp only [repeating, Bool.or_eq_true, Bool.and_eq_true] at h
      rcases h with ⟨h1, h2⟩ | ⟨h1, h2⟩
      · obtain ⟨xs, h3, h4⟩ := ihe b .elem hw.1 hc.1 h1
        exact ⟨xs, h3, fun n hn => ⟨_, [], h4 n hn, (path_local s _ []).2 h2, by simp⟩⟩
      · obtain ⟨xs, h3, h4⟩ := ihs (b + size e) .seq hw.2 hc.2 h2
        exact ⟨xs, h3, fun n hn => ⟨[], _, (path_local e _ []).2 h1, h4 n hn, by simp⟩⟩
    | elem => exact hw.elim
    | branches => exact hw.elim
  | or s r ihs ihr =>
    intro b kind hw hc h
    cases kind with
    | branches =>
      simp only [repeating, Bool.or_eq_true] at h
      rcases h with h | h
      · obtain ⟨xs, h3, h4⟩ := ihs b .seq hw.1 hc.2.1 h
        exact ⟨xs, h3, fun n hn => Or.inl (h4 n hn)⟩
      · obtain ⟨xs, h3, h4⟩ := ihr (b + size s) .branches hw.2 hc.2.2 h
        exact ⟨xs, h3, fun n hn => Or.inr (h4 n hn)⟩
    | elem => exact hw.elim
    | seq => exact hw.elim

/-- A pattern is repeating if it matches something nonempty as well as two repetitions of it. -/
theorem repeating_of_twice : ∀ (p : Pat) (b : Nat) (xs : List Nat), xs ≠ [] → Path p b xs → Path p b (xs ++ xs) → repeating p = true := by
  intro p
  induction p with
  | sym s =>
    intro b xs _ h1 h2
    simp only [Path] at h1 h2
    rw [h1] at h2
    simp at h2
  | opt p ih =>
    intro b xs hx h1 h2
    rcases h1 with h1 | h1
    · exact absurd h1 hx
    · rcases h2 with h2 | h2
      · simp only [List.append_eq_nil_iff, and_self] at h2; exact absurd h2 hx
      · exact ih b xs hx h1 h2
  | rep p ih => intro b xs _ _ _; rfl
  | alt p ih => intro b xs hx h1 h2; exact ih b xs hx h1 h2
  | nil => intro b xs hx h1 _; exact absurd h1 hx
  | none => intro b xs hx h1 _; exact h1.elim
  | cons e s ihe ihs =>
    intro b xs hx h1 h2
    obtain ⟨u, v, h3, h4, h5⟩ := h1
    obtain ⟨u', v', h6, h7, h8⟩ := h2
    have ru := Path_range _ _ _ h3
    have rv := Path_range _ _ _ h4
    have ru' := Path_range _ _ _ h6
    have rv' := Path_range _ _ _ h7
    simp only [repeating, Bool.or_eq_true, Bool.and_eq_true]
    by_cases hv : v = []
    · subst hv
      rw [List.append_nil] at h5
      have hv' : v' = [] := by
        apply List.eq_nil_iff_forall_not_mem.2
        intro y hy
        have hy' : y ∈ xs ++ xs := by rw [h8]; simp [hy]
        simp only [List.mem_append, or_self] at hy'
        rw [h5] at hy'
        have := ru y hy'
        have := rv' y hy
        omega
      subst hv'
      rw [List.append_nil] at h8
      left
      exact ⟨ihe b xs hx (by rw [h5]; exact h3) (by rw [h8]; exact h6), (path_local s _ []).1 h4⟩
    · by_cases hu : u = []
      · subst hu
        rw [List.nil_append] at h5
        have hu' : u' = [] := by
          apply List.eq_nil_iff_forall_not_mem.2
          intro y hy
          have hy' : y ∈ xs ++ xs := by rw [h8]; simp [hy]
          simp only [List.mem_append, or_self] at hy'
          rw [h5] at hy'
          have := rv y hy'
          have := ru' y hy
          omega
        subst hu'
        rw [List.nil_append] at h8
        right
        exact ⟨(path_local e _ []).1 h3, ihs _ xs hx (by rw [h5]; exact h4) (by rw [h8]; exact h7)⟩
      · exfalso
        -- The positions of a match of the sequence are those of the first element followed by those of the rest
        obtain ⟨z, v0, rfl⟩ : ∃ z v0, v = z :: v0 := by
          cases v with
          | nil => exact absurd rfl hv
          | cons z v0 => exact ⟨z, v0, rfl⟩
        obtain ⟨y, u0, rfl⟩ : ∃ y u0, u = y :: u0 := by
          cases u with
          | nil => exact absurd rfl hu
          | cons z v0 => exact ⟨z, v0, rfl⟩
        have hz := rv z (by simp)
        have hy := ru y (by simp)
        rw [h5] at h8
        have h9 : (y :: u0) ++ (z :: v0 ++ ((y :: u0) ++ z :: v0)) = u' ++ v' := by rw [← h8]; simp
        rcases List.append_eq_append_iff.1 h9 with ⟨a, h10, h11⟩ | ⟨a, h10, h11⟩
        · cases a with
          | nil =>
            simp only [List.nil_append] at h11
            have := rv' y (by rw [← h11]; simp)
            omega
          | cons c a =>
            simp only [List.cons_append, List.cons.injEq] at h11
            have := ru' c (by rw [h10]; simp)
            rw [← h11.1] at this
            omega
        · have := rv' y (by rw [h11]; simp)
          omega
  | or s r ihs ihr =>
    intro b xs hx h1 h2
    obtain ⟨y, hy⟩ := List.exists_mem_of_ne_nil _ hx
    simp only [repeating, Bool.or_eq_true]
    rcases h1 with h1 | h1
    · rcases h2 with h2 | h2
      · exact Or.inl (ihs b xs hx h1 h2)
      · have := Path_range _ _ _ h1 y hy
        have := Path_range _ _ _ h2 y (by simp [hy])
        omega
    · rcases h2 with h2 | h2
      · have := Path_range _ _ _ h1 y hy
        have := Path_range _ _ _ h2 y (by simp [hy])
        omega
      · exact Or.inr (ihr _ xs hx h1 h2)

/-- A description of some match. -/
theorem deriv_exists (p : Pat) (b : Nat) (kind : Kind) (hw : Wf p kind) (hp : p ≠ .none) : ∃ ms k ds, Deriv p b ms k ds ∧
    (kind ≠ .branches → k = 0) := by
  obtain ⟨xs, h⟩ := path_exists p b kind hw hp
  obtain ⟨k, ds, h1, h2⟩ := path_deriv p b (xs.map (fun x => ⟨x, 0⟩)) kind hw (by rw [List.map_map]; simpa [Function.comp_def] using h)
  exact ⟨_, k, ds, h1, h2⟩

theorem deriv_of_path (p : Pat) (b : Nat) (hw : Wf p .seq) (xs : List Nat) (h : Path p b xs) :
    ∃ ds, Deriv p b (xs.map (fun x => ⟨x, 0⟩)) 0 ds := by
  obtain ⟨k, ds, h1, h2⟩ := path_deriv p b (xs.map (fun x => ⟨x, 0⟩)) .seq hw (by rw [List.map_map]; simpa [Function.comp_def] using h)
  have := h2 (by simp)
  subst this
  exact ⟨ds, h1⟩

/-- A pattern whose structure is not clear has a match with several descriptions. -/
theorem unclear : ∀ (p : Pat) (b : Nat) (kind : Kind), Wf p kind → ¬ Clear p → ∃ ms k ds k' ds', (k, ds) ≠ (k', ds') ∧ Deriv p b ms k ds ∧
    Deriv p b ms k' ds' := by
  intro p
  induction p with
  | sym s => intro b _ _ h; exact absurd trivial h
  | opt p ih =>
    intro b kind hw hc
    cases kind with
    | elem =>
      cases hn : nul p with
      | true =>
        obtain ⟨ds, h⟩ := deriv_of_path p b hw [] ((path_local p b []).2 hn)
        exact ⟨[], 0, _, 0, _, by simp, ⟨rfl, Or.inl ⟨rfl, rfl⟩⟩, ⟨rfl, Or.inr ⟨ds, h, rfl⟩⟩⟩
      | false =>
        obtain ⟨ms, k, ds, k', ds', hne, h1, h2⟩ := ih b .seq hw (fun h => hc ⟨hn, h⟩)
        have hk := deriv_zero h1 hw
        have hk' := deriv_zero h2 hw
        subst hk hk'
        exact ⟨ms, 0, _, 0, _, by simpa using hne, ⟨rfl, Or.inr ⟨ds, h1, rfl⟩⟩, ⟨rfl, Or.inr ⟨ds', h2, rfl⟩⟩⟩
    | seq => exact hw.elim
    | branches => exact hw.elim
  | rep p ih =>
    intro b kind hw hc
    cases kind with
    | elem =>
      cases hn : nul p with
      | true =>
        obtain ⟨ds, h⟩ := deriv_of_path p b hw [] ((path_local p b []).2 hn)
        refine ⟨[], 0, _, 0, _, ?_, ⟨rfl, [([], ds)], by simp, by simpa using h, by simp, rfl⟩,
          ⟨rfl, [([], ds), ([], ds)], by simp, by simpa using h, by simp, rfl⟩⟩
        simp
      | false =>
        by_cases hcp : Clear p
        · cases hr : repeating p with
          | false => exact absurd ⟨hn, hr, hcp⟩ hc
          | true =>
            obtain ⟨xs, hx, h⟩ := repeating_all p b .seq hw hcp hr
            have hx1 := h 1 (by omega)
            have hx2 := h 2 (by omega)
            simp only [List.replicate_succ, List.replicate_zero, List.flatten_cons, List.flatten_nil, List.append_nil] at hx1 hx2
            obtain ⟨ds, h1⟩ := deriv_of_path p b hw _ hx1
            obtain ⟨ds', h2⟩ := deriv_of_path p b hw _ hx2
            have e1 : Deriv (.rep p) b ((xs ++ xs).map (fun x => (⟨x, 0⟩ : MatchPos))) 0 _ :=
              ⟨rfl, [(xs.map (fun x => (⟨x, 0⟩ : MatchPos)), ds), (xs.map (fun x => (⟨x, 0⟩ : MatchPos)), ds)], by simp,
                by simpa using h1, by simp, rfl⟩
            have e2 : Deriv (.rep p) b ((xs ++ xs).map (fun x => (⟨x, 0⟩ : MatchPos))) 0 _ :=
              ⟨rfl, [((xs ++ xs).map (fun x => (⟨x, 0⟩ : MatchPos)), ds')], by simp, by simpa using h2, by simp, rfl⟩
            exact ⟨_, 0, _, 0, _, by simp, e1, e2⟩
        · obtain ⟨ms, k, ds, k', ds', hne, h1, h2⟩ := ih b .seq hw hcp
          have hk := deriv_zero h1 hw
          have hk' := deriv_zero h2 hw
          subst hk hk'
          refine ⟨ms, 0, _, 0, _, ?_, ⟨rfl, [(ms, ds)], by simp, by simpa using h1, by simp, rfl⟩,
            ⟨rfl, [(ms, ds')], by simp, by simpa using h2, by simp, rfl⟩⟩
          simpa using hne
    | seq => exact hw.elim
    | branches => exact hw.elim
  | alt p ih =>
    intro b kind hw hc
    cases kind with
    | elem =>
      obtain ⟨ms, k, ds, k', ds', hne, h1, h2⟩ := ih b .branches hw.1 hc
      exact ⟨ms, 0, _, 0, _, by simpa using hne, ⟨rfl, k, ds, h1, rfl⟩, ⟨rfl, k', ds', h2, rfl⟩⟩
    | seq => exact hw.elim
    | branches => exact hw.elim
  | nil => intro b _ _ h; exact absurd trivial h
  | none => intro b _ _ h; exact absurd trivial h
  | cons e s ihe ihs =>
    intro b kind hw hc
    cases kind with
    | seq =>
      by_cases hce : Clear e
      · obtain ⟨ms, k, ds, k', ds', hne, h1, h2⟩ := ihs (b + size e) .seq hw.2 (fun h => hc ⟨hce, h⟩)
        have hk := deriv_zero h1 hw.2
        have hk' := deriv_zero h2 hw.2
        subst hk hk'
        obtain ⟨ms', k, d, h3, hk⟩ := deriv_exists e b .elem hw.1 (by rintro rfl; exact hw.1.elim)
        have hk := hk (by simp)
        subst hk
        exact ⟨_, 0, _, 0, _, by simpa using hne, ⟨rfl, ms', ms, d, ds, h3, h1, rfl, rfl⟩, ⟨rfl, ms', ms, d, ds', h3, h2, rfl, rfl⟩⟩
      · obtain ⟨ms, k, ds, k', ds', hne, h1, h2⟩ := ihe b .elem hw.1 hce
        have hk : k = 0 := by cases e <;> first | exact h1.1 | exact hw.1.elim | exact h1.elim
        have hk' : k' = 0 := by cases e <;> first | exact h2.1 | exact hw.1.elim | exact h2.elim
        subst hk hk'
        obtain ⟨ms', k, d, h3, hk⟩ := deriv_exists s (b + size e) .seq hw.2 (by rintro rfl; exact hw.2.elim)
        have hk := hk (by simp)
        subst hk
        exact ⟨_, 0, _, 0, _, by simpa using hne, ⟨rfl, ms, ms', ds, d, h1, h3, rfl, rfl⟩, ⟨rfl, ms, ms', ds', d, h2, h3, rfl, rfl⟩⟩
    | elem => exact hw.elim
    | branches => exact hw.elim
  | or s r ihs ihr =>
    intro b kind hw hc
    cases kind with
    | branches =>
      by_cases hcs : Clear s
      · by_cases hcr : Clear r
        · have hn : nul s = true ∧ nul r = true := Classical.byContradiction fun h => hc ⟨h, hcs, hcr⟩
          obtain ⟨ds, h1⟩ := deriv_of_path s b hw.1 [] ((path_local s b []).2 hn.1)
          obtain ⟨k, ds', h2, _⟩ := path_deriv r (b + size s) [] .branches hw.2 ((path_local r _ []).2 hn.2)
          exact ⟨[], 0, ds, k + 1, ds', by simp, Or.inl ⟨rfl, h1⟩, Or.inr ⟨k, rfl, h2⟩⟩
        · obtain ⟨ms, k, ds, k', ds', hne, h1, h2⟩ := ihr (b + size s) .branches hw.2 hcr
          exact ⟨ms, k + 1, ds, k' + 1, ds', by simpa using hne, Or.inr ⟨k, rfl, h1⟩, Or.inr ⟨k', rfl, h2⟩⟩
      · obtain ⟨ms, k, ds, k', ds', hne, h1, h2⟩ := ihs b .seq hw.1 hcs
        have hk := deriv_zero h1 hw.1
        have hk' := deriv_zero h2 hw.1
        subst hk hk'
        exact ⟨ms, 0, ds, 0, ds', hne, Or.inl ⟨rfl, h1⟩, Or.inl ⟨rfl, h2⟩⟩
    | elem => exact hw.elim
    | seq => exact hw.elim

end Verif.CliPattern
