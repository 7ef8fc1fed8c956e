import Verif.WildcardFilter.Model
import Verif.WildcardFilter.Spec
import Verif.StringMatcher.Props
import Verif.StringSplit.Props
/-!
Property theorems about test filters (claim C51).
-/
namespace Verif.WildcardFilter
open Verif.StringMatcher Verif.StringMatcher.Spec Spec

variable {lo hi star dash : Int}

/-- All characters are in range. -/
def InRange (lo hi : Int) (w : List Int) : Prop := ∀ c ∈ w, lo ≤ c ∧ c ≤ hi

/-- The builder holds the specified patterns. -/
def Holds (lo hi star : Int) (b : Builder) (ps : List (List Int)) : Prop :=
  ∃ ops : List Op, (∀ op ∈ ops, op.Valid lo hi) ∧ steps star ops Builder.init = some b ∧ (held ops).map (·.1) = ps

theorem steps_append (ops : List Op) (op : Op) : ∀ (b : Builder), steps star (ops ++ [op]) b = (steps star ops b).bind (step star · op) := by
  induction ops with
  | nil =>
    intro b
    simp only [List.nil_append, steps, Option.bind_eq_bind, Option.bind_some]
    cases step star b op <;> rfl
  | cons o ops ih =>
    intro b
    simp only [List.cons_append, steps, Option.bind_eq_bind]
    cases step star b o with
    | none => rfl
    | some b' => simpa using ih b'

theorem holds_init : Holds lo hi star Builder.init [] := ⟨[], by simp, rfl, rfl⟩

theorem holds_clear {b : Builder} {ps : List (List Int)} (h : Holds lo hi star b ps) : Holds lo hi star b.clear [] := by
  obtain ⟨ops, h1, h2, h3⟩ := h
  refine ⟨ops ++ [.clear], ?_, ?_, ?_⟩
  · intro op hop
    rcases List.mem_append.1 hop with hop | hop
    · exact h1 op hop
    · simp at hop; subst hop; trivial
  · rw [steps_append, h2]; rfl
  · simp [held, List.foldl_append]

theorem holds_add {b : Builder} {ps : List (List Int)} {p : List Int} (h : Holds lo hi star b ps) (hp : InRange lo hi p) :
    ∃ b', b.addPattern star p 0 = some b' ∧ Holds lo hi star b' (ps ++ [p]) := by
  obtain ⟨ops, h1, h2, h3⟩ := h
  obtain ⟨b', g1, _⟩ := steps_spec (star := star) (ops ++ [.add p 0])
  have g2 := g1
  rw [steps_append, h2, Option.bind_some] at g2
  refine ⟨b', g2, ops ++ [.add p 0], ?_, g1, ?_⟩
  · intro op hop
    rcases List.mem_append.1 hop with hop | hop
    · exact h1 op hop
    · simp at hop; subst hop; exact hp
  · simp only [held, List.foldl_append] at h3 ⊢
    simp [h3]

/-- The matcher matches exactly what is matched by one of the patterns, and it is degenerate exactly if there are none. -/
def Accepts (lo hi star : Int) (m : Matcher) (ps : List (List Int)) : Prop :=
  (m.isDegenerate = true ↔ ps = []) ∧
  ∀ w, InRange lo hi w → ∃ r, m.match w = some r ∧ (r.isSome = true ↔ ∃ p ∈ ps, Matches star p w)

theorem accepts_init : Accepts lo hi star Matcher.init [] :=
  ⟨by simp [Matcher.isDegenerate, Matcher.init], fun w _ => ⟨none, rfl, by simp⟩⟩

theorem holds_build (hlh : lo ≤ hi) {b : Builder} {ps : List (List Int)} (h : Holds lo hi star b ps) :
    (b.empty = true ↔ ps = []) ∧ ∃ m, b.build lo hi true = .ok m ∧ Accepts lo hi star m ps := by
  obtain ⟨ops, h1, h2, h3⟩ := h
  obtain ⟨b', g1, ⟨m, g2⟩, g3⟩ := C36_match (star := star) hlh ops h1
  rw [h2] at g1
  injection g1 with g1; subst g1
  obtain ⟨_, _, d⟩ := C36_degenerate (star := star) hlh ops h1
  obtain ⟨d1, d2⟩ := d b h2
  have hps : held ops = [] ↔ ps = [] := by rw [← h3]; simp
  refine ⟨d1.trans hps, m, g2, (d2 m g2).trans hps, fun w hw => ?_⟩
  obtain ⟨r, r1, r2⟩ := g3 true m g2 w hw
  rw [h3] at r2
  refine ⟨r, r1, ?_⟩
  rw [← firstMatch_exists]
  cases r with
  | none => simp only at r2; simpa using r2
  | some i => obtain ⟨j, r2, _⟩ := r2; simpa using ⟨j, r2⟩

/-- The patterns that the include matcher is made from. -/
def orStar (star : Int) (ps : List (List Int)) : List (List Int) := if ps = [] then [[star]] else ps

theorem orStar_ne (ps : List (List Int)) : orStar star ps ≠ [] := by
  unfold orStar; split
  · simp
  · assumption

theorem matches_star (w : List Int) : Matches star [star] w := by
  simp only [Matches, if_pos]
  exact ⟨w, [], by simp, rfl⟩

theorem orStar_matches (ps : List (List Int)) (w : List Int) :
    (∃ p ∈ orStar star ps, Matches star p w) ↔ (ps = [] ∨ ∃ p ∈ ps, Matches star p w) := by
  unfold orStar
  split
  · rename_i h; subst h
    simp [matches_star]
  · rename_i h; simp [h]

theorem makeInclude_spec (hlh : lo ≤ hi) (hstar : lo ≤ star ∧ star ≤ hi) {s : State} {ps : List (List Int)}
    (h : Holds lo hi star s.builder ps) :
    ∃ b m, makeIncludeMatcher lo hi star s = .ok ⟨b, m, s.filter.excludeMatcher⟩ ∧ Holds lo hi star b (orStar star ps) ∧
      Accepts lo hi star m (orStar star ps) := by
  have he := (holds_build hlh h).1
  unfold makeIncludeMatcher
  by_cases hps : ps = []
  · obtain ⟨b, h1, h2⟩ := holds_add h (p := [star]) (fun c hc => by simp at hc; subst hc; exact hstar)
    obtain ⟨_, m, h3, h4⟩ := holds_build hlh h2
    have ho : orStar star ps = ps ++ [[star]] := by simp [orStar, hps]
    refine ⟨b, m, ?_, by rw [ho]; exact h2, by rw [ho]; exact h4⟩
    rw [if_pos (he.2 hps), h1]
    simp only [orUb, bind, Except.bind, h3, pure, Except.pure]
  · obtain ⟨_, m, h3, h4⟩ := holds_build hlh h
    have ho : orStar star ps = ps := by simp [orStar, hps]
    refine ⟨s.builder, m, ?_, by rw [ho]; exact h, by rw [ho]; exact h4⟩
    rw [if_neg (fun hh => hps (he.1 hh))]
    simp only [bind, Except.bind, h3, pure, Except.pure]

theorem handleWords_append (ws vs : List (List Int)) : ∀ (s : State), handleWords lo hi star dash (ws ++ vs) s =
    (handleWords lo hi star dash ws s).bind (handleWords lo hi star dash vs) := by
  induction ws with
  | nil => intro s; rfl
  | cons w ws ih =>
    intro s
    simp only [List.cons_append, handleWords, bind, Except.bind]
    cases handleWord lo hi star dash w s with
    | error e => rfl
    | ok s' => simp only [ih, Except.bind]

theorem handlePatterns {ws : List (List Int)} (hd : [dash] ∉ ws) (hr : ∀ w ∈ ws, InRange lo hi w) :
    ∀ {s : State} {ps : List (List Int)}, Holds lo hi star s.builder ps →
    ∃ b, handleWords lo hi star dash ws s = .ok { s with builder := b } ∧ Holds lo hi star b (ps ++ ws) := by
  induction ws with
  | nil => intro s ps h; exact ⟨s.builder, rfl, by simpa using h⟩
  | cons w ws ih =>
    intro s ps h
    rw [List.mem_cons, not_or] at hd
    obtain ⟨b, h1, h2⟩ := holds_add h (hr w List.mem_cons_self)
    obtain ⟨b', h3, h4⟩ := ih hd.2 (fun v hv => hr v (List.mem_cons_of_mem _ hv)) (s := { s with builder := b }) h2
    refine ⟨b', ?_, by simpa using h4⟩
    rw [handleWords, handleWord, if_pos (Ne.symm hd.1), h1]
    simpa only [orUb, bind, Except.bind, pure, Except.pure] using h3

theorem handleDash (hlh : lo ≤ hi) (hstar : lo ≤ star ∧ star ≤ hi) {s : State} {ps : List (List Int)} (h : Holds lo hi star s.builder ps) :
    ∃ b m, handleWord lo hi star dash [dash] s = .ok ⟨b, m, s.filter.excludeMatcher⟩ ∧ Holds lo hi star b [] ∧
      Accepts lo hi star m (orStar star ps) := by
  obtain ⟨b, m, h1, h2, h3⟩ := makeInclude_spec hlh hstar h
  refine ⟨b.clear, m, ?_, holds_clear h2, h3⟩
  rw [handleWord, if_neg (by simp), h1]
  rfl

/-- Whatever the words are, they are all handled, and the builder then holds some patterns. -/
theorem handle_any (hlh : lo ≤ hi) (hstar : lo ≤ star ∧ star ≤ hi) {ws : List (List Int)} (hr : ∀ w ∈ ws, InRange lo hi w) :
    ∀ {s : State} {ps : List (List Int)}, Holds lo hi star s.builder ps →
    ∃ b m qs, handleWords lo hi star dash ws s = .ok ⟨b, m, s.filter.excludeMatcher⟩ ∧ Holds lo hi star b qs := by
  induction ws with
  | nil => intro s ps h; exact ⟨s.builder, s.filter.includeMatcher, ps, rfl, h⟩
  | cons w ws ih =>
    intro s ps h
    have hr' := fun v hv => hr v (List.mem_cons_of_mem w hv)
    by_cases hw : w = [dash]
    · subst hw
      obtain ⟨b, m, h1, h2, _⟩ := handleDash (dash := dash) hlh hstar h
      obtain ⟨b', m', qs, h3, h4⟩ := ih hr' (s := ⟨b, m, s.filter.excludeMatcher⟩) h2
      refine ⟨b', m', qs, ?_, h4⟩
      rw [handleWords, h1]; exact h3
    · obtain ⟨b, h1, h2⟩ := holds_add h (hr w List.mem_cons_self)
      obtain ⟨b', m', qs, h3, h4⟩ := ih hr' (s := { s with builder := b }) h2
      refine ⟨b', m', qs, ?_, h4⟩
      rw [handleWords, handleWord, if_pos hw, h1]; exact h3

theorem include_spec {f : Filter} {incl excl : List (List Int)} (hi' : Accepts lo hi star f.includeMatcher (orStar star incl))
    (he : Accepts lo hi star f.excludeMatcher excl) {name : List Int} (hn : InRange lo hi name) :
    ∃ r, f.include name = some r ∧ (r = true ↔ Selected star incl excl name) := by
  obtain ⟨r1, h1, h2⟩ := hi'.2 name hn
  obtain ⟨r2, h3, h4⟩ := he.2 name hn
  rw [orStar_matches] at h2
  unfold Filter.include Selected
  rw [← h2, ← h4]
  simp only [h1, h3, Option.bind_eq_bind, Option.bind_some]
  cases r1 <;> cases r2 <;> simp

theorem slice_range {w s : List Int} {p : Nat × Nat} (hs : InRange lo hi s) (h : w = StringSplit.slice s p) : InRange lo hi w := by
  intro c hc
  subst h
  exact hs c (List.mem_of_mem_take (List.mem_of_mem_drop hc))

theorem words_spec (space : Int) (s : List Int) : Words space s ((StringSplit.words space s).map (StringSplit.slice s)) := by
  refine ⟨_, StringSplit.C66_split space s, ?_⟩
  apply List.map_congr_left
  rintro ⟨b, e⟩ _
  rw [StringSplit.slice, List.drop_take]

/-- C51. For every filter string of the documented form, the filter can be constructed, and then, for every name, the test with that
name is selected exactly if the name matches an include pattern, or there are none, and does not match any exclude pattern. -/
theorem C51_filter (space : Int) (hlh : lo ≤ hi) (hstar : lo ≤ star ∧ star ≤ hi) (filter : List Int) (hf : InRange lo hi filter) :
    ∃ ws, Words space filter ws ∧ ∀ incl excl, Parsed dash ws incl excl →
      ∃ f, construct lo hi star space dash filter = .ok f ∧ ∀ name, InRange lo hi name →
        ∃ r, f.include name = some r ∧ (r = true ↔ Selected star incl excl name) := by
  refine ⟨_, words_spec space filter, ?_⟩
  intro incl excl ⟨hd1, hd2, hp⟩
  have hr : ∀ w ∈ (StringSplit.words space filter).map (StringSplit.slice filter), InRange lo hi w := by
    intro w hw
    obtain ⟨p, _, rfl⟩ := List.mem_map.1 hw
    exact slice_range hf rfl
  unfold construct
  simp only
  generalize (StringSplit.words space filter).map (StringSplit.slice filter) = ws at *
  rcases hp with ⟨rfl, rfl⟩ | rfl
  · obtain ⟨b, h1, h2⟩ := handlePatterns (star := star) hd1 hr
      (s := ⟨Builder.init, ⟨Matcher.init, Matcher.init⟩⟩) holds_init
    rw [h1]
    simp only [bind, Except.bind]
    rw [if_pos (by rfl)]
    obtain ⟨b', m, h3, h4, h5⟩ := makeInclude_spec hlh hstar (s := ⟨b, ⟨Matcher.init, Matcher.init⟩⟩) h2
    rw [h3]
    exact ⟨_, rfl, fun name hn => include_spec h5 accepts_init hn⟩
  · obtain ⟨b, h1, h2⟩ := handlePatterns (star := star) hd1 (fun w hw => hr w (List.mem_append_left _ hw))
      (s := ⟨Builder.init, ⟨Matcher.init, Matcher.init⟩⟩) holds_init
    obtain ⟨b', m, h3, h4, h5⟩ := handleDash (dash := dash) hlh hstar (s := ⟨b, ⟨Matcher.init, Matcher.init⟩⟩) h2
    obtain ⟨b'', h6, h7⟩ := handlePatterns (star := star) hd2 (fun w hw => hr w (List.mem_append_right _ (List.mem_cons_of_mem _ hw)))
      (s := ⟨b', ⟨m, Matcher.init⟩⟩) h4
    rw [handleWords_append, h1]
    simp only [bind, Except.bind]
    rw [handleWords]
    simp only at h3
    rw [h3]
    simp only [bind, Except.bind]
    rw [h6]
    simp only
    have hnd : ¬ m.isDegenerate = true := fun h => orStar_ne _ (h5.1.1 h)
    rw [if_neg hnd]
    obtain ⟨_, m', h8, h9⟩ := holds_build hlh h7
    rw [h8]
    exact ⟨_, rfl, fun name hn => include_spec h5 h9 hn⟩

/-- C51. When there are several dashes, which is not a documented form, the filter can still be constructed, and everything before
the last dash but one is ignored. -/
theorem C51_several_dashes (space : Int) (hlh : lo ≤ hi) (hstar : lo ≤ star ∧ star ≤ hi) (filter : List Int) (hf : InRange lo hi filter) :
    ∃ ws, Words space filter ws ∧ ∀ pre incl excl, ws = pre ++ [dash] :: (incl ++ [dash] :: excl) → [dash] ∉ incl → [dash] ∉ excl →
      ∃ f, construct lo hi star space dash filter = .ok f ∧ ∀ name, InRange lo hi name →
        ∃ r, f.include name = some r ∧ (r = true ↔ Selected star incl excl name) := by
  refine ⟨_, words_spec space filter, ?_⟩
  intro pre incl excl hws hd1 hd2
  have hr : ∀ w ∈ (StringSplit.words space filter).map (StringSplit.slice filter), InRange lo hi w := by
    intro w hw
    obtain ⟨p, _, rfl⟩ := List.mem_map.1 hw
    exact slice_range hf rfl
  unfold construct
  simp only
  generalize (StringSplit.words space filter).map (StringSplit.slice filter) = ws at *
  subst hws
  obtain ⟨b0, m0, qs, a1, a2⟩ := handle_any (star := star) (dash := dash) hlh hstar (fun w hw => hr w (List.mem_append_left _ hw))
    (s := ⟨Builder.init, ⟨Matcher.init, Matcher.init⟩⟩) holds_init
  obtain ⟨b1, m1, a3, a4, _⟩ := handleDash (dash := dash) hlh hstar (s := ⟨b0, ⟨m0, Matcher.init⟩⟩) a2
  obtain ⟨b, h1, h2⟩ := handlePatterns (star := star) hd1
    (fun w hw => hr w (List.mem_append_right _ (List.mem_cons_of_mem _ (List.mem_append_left _ hw))))
    (s := ⟨b1, ⟨m1, Matcher.init⟩⟩) a4
  obtain ⟨b', m, h3, h4, h5⟩ := handleDash (dash := dash) hlh hstar (s := ⟨b, ⟨m1, Matcher.init⟩⟩) h2
  obtain ⟨b'', h6, h7⟩ := handlePatterns (star := star) hd2
    (fun w hw => hr w (List.mem_append_right _ (List.mem_cons_of_mem _ (List.mem_append_right _ (List.mem_cons_of_mem _ hw)))))
    (s := ⟨b', ⟨m, Matcher.init⟩⟩) h4
  rw [handleWords_append, a1]
  simp only [bind, Except.bind]
  rw [handleWords]
  simp only at a3
  rw [a3]
  simp only [bind, Except.bind]
  rw [handleWords_append, h1]
  simp only [Except.bind]
  rw [handleWords]
  simp only at h3
  rw [h3]
  simp only [bind, Except.bind]
  rw [h6]
  simp only
  have hnd : ¬ m.isDegenerate = true := fun h => orStar_ne _ (h5.1.1 h)
  rw [if_neg hnd]
  obtain ⟨_, m', h8, h9⟩ := holds_build hlh h7
  rw [h8]
  exact ⟨_, rfl, fun name hn => include_spec h5 h9 hn⟩

/-- The outcome of construction of a filter followed by application of it. -/
def selects (filter name : String) : Option Bool :=
  match construct (-128) 127 42 32 45 (filter.toList.map fun c => (c.toNat : Int)) with
  | .ok f => f.include (name.toList.map fun c => (c.toNat : Int))
  | .error _ => none

example : Parsed 45 [[65], [45], [66]] [[65]] [[66]] := ⟨by decide, by decide, .inr rfl⟩
example : Selected 42 [[65, 42]] [[42, 66]] [65, 67] := by
  refine ⟨.inr ⟨[65, 42], by simp, ?_⟩, ?_⟩
  · simp only [Matches]
    refine ⟨[67], rfl, ?_⟩
    simp only [if_pos]
    exact ⟨[67], [], rfl, rfl⟩
  · simp [Matches, List.append_eq_cons_iff, List.cons_eq_append_iff]
example : selects "A*  - *B" "AC" = some true := by decide +kernel
example : selects "A* - *B" "AB" = some false := by decide +kernel
example : selects "- *B" "C" = some true := by decide +kernel
example : selects " " "C" = some true := by decide +kernel
example : selects "A - B - C" "A" = some false := by decide +kernel

end Verif.WildcardFilter
