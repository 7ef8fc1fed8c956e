import Verif.Quote.Lemmas
/-!
Lemmas about the main loop of quotation.
-/
namespace Verif.Quote
open Spec

variable {env : Env} {s : List Nat} {maxSize : Nat}

theorem lim_max2 : (limits env maxSize).max2 = Max.max maxSize 5 - 2 := by
  unfold limits; simp only; split <;> omega

theorem lim_max3 : (limits env maxSize).max3 = Max.max maxSize 5 - 5 := by
  unfold limits; simp only; split <;> omega

theorem lim_noMax : (limits env maxSize).noMax = true ↔ maxSize = env.sizeMax := by simp [limits]

/-- If there is no limit, the quoted string is not so long that the size computations overflow. -/
def NoOverflow (env : Env) (maxSize : Nat) (T : List (List Nat)) : Prop :=
  maxSize = env.sizeMax → T.flatten.length + 5 ≤ env.sizeMax

/-- What is known at `again_2`: `A` are the texts of the characters before `i_1`. -/
structure Inv (env : Env) (s : List Nat) (maxSize : Nat) (A : List (List Nat)) (i1 i2 : Nat) (fh : Bool) : Prop where
  texts : textsFrom env false s = A ++ textsFrom env fh (s.drop i1)
  len : A.length = i1
  size : A.flatten.length = i2
  le : i1 ≤ s.length
  fits : i2 + 5 ≤ Max.max maxSize 5

/-- The final part of the output is right. -/
def Good (env : Env) (s : List Nat) (maxSize : Nat) (A : List (List Nat)) (text : List Nat) : Prop :=
  ∃ n, QuotedForm env.quote maxSize (textsFrom env false s) n (env.quote :: (A.flatten ++ text))

/-- The outcome of a turn is right. -/
def TurnOk (env : Env) (s : List Nat) (maxSize : Nat) (A : List (List Nat)) (i1 : Nat) : (List Nat × Nat × Nat × Bool) ⊕ List Nat → Prop
  | .inr text => Good env s maxSize A text
  | .inl (text, i1', i2', fh') => ∃ B, text = B.flatten ∧ i1 < i1' ∧ Inv env s maxSize (A ++ B) i1' i2' fh'

theorem singles_len (l : List Nat) : (l.map ([·])).length = l.length := by simp

/-- What is written when no more characters can be handled one at a time: `j` characters that do not need to be escaped, and then either
all of the remaining characters, or an ellipsis. -/
theorem finish_ok {A : List (List Nat)} {i1 i2 j n2 : Nat} {fh fh' : Bool} {t : List Nat} (h : Inv env s maxSize A i1 i2 fh)
    (hj : textsFrom env fh (s.drop i1) = ((s.drop i1).take j).map ([·]) ++ t :: textsFrom env fh' (s.drop (i1 + j + 1)))
    (hlt : i1 + j < s.length) (hn2 : n2 = Max.max maxSize 5 - 2 - i2 - j) (hfit : i2 + j + 5 ≤ Max.max maxSize 5)
    (hover : Max.max maxSize 5 < i2 + j + t.length + 5) :
    ∃ text, finish env s n2 (i1 + j) ⟨t, fh'⟩ = some text ∧ Good env s maxSize A ((s.drop i1).take j ++ text) := by
  obtain ⟨h1, h2⟩ := finish_spec (env := env) (s := s) (n2 := n2) (t := t) (fh' := fh') hlt
  have htk : ((s.drop i1).take j).length = j := by rw [List.length_take, List.length_drop]; omega
  have hT : textsFrom env false s = (A ++ ((s.drop i1).take j).map ([·])) ++ t :: textsFrom env fh' (s.drop (i1 + j + 1)) := by
    rw [h.texts, hj, List.append_assoc]
  have hP : (A ++ ((s.drop i1).take j).map ([·])).flatten = A.flatten ++ (s.drop i1).take j := by
    rw [List.flatten_append, singles_flatten]
  have hPl : (A ++ ((s.drop i1).take j).map ([·])).flatten.length = i2 + j := by
    rw [hP, List.length_append, h.size, htk]
  have hTl : (textsFrom env false s).flatten.length = i2 + j + (t ++ (textsFrom env fh' (s.drop (i1 + j + 1))).flatten).length := by
    rw [hT, List.flatten_append, List.length_append, hPl, List.flatten_cons]
  by_cases hc : (t ++ (textsFrom env fh' (s.drop (i1 + j + 1))).flatten).length ≤ n2
  · refine ⟨_, h1 hc, _, form_complete (by omega) rfl ?_⟩
    rw [hT, List.flatten_append, hP, List.flatten_cons]
    simp
  · refine ⟨_, h2 (by omega), (A ++ ((s.drop i1).take j).map ([·])).length, ?_⟩
    have hno : ¬ (textsFrom env false s).flatten.length + 2 ≤ Max.max maxSize 5 := by omega
    rw [hT] at hno ⊢
    refine form_partial hno (by omega) (by omega) ?_
    rw [hP]; simp

theorem escape_ok {A : List (List Nat)} {i1 i2 j : Nat} {fh : Bool} (h : Inv env s maxSize A i1 i2 fh)
    (hover : NoOverflow env maxSize (textsFrom env false s)) (hs5 : 5 ≤ env.sizeMax)
    (hj : j ≤ find env fh (s.drop i1)) (hlt : i1 + j < s.length)
    (hfit : maxSize = env.sizeMax ∨ i2 + j + 5 ≤ Max.max maxSize 5) :
    ∃ r, escape env s (limits env maxSize) fh i1 i2 j ((limits env maxSize).max2 - i2) ((limits env maxSize).max3 - i2) = some r ∧
      TurnOk env s maxSize A i1 r := by
  have hfind := find_texts (env := env) fh (s.drop i1) j hj
  rw [List.drop_drop] at hfind
  obtain ⟨t, fh', g1, g2, g3⟩ := render_spec (env := env) (s := s) (i := i1 + j) hlt [] (if j > 0 then false else fh)
  rw [g3] at hfind
  rw [List.nil_append] at g1
  have htk : ((s.drop i1).take j).length = j := by rw [List.length_take, List.length_drop]; omega
  have hT : textsFrom env false s = (A ++ (((s.drop i1).take j).map ([·]) ++ [t])) ++ textsFrom env fh' (s.drop (i1 + j + 1)) := by
    rw [h.texts, hfind]; simp
  have hBl : (((s.drop i1).take j).map ([·]) ++ [t]).flatten = (s.drop i1).take j ++ t := by
    rw [List.flatten_append, singles_flatten]; simp
  have hTl : i2 + j + t.length ≤ (textsFrom env false s).flatten.length := by
    rw [hT, List.flatten_append, List.flatten_append, hBl]
    simp only [List.length_append, h.size, htk]
    omega
  rw [escape, sub_spec (by omega), g1]
  simp only [Option.bind_eq_bind, Option.bind_some]
  rw [lim_max2, lim_max3]
  by_cases hc : (limits env maxSize).noMax = true ∨ t.length ≤ Max.max maxSize 5 - 5 - i2 - j
  · rw [if_pos hc]
    refine ⟨_, rfl, ((s.drop i1).take j).map ([·]) ++ [t], by rw [hBl], by omega, ?_⟩
    refine ⟨hT, ?_, ?_, by omega, ?_⟩
    · simp [h.len]; omega
    · rw [List.flatten_append, hBl]; simp only [List.length_append, h.size, htk]; omega
    · rcases hc with hc | hc
      · have h1 := lim_noMax.1 hc
        have := hover h1
        omega
      · by_cases hm : maxSize = env.sizeMax
        · have := hover hm; omega
        · rcases hfit with h1 | h1
          · exact absurd h1 hm
          · have := h.fits; omega
  · rw [if_neg hc]
    rw [not_or, lim_noMax] at hc
    have hfit' : i2 + j + 5 ≤ Max.max maxSize 5 := hfit.resolve_left hc.1
    obtain ⟨text, f1, f2⟩ := finish_ok h hfind hlt (n2 := Max.max maxSize 5 - 2 - i2 - j) rfl hfit' (by omega)
    rw [f1]
    exact ⟨_, rfl, f2⟩

theorem turn_ok {A : List (List Nat)} {i1 i2 : Nat} {fh : Bool} (h : Inv env s maxSize A i1 i2 fh)
    (hover : NoOverflow env maxSize (textsFrom env false s)) (hs5 : 5 ≤ env.sizeMax) :
    ∃ r, turn env s (limits env maxSize) i1 i2 fh = some r ∧ TurnOk env s maxSize A i1 r := by
  have hle := h.le
  have hfits := h.fits
  have hrest : (s.drop i1).take (s.length - i1) = s.drop i1 := List.take_of_length_le (by simp)
  have hdl : (s.drop i1).length = s.length - i1 := by simp
  have hfl := find_le (env := env) fh (s.drop i1)
  have hTl : (textsFrom env false s).flatten.length = i2 + (textsFrom env fh (s.drop i1)).flatten.length := by
    rw [h.texts, List.flatten_append, List.length_append, h.size]
  have hge := texts_ge (env := env) fh (s.drop i1)
  unfold turn
  rw [if_pos ⟨h.le, .inr (by rw [lim_max2]; omega)⟩]
  simp only
  by_cases hn : (limits env maxSize).noMax = true ∨ s.length - i1 ≤ (limits env maxSize).max2 - i2
  · rw [if_pos hn, sub_spec (by omega), hrest]
    simp only [Option.bind_eq_bind, Option.bind_some]
    by_cases hj : find env fh (s.drop i1) = s.length - i1
    · rw [if_pos hj]
      refine ⟨_, rfl, (textsFrom env false s).length, ?_⟩
      have hft := find_texts (env := env) fh (s.drop i1) _ (Nat.le_refl _)
      have hnil : (s.drop i1).drop (s.length - i1) = [] := List.drop_of_length_le (by simp)
      rw [hj, hrest, hnil] at hft
      simp only [textsFrom, List.append_nil] at hft
      refine form_complete ?_ rfl ?_
      · rw [hTl, hft, singles_flatten, hdl]
        rw [lim_noMax, lim_max2] at hn
        rcases hn with hn | hn
        · have := hover hn
          rw [hTl, hft, singles_flatten, hdl] at this
          omega
        · omega
      · rw [h.texts, hft, List.flatten_append, singles_flatten]; simp
    · rw [if_neg hj, if_pos (by rw [lim_max3]; omega)]
      by_cases hj3 : (limits env maxSize).noMax = true ∨ find env fh (s.drop i1) < (limits env maxSize).max3 - i2
      · rw [if_pos hj3]
        refine escape_ok h hover hs5 (Nat.le_refl _) (by omega) ?_
        rw [lim_noMax, lim_max3] at hj3
        rcases hj3 with h1 | h1
        · exact .inl h1
        · exact .inr (by omega)
      · rw [if_neg hj3]
        rw [not_or, lim_noMax] at hj3
        obtain ⟨hj3, hj4⟩ := hj3
        generalize hn3 : (limits env maxSize).max3 - i2 = n3 at *
        rw [lim_max3] at hn3
        have hlt : i1 + n3 < s.length := by omega
        have hfind := find_texts (env := env) fh (s.drop i1) n3 (by omega)
        rw [List.drop_drop] at hfind
        obtain ⟨t, fh', g1, g2, g3⟩ := render_spec (env := env) (s := s) (i := i1 + n3) hlt [] (if n3 > 0 then false else fh)
        rw [g3] at hfind
        rw [List.nil_append] at g1
        rw [sub_spec (by omega), g1]
        simp only [Option.bind_some]
        rw [lim_max2]
        obtain ⟨text, f1, f2⟩ := finish_ok h hfind hlt (n2 := Max.max maxSize 5 - 2 - i2 - n3) rfl (by omega) (by omega)
        rw [f1]
        exact ⟨_, rfl, f2⟩
  · rw [if_neg hn, if_pos (by rw [lim_max3]; omega)]
    rw [not_or, lim_noMax] at hn
    obtain ⟨hn, hn'⟩ := hn
    have hl2 : (limits env maxSize).max2 = Max.max maxSize 5 - 2 := lim_max2
    have hl3 : (limits env maxSize).max3 = Max.max maxSize 5 - 5 := lim_max3
    have hlt : i1 + ((limits env maxSize).max3 - i2) < s.length := by omega
    rw [sub_spec (by omega)]
    simp only [Option.bind_eq_bind, Option.bind_some]
    have hfp : ∀ (fh : Bool) (l : List Nat) (n : Nat), find env fh (l.take n) = min n (find env fh l) := by
      intro fh l
      induction l generalizing fh with
      | nil => intro n; simp [find]
      | cons c cs ih =>
        intro n
        cases n with
        | zero => simp [find]
        | succ n =>
          rw [List.take_succ_cons, find, find]
          split
          · rw [ih]; omega
          · omega
    rw [hfp]
    by_cases hj : min ((limits env maxSize).max3 - i2) (find env fh (s.drop i1)) = (limits env maxSize).max3 - i2
    · rw [if_pos hj]
      generalize hn3 : (limits env maxSize).max3 - i2 = n3 at *
      have hfind := find_texts (env := env) fh (s.drop i1) n3 (by omega)
      rw [List.drop_drop] at hfind
      obtain ⟨t, fh', g1, g2, g3⟩ := render_spec (env := env) (s := s) (i := i1 + n3) hlt [] (if n3 > 0 then false else fh)
      rw [g3] at hfind
      have hT : textsFrom env false s = (A ++ ((s.drop i1).take n3).map ([·])) ++ t :: textsFrom env fh' (s.drop (i1 + n3 + 1)) := by
        rw [h.texts, hfind, List.append_assoc]
      have hP : (A ++ ((s.drop i1).take n3).map ([·])).flatten = A.flatten ++ (s.drop i1).take n3 := by
        rw [List.flatten_append, singles_flatten]
      have htk : ((s.drop i1).take n3).length = n3 := by rw [List.length_take, List.length_drop]; omega
      have hPl : (A ++ ((s.drop i1).take n3).map ([·])).flatten.length = i2 + n3 := by
        rw [hP, List.length_append, h.size, htk]
      refine ⟨_, rfl, (A ++ ((s.drop i1).take n3).map ([·])).length, ?_⟩
      have hno : ¬ (textsFrom env false s).flatten.length + 2 ≤ Max.max maxSize 5 := by omega
      rw [hT] at hno ⊢
      refine form_partial hno (by omega) (by omega) ?_
      rw [hP]; simp
    · rw [if_neg hj]
      rw [show min ((limits env maxSize).max3 - i2) (find env fh (s.drop i1)) = find env fh (s.drop i1) by omega]
      exact escape_ok h hover hs5 (Nat.le_refl _) (by omega) (.inr (by omega))

theorem loop_ok (hover : NoOverflow env maxSize (textsFrom env false s)) (hs5 : 5 ≤ env.sizeMax) (k : Nat) :
    ∀ {A : List (List Nat)} {i1 i2 : Nat} {fh : Bool}, Inv env s maxSize A i1 i2 fh → s.length < i1 + k →
    ∃ text, loop env s (limits env maxSize) k i1 i2 fh = some text ∧ Good env s maxSize A text := by
  induction k with
  | zero => intro A i1 i2 fh h hk; have := h.le; omega
  | succ k ih =>
    intro A i1 i2 fh h hk
    obtain ⟨r, h1, h2⟩ := turn_ok h hover hs5
    rw [loop, h1]
    simp only [Option.bind_eq_bind, Option.bind_some]
    match r, h2 with
    | .inr text, h2 => exact ⟨text, rfl, h2⟩
    | .inl (text, i1', i2', fh'), ⟨B, h3, h4, h5⟩ =>
      obtain ⟨text', h6, n, h7⟩ := ih h5 (by omega)
      simp only [h6, Option.bind_some]
      refine ⟨_, rfl, n, ?_⟩
      rw [List.flatten_append, ← h3, List.append_assoc] at h7
      exact h7

end Verif.Quote
