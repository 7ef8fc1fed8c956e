import Verif.CliSpec.ParserSpec
/-!
The lexer.
-/
namespace Verif.CliSpec

variable {env : Env}

theorem EnvOk.nar (h : EnvOk env) {k : Nat} (hk : k ∈ specials := by decide) (c : Nat) : env.narrow c = k ↔ c = k := h.narrow k hk c

theorem EnvOk.na (h : EnvOk env) {k : Nat} (hk : k ∈ specials := by decide) : env.alnum k = false := h.alnum k hk

theorem skipSpaces_spec (h : EnvOk env) : ∀ (s : Str) (b : Bool), ∃ n, s = List.replicate n 32 ++ (skipSpaces env b s).2 ∧
    (skipSpaces env b s).1 = (b || decide (0 < n)) ∧ (skipSpaces env b s).2.head? ≠ some 32
  | [], b => ⟨0, by simp [skipSpaces], by simp [skipSpaces], by simp [skipSpaces]⟩
  | c :: s, b => by
    by_cases hc : c = 32
    · subst hc
      obtain ⟨n, h1, h2, h3⟩ := skipSpaces_spec h s true
      have hn : env.narrow 32 = 32 := (h.nar (by decide) 32).2 rfl
      refine ⟨n + 1, ?_, ?_, ?_⟩
      · simp only [skipSpaces, hn, decide_true, Bool.true_or, if_true, List.replicate_succ, List.cons_append]
        rw [← h1]
      · simp [skipSpaces, hn, h2]
      · simpa [skipSpaces, hn] using h3
    · have hn : env.narrow c ≠ 32 := fun h' => hc ((h.nar (by decide) c).1 h')
      exact ⟨0, by simp [skipSpaces, hn, hc], by simp [skipSpaces, hn, hc], by simp [skipSpaces, hn, hc]⟩

theorem skipSpaces_eq (h : EnvOk env) : ∀ (n : Nat) (x : Str) (b : Bool), x.head? ≠ some 32 →
    skipSpaces env b (List.replicate n 32 ++ x) = (b || decide (0 < n), x)
  | 0, [], b, _ => by simp [skipSpaces]
  | 0, c :: x, b, hx => by
    have hc : c ≠ 32 := by simpa using hx
    have hn : env.narrow c ≠ 32 := fun h' => hc ((h.nar (by decide) c).1 h')
    simp [skipSpaces, hn, hc]
  | n + 1, x, b, hx => by
    have hn : env.narrow 32 = 32 := (h.nar (by decide) 32).2 rfl
    simp [List.replicate_succ, skipSpaces, hn, skipSpaces_eq h n x true hx]

theorem scanWord_spec : ∀ s : Str, s = (scanWord env s).1 ++ (scanWord env s).2 ∧ Word env (scanWord env s).1 ∧
    ∀ c, (scanWord env s).2.head? = some c → ¬ (env.alnum c = true ∨ c = 45)
  | [] => by simp [scanWord, Word]
  | c :: s => by
    obtain ⟨h1, h2, h3⟩ := scanWord_spec s
    by_cases hc : env.alnum c = true ∨ c = 45
    · have : (env.alnum c || c == 45) = true := by simpa using hc
      simp only [scanWord, this, if_true, List.cons_append]
      refine ⟨by rw [← h1], ?_, h3⟩
      intro d hd
      rcases List.mem_cons.1 hd with rfl | hd
      · exact hc
      · exact h2 d hd
    · have : (env.alnum c || c == 45) = false := by simpa using hc
      simp only [scanWord, this]
      refine ⟨rfl, by simp [Word], ?_⟩
      intro d hd
      simp only [Bool.false_eq_true, if_false, List.head?_cons, Option.some.injEq] at hd
      subst hd
      exact hc

theorem scanWord_eq : ∀ (r rest : Str), Word env r → (∀ c, rest.head? = some c → ¬ (env.alnum c = true ∨ c = 45)) →
    scanWord env (r ++ rest) = (r, rest)
  | [], [], _, _ => rfl
  | [], c :: rest, _, h => by
    have : (env.alnum c || c == 45) = false := by simpa using h c rfl
    simp [scanWord, this]
  | c :: r, rest, hr, h => by
    have hc : (env.alnum c || c == 45) = true := by simpa using hr c (by simp)
    have ih := scanWord_eq r rest (fun d hd => hr d (by simp [hd])) h
    simp only [List.cons_append, scanWord, hc, if_true, ih]

theorem mem_takeWhile (p : Nat → Bool) : ∀ (l : List Nat) (x : Nat), x ∈ l.takeWhile p → p x = true
  | [], x, h => by simp at h
  | a :: l, x, h => by
    simp only [List.takeWhile_cons] at h
    split at h
    · rename_i ha
      rcases List.mem_cons.1 h with rfl | h
      · exact ha
      · exact mem_takeWhile p l x h
    · simp at h

/-- What is extracted is a token. -/
theorem extractToken_sound (h : EnvOk env) {s : Str} (hs : s.head? ≠ some 32) {ty : TokType} {l rest : Str}
    (hx : extractToken env s = .ok (ty, l, rest)) : s = l ++ rest ∧ IsLexeme env ty l ∧ CanFollow env ty l rest := by
  cases s with
  | nil =>
    cases hx
    exact ⟨rfl, rfl, rfl⟩
  | cons c s =>
    obtain ⟨hw1, hw2, hw3⟩ := scanWord_spec (env := env) s
    simp only [extractToken] at hx
    by_cases h45 : env.narrow c = 45
    · have hc := (h.nar (by decide) c).1 h45
      subst hc
      rw [if_pos h45] at hx
      cases s with
      | nil =>
        simp [h45, scanWord] at hx
        obtain ⟨rfl, rfl, rfl⟩ := hx
        exact ⟨rfl, Or.inl rfl, by simp [CanFollow]⟩
      | cons d s =>
        dsimp only at hx
        split at hx
        · rename_i hd
          subst hd
          cases hx
          obtain ⟨hv1, hv2, hv3⟩ := scanWord_spec (env := env) s
          exact ⟨by rw [List.cons_append, List.cons_append, ← hv1], ⟨_, rfl, hv2⟩, hv3⟩
        · rename_i hd
          split at hx
          · rename_i hd'
            cases hx
            exact ⟨rfl, ⟨d, rfl, hd, hd'⟩, trivial⟩
          · rename_i hd'
            have hd' : d = 32 := by simpa using hd'
            subst hd'
            have h32 : env.alnum 32 = false := h.na (by decide)
            simp [h45, scanWord, h32] at hx
            obtain ⟨rfl, rfl, rfl⟩ := hx
            exact ⟨rfl, Or.inl rfl, by simp [CanFollow]⟩
    · rw [if_neg h45] at hx
      have one : ∀ {k : Nat}, k ∈ specials → env.narrow c = k → c = k := fun hk hc => (h.narrow _ hk c).1 hc
      split at hx
      · rename_i hc
        have := one (by decide) hc
        subst this
        split at hx
        · cases hx
        · rename_i d s' hd
          cases hx
          have h62 : d = 62 := by
            have := List.head?_dropWhile_not (p := (· != 62)) s
            rw [hd] at this
            simpa using this
          subst h62
          have hs' := List.takeWhile_append_dropWhile (p := (· != 62)) (l := s)
          rw [hd] at hs'
          refine ⟨?_, ⟨_, rfl, ?_⟩, trivial⟩
          · have : s = List.takeWhile (· != 62) s ++ ([62] ++ rest) := hs'.symm
            rw [List.cons_append, List.cons_append, List.append_assoc]
            exact congrArg _ this
          · intro hm
            have := mem_takeWhile _ _ _ hm
            simp at this
      · split at hx
        · rename_i hc
          have := one (by decide) hc
          subst this
          cases hx
          exact ⟨rfl, rfl, trivial⟩
        · split at hx
          · rename_i hc
            have := one (by decide) hc
            subst this
            cases hx
            exact ⟨rfl, rfl, trivial⟩
          · split at hx
            · rename_i hc
              have := one (by decide) hc
              subst this
              cases hx
              exact ⟨rfl, rfl, trivial⟩
            · split at hx
              · rename_i hc
                have := one (by decide) hc
                subst this
                cases hx
                exact ⟨rfl, rfl, trivial⟩
              · split at hx
                · rename_i hc
                  have := one (by decide) hc
                  subst this
                  split at hx
                  · split at hx
                    · rename_i hd
                      subst hd
                      split at hx
                      · split at hx
                        · rename_i hd
                          subst hd
                          cases hx
                          exact ⟨rfl, rfl, trivial⟩
                        · cases hx
                      · cases hx
                    · cases hx
                  · cases hx
                · split at hx
                  · rename_i hc
                    have := one (by decide) hc
                    subst this
                    cases hx
                    exact ⟨rfl, rfl, trivial⟩
                  · split at hx
                    · rename_i hc
                      have := one (by decide) hc
                      subst this
                      cases hx
                      exact ⟨rfl, rfl, trivial⟩
                    · split at hx
                      · rename_i hc
                        cases hx
                        have hal : env.alnum (env.narrow c) = true := by simpa [h45] using hc
                        refine ⟨by rw [List.cons_append, ← hw1], Or.inr ⟨_, _, rfl, hal, hw2⟩, ?_⟩
                        have : ¬ c :: (scanWord env s).1 = [45] := by
                          intro he
                          have : c = 45 := (List.cons.inj he).1
                          subst this
                          exact h45 ((h.nar (by decide) 45).2 rfl)
                        simp only [CanFollow, this, if_false]
                        exact hw3
                      · cases hx

/-- A token is extracted. -/
theorem extractToken_complete (h : EnvOk env) {ty : TokType} {l rest : Str} (hl : IsLexeme env ty l) (hf : CanFollow env ty l rest) :
    extractToken env (l ++ rest) = .ok (ty, l, rest) ∧ (l ++ rest).head? ≠ some 32 := by
  have n : ∀ k ∈ specials, env.narrow k = k := fun k hk => (h.narrow k hk k).2 rfl
  have n45 := n 45 (by decide)
  have n60 := n 60 (by decide)
  have n40 := n 40 (by decide)
  have n41 := n 41 (by decide)
  have n91 := n 91 (by decide)
  have n93 := n 93 (by decide)
  have n46 := n 46 (by decide)
  have n124 := n 124 (by decide)
  have n44 := n 44 (by decide)
  have a32 : env.alnum 32 = false := h.na (by decide)
  cases ty with
  | keyword =>
    rcases hl with rfl | ⟨c, r, rfl, hc, hr⟩
    · simp only [CanFollow, if_true] at hf
      rcases hf with rfl | hf
      · simp [extractToken, n45, scanWord]
      · cases rest with
        | nil => simp at hf
        | cons d rest =>
          have : d = 32 := by simpa using hf
          subst this
          simp [extractToken, n45, scanWord, a32]
    · have hne : ∀ k ∈ specials, env.narrow c ≠ k := by
        intro k hk he
        rw [he, h.alnum k hk] at hc
        cases hc
      have hck : ∀ k ∈ specials, c ≠ k := by
        intro k hk he
        exact hne k hk ((h.narrow k hk c).2 he)
      have hcf : ∀ d, rest.head? = some d → ¬ (env.alnum d = true ∨ d = 45) := by
        have : ¬ c :: r = [45] := by
          intro he
          have : c = 45 := (List.cons.inj he).1
          exact hck 45 (by decide) this
        simpa only [CanFollow, this, if_false] using hf
      have hw := scanWord_eq r rest hr hcf
      refine ⟨?_, by simpa using hck 32 (by decide)⟩
      simp [extractToken, hw, hc, hne 45 (by decide), hne 60 (by decide), hne 40 (by decide), hne 41 (by decide), hne 91 (by decide),
        hne 93 (by decide), hne 46 (by decide), hne 124 (by decide), hne 44 (by decide)]
  | shortOption =>
    obtain ⟨c, rfl, h1, h2⟩ := hl
    simp [extractToken, n45, h1, h2]
  | longOption =>
    obtain ⟨r, rfl, hr⟩ := hl
    have hw := scanWord_eq r rest hr hf
    simp [extractToken, n45, hw]
  | valueSlot =>
    obtain ⟨r, rfl, hr⟩ := hl
    have h1 : (r ++ 62 :: rest).dropWhile (· != 62) = 62 :: rest := by
      rw [List.dropWhile_append_of_pos]
      · simp
      · intro x hx
        have : x ≠ 62 := fun he => hr (he ▸ hx)
        simpa using this
    have h2 : (r ++ 62 :: rest).takeWhile (· != 62) = r := by
      rw [List.takeWhile_append_of_pos]
      · simp
      · intro x hx
        have : x ≠ 62 := fun he => hr (he ▸ hx)
        simpa using this
    simp [extractToken, n60, h1, h2]
  | leftSqBracket => cases hl; simp [extractToken, n91]
  | rightSqBracket => cases hl; simp [extractToken, n93]
  | leftParenthesis => cases hl; simp [extractToken, n40]
  | rightParenthesis => cases hl; simp [extractToken, n41]
  | ellipsis => cases hl; simp [extractToken, n46]
  | verticalBar => cases hl; simp [extractToken, n124]
  | comma => cases hl; simp [extractToken, n44]
  | endOfInput => cases hl; cases hf; simp [extractToken]

theorem extract_iff (h : EnvOk env) {s : Str} {t : Token} {rest : Str} : extractNextToken env s = .ok (t, rest) ↔ Starts env s t rest := by
  obtain ⟨n, h1, h2, h3⟩ := skipSpaces_spec h s false
  constructor
  · intro hx
    rcases hsk : skipSpaces env false s with ⟨b, s'⟩
    rw [hsk] at h1 h2 h3
    simp only [extractNextToken, hsk] at hx
    cases hxt : extractToken env s' with
    | error e => simp [hxt, bind, Except.bind] at hx
    | ok v =>
      obtain ⟨ty, l, rest'⟩ := v
      simp only [hxt, bind, Except.bind, Except.ok.injEq, Prod.mk.injEq] at hx
      obtain ⟨rfl, rfl⟩ := hx
      obtain ⟨h4, h5, h6⟩ := extractToken_sound h h3 hxt
      refine ⟨n, ?_, by simpa using h2, h5, h6⟩
      rw [← h4]
      exact h1
  · rintro ⟨m, rfl, h5, h6, h7⟩
    obtain ⟨h8, h9⟩ := extractToken_complete h h6 h7
    simp only [extractNextToken, skipSpaces_eq h m _ false h9, h8, bind, Except.bind, Except.ok.injEq, Prod.mk.injEq, and_true]
    obtain ⟨ty, l, b⟩ := t
    dsimp only at h5
    rw [h5, Bool.false_or]

end Verif.CliSpec
