import Verif.StringSplit.Model
import Verif.StringSplit.Spec
import Mathlib.Data.List.Basic
/-!
Property theorems about splitting and trimming of strings (claim C66).
-/
namespace Verif.StringSplit
open Spec

variable {C : Type} [DecidableEq C]

theorem skip_spec {delim : C} {s : List C} : ∀ {rest : List C} {cur : Nat}, rest = s.drop cur →
    (skip delim rest cur = none ∧ ∀ k, cur ≤ k → k < s.length → s[k]? = some delim) ∨
    ∃ n c cs, skip delim rest cur = some ⟨c :: cs, cur + n⟩ ∧ c :: cs = s.drop (cur + n) ∧ c ≠ delim ∧
      ∀ k, cur ≤ k → k < cur + n → s[k]? = some delim := by
  intro rest
  induction rest with
  | nil =>
    intro cur h
    refine .inl ⟨rfl, fun k h1 h2 => ?_⟩
    have := congrArg List.length h
    simp at this; omega
  | cons c cs ih =>
    intro cur h
    have hc : s[cur]? = some c := by
      have := congrArg (·[0]?) h
      simpa using this.symm
    have hcs : cs = s.drop (cur + 1) := by
      have := congrArg List.tail h
      simpa [List.tail_drop] using this
    rw [skip]
    by_cases hd : c = delim
    · rw [if_pos hd]
      rcases ih hcs with ⟨h1, h2⟩ | ⟨n, c', cs', h1, h2, h3, h4⟩
      · refine .inl ⟨h1, fun k h3 h4 => ?_⟩
        by_cases hk : k = cur
        · rw [hk, hc, hd]
        · exact h2 k (by omega) h4
      · refine .inr ⟨n + 1, c', cs', by rw [h1]; congr 2; omega, by rw [h2]; congr 1; omega, h3, fun k h5 h6 => ?_⟩
        by_cases hk : k = cur
        · rw [hk, hc, hd]
        · exact h4 k (by omega) (by omega)
    · rw [if_neg hd]
      exact .inr ⟨0, c, cs, rfl, h, hd, fun k h1 h2 => by omega⟩

theorem scan_spec {delim : C} {s : List C} : ∀ {rest : List C} {cur : Nat}, rest = s.drop cur → cur ≤ s.length →
    ∃ n, scan delim rest cur = ⟨s.drop (cur + n), cur + n⟩ ∧ cur + n ≤ s.length ∧ (cur + n = s.length ∨ s[cur + n]? = some delim) ∧
      ∀ k, cur ≤ k → k < cur + n → s[k]? ≠ some delim := by
  intro rest
  induction rest with
  | nil =>
    intro cur h hl
    have := congrArg List.length h
    simp at this
    exact ⟨0, by rw [scan, Nat.add_zero, ← h], by omega, .inl (by omega), fun k h1 h2 => by omega⟩
  | cons c cs ih =>
    intro cur h hl
    have hc : s[cur]? = some c := by
      have := congrArg (·[0]?) h
      simpa using this.symm
    have hcs : cs = s.drop (cur + 1) := by
      have := congrArg List.tail h
      simpa [List.tail_drop] using this
    have hlt := (List.getElem?_eq_some_iff.1 hc).1
    rw [scan]
    by_cases hd : c = delim
    · rw [if_neg (by simpa using hd)]
      exact ⟨0, by rw [Nat.add_zero, ← h], hl, .inr (by rw [Nat.add_zero, hc, hd]), fun k h1 h2 => by omega⟩
    · rw [if_pos hd]
      obtain ⟨n, h1, h2, h3, h4⟩ := ih hcs (by omega)
      refine ⟨n + 1, by rw [h1, show cur + 1 + n = cur + (n + 1) by omega], by omega, by rwa [show cur + (n + 1) = cur + 1 + n by omega], fun k h5 h6 => ?_⟩
      by_cases hk : k = cur
      · rw [hk, hc]; simpa using hd
      · exact h4 k (by omega) (by omega)

theorem wordsLoop_spec {delim : C} {s : List C} (k : Nat) : ∀ {cur : Nat}, s.length < cur + k → cur ≤ s.length →
    (cur = 0 ∨ s[cur - 1]? = some delim ∨ s[cur]? = some delim ∨ cur = s.length) →
    (∀ b e, (b, e) ∈ wordsLoop delim k ⟨s.drop cur, cur⟩ ↔ cur ≤ b ∧ IsPiece delim s b e) ∧
      (wordsLoop delim k ⟨s.drop cur, cur⟩).Pairwise (fun x y => x.2 < y.1) := by
  induction k with
  | zero => intro cur h1 h2; omega
  | succ k ih =>
    intro cur hk hcur hinv
    rw [wordsLoop, Splitter.next]
    have hskip := skip_spec (delim := delim) (s := s) (rest := s.drop cur) rfl
    rcases hskip with ⟨h1, h2⟩ | ⟨n, c, cs, h1, h2, h3, h4⟩
    · simp only [h1, Option.bind_eq_bind, Option.bind_none]
      refine ⟨fun b e => ⟨fun h => by simp at h, ?_⟩, .nil⟩
      rintro ⟨h3, h4, h5, h6, _⟩
      exact absurd (h2 b h3 (by omega)) (h6 b (Nat.le_refl _) h4)
    · have hc : s[cur + n]? = some c := by
        have := congrArg (·[0]?) h2
        simpa using this.symm
      have hcs : cs = s.drop (cur + n + 1) := by
        have := congrArg List.tail h2
        simpa [List.tail_drop] using this
      have hlt := (List.getElem?_eq_some_iff.1 hc).1
      simp only [h1, Option.bind_eq_bind, Option.bind_some]
      obtain ⟨m, g1, g2, g3, g4⟩ := scan_spec (delim := delim) hcs (by omega)
      rw [g1]
      generalize hE : cur + n + 1 + m = E at *
      have hnd : ∀ k, cur + n ≤ k → k < E → s[k]? ≠ some delim := by
        intro k h5 h6
        by_cases hk : k = cur + n
        · rw [hk, hc]; simpa using h3
        · exact g4 k (by omega) h6
      obtain ⟨i1, i2⟩ := ih (cur := E) (by omega) g2 (by rcases g3 with g3 | g3 <;> tauto)
      have hpiece : IsPiece delim s (cur + n) E := by
        refine ⟨by omega, g2, hnd, ?_, g3⟩
        by_cases hn : n = 0
        · subst hn
          rcases hinv with h | h | h | h
          · exact .inl h
          · exact .inr h
          · rw [Nat.add_zero] at hc; rw [hc] at h; injection h with h; exact absurd h h3
          · omega
        · exact .inr (h4 _ (by omega) (by omega))
      refine ⟨fun b e => ?_, List.pairwise_cons.2 ⟨?_, i2⟩⟩
      · rw [List.mem_cons, i1]
        constructor
        · rintro (h | ⟨h, h'⟩)
          · injection h with h h'; subst h h'
            exact ⟨by omega, hpiece⟩
          · exact ⟨by omega, h'⟩
        · rintro ⟨h5, h6, h7, h8, h9, h10⟩
          have hb : cur + n ≤ b := by
            by_contra hlt
            exact h8 b (Nat.le_refl _) h6 (h4 b h5 (by omega))
          by_cases hbE : E ≤ b
          · exact .inr ⟨hbE, h6, h7, h8, h9, h10⟩
          · have hb' : b = cur + n := by
              by_contra hne
              rcases h9 with h9 | h9
              · omega
              · exact hnd (b - 1) (by omega) (by omega) h9
            subst hb'
            have he : e = E := by
              rcases Nat.lt_trichotomy e E with h | h | h
              · rcases h10 with h10 | h10
                · omega
                · exact absurd h10 (hnd e (by omega) h)
              · exact h
              · rcases g3 with g3 | g3
                · omega
                · exact absurd g3 (h8 E (by omega) h)
            subst he
            exact .inl rfl
      · rintro ⟨b, e⟩ hbe
        obtain ⟨h5, h6, h7, h8, h9⟩ := (i1 b e).1 hbe
        simp only
        rcases Nat.lt_or_eq_of_le h5 with h | h
        · exact h
        · subst h
          rcases g3 with g3 | g3
          · omega
          · exact absurd g3 (h8 E (Nat.le_refl _) h6)

/-- C66. For every string and every delimiter, the words for which the function is called are exactly the pieces of the string, from
left to right. -/
theorem C66_split (delim : C) (s : List C) : Pieces delim s (words delim s) := by
  have := wordsLoop_spec (delim := delim) (s := s) (s.length + 1) (cur := 0) (by omega) (Nat.zero_le _) (.inl rfl)
  rw [List.drop_zero] at this
  refine ⟨fun b e => ?_, this.2⟩
  have h := this.1 b e
  simpa [words, Splitter.init] using h

theorem trimFront_spec {delim : C} {s : List C} (k : Nat) : ∀ {b : Nat}, b + k = s.length → (∀ j, j < b → s[j]? = some delim) →
    b ≤ trimFront delim s k b ∧ trimFront delim s k b ≤ s.length ∧ (∀ j, j < trimFront delim s k b → s[j]? = some delim) ∧
      s[trimFront delim s k b]? ≠ some delim := by
  induction k with
  | zero =>
    intro b hb h
    refine ⟨Nat.le_refl _, by rw [trimFront]; omega, h, ?_⟩
    rw [trimFront, List.getElem?_eq_none (by omega)]; simp
  | succ k ih =>
    intro b hb h
    rw [trimFront]
    by_cases hd : s[b]? = some delim
    · rw [if_pos hd]
      obtain ⟨h1, h2, h3, h4⟩ := ih (b := b + 1) (by omega) (fun j hj => by
        by_cases hjb : j = b
        · rw [hjb, hd]
        · exact h j (by omega))
      exact ⟨by omega, h2, h3, h4⟩
    · rw [if_neg hd]
      exact ⟨Nat.le_refl _, by omega, h, hd⟩

theorem trimBack_spec {delim : C} {s : List C} {b : Nat} (k : Nat) : ∀ {e : Nat}, b + k = e → e ≤ s.length →
    (∀ j, e ≤ j → j < s.length → s[j]? = some delim) →
    b ≤ trimBack delim s k e ∧ trimBack delim s k e ≤ s.length ∧ (∀ j, trimBack delim s k e ≤ j → j < s.length → s[j]? = some delim) ∧
      (b < trimBack delim s k e → s[trimBack delim s k e - 1]? ≠ some delim) := by
  induction k with
  | zero =>
    intro e hb he h
    rw [trimBack]
    exact ⟨by omega, he, h, fun h => by omega⟩
  | succ k ih =>
    intro e hb he h
    rw [trimBack]
    by_cases hd : s[e - 1]? = some delim
    · rw [if_pos hd]
      refine ih (e := e - 1) (by omega) (by omega) (fun j h1 h2 => ?_)
      by_cases hj : j = e - 1
      · rw [hj, hd]
      · exact h j (by omega) h2
    · rw [if_neg hd]
      exact ⟨by omega, he, h, fun _ => hd⟩

/-- C66. Trimming removes exactly the delimiters at the two ends. -/
theorem C66_trim (delim : C) (s : List C) : Trimmed delim s (trim delim s).1 (trim delim s).2 := by
  obtain ⟨h1, h2, h3, h4⟩ := trimFront_spec (delim := delim) (s := s) s.length (b := 0) (by omega) (by omega)
  unfold trim
  simp only
  generalize trimFront delim s s.length 0 = b at *
  obtain ⟨g1, g2, g3, g4⟩ := trimBack_spec (delim := delim) (s := s) (b := b) (s.length - b) (e := s.length) (by omega) (Nat.le_refl _)
    (fun j h5 h6 => by omega)
  exact ⟨g1, g2, fun k h5 h6 => h6.elim (h3 k) (fun h => g3 k h h5), fun h => ⟨h4, g4 h⟩⟩

example : words 0 [0, 1, 2, 0, 0, 3, 0] = [(1, 3), (5, 6)] := by decide
example : (words 0 [0, 1, 2, 0, 0, 3]).map (slice [0, 1, 2, 0, 0, 3]) = [[1, 2], [3]] := by decide
example : IsPiece 0 [0, 1, 2, 0, 0, 3] 1 3 := by
  refine ⟨by decide, by decide, ?_, .inr rfl, .inr rfl⟩
  intro k h1 h2
  obtain rfl | rfl : k = 1 ∨ k = 2 := by omega
  · decide
  · decide
example : trim 0 [0, 0, 1, 0, 2, 0] = (2, 5) ∧ trim 0 [0, 0, 0] = (3, 3) := by decide

end Verif.StringSplit
