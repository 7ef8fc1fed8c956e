import Verif.StringTemplate.Model
import Verif.StringTemplate.Spec
import Mathlib.Data.List.Basic
import Mathlib.Tactic.Ring

namespace Verif.StringTemplate

open Spec

variable {α β F R E A : Type} [DecidableEq α] [DecidableEq β]

theorem idxOf?_none {c : α} : ∀ {t : List α}, t.idxOf? c = none → c ∉ t := by
  intro t h
  simpa [List.idxOf?_eq_none_iff] using h

theorem idxOf?_some {c : α} : ∀ {t : List α} {k : Nat}, t.idxOf? c = some k →
    ∃ pre post, t = pre ++ c :: post ∧ pre.length = k ∧ c ∉ pre := by
  intro t
  induction t with
  | nil => intro k h; simp at h
  | cons x t ih =>
    intro k h
    rw [List.idxOf?_cons] at h
    by_cases hx : x = c
    · subst hx
      simp at h
      subst h
      exact ⟨[], t, rfl, rfl, by simp⟩
    · rw [if_neg (by simpa using hx)] at h
      cases ht : t.idxOf? c with
      | none => rw [ht] at h; simp at h
      | some k' =>
        rw [ht] at h
        simp at h
        obtain ⟨pre, post, h1, h2, h3⟩ := ih ht
        refine ⟨x :: pre, post, by rw [h1]; rfl, by simp [h2, h], ?_⟩
        simp only [List.mem_cons, not_or]
        exact ⟨fun e => hx e.symm, h3⟩

theorem findChar_none {s : List α} {c : α} {pos : Nat} (hp : pos ≤ s.length)
    (h : findChar s c pos = none) : c ∉ s.drop pos := by
  unfold findChar at h
  rw [if_pos hp] at h
  simp only [Option.map_eq_none_iff] at h
  exact idxOf?_none h

theorem findChar_some {s : List α} {c : α} {pos i : Nat} (hp : pos ≤ s.length)
    (h : findChar s c pos = some i) :
    ∃ pre post, s.drop pos = pre ++ c :: post ∧ pos + pre.length = i ∧ c ∉ pre := by
  unfold findChar at h
  rw [if_pos hp] at h
  cases hk : (s.drop pos).idxOf? c with
  | none => rw [hk] at h; simp at h
  | some k =>
    rw [hk] at h
    simp at h
    obtain ⟨pre, post, h1, h2, h3⟩ := idxOf?_some hk
    exact ⟨pre, post, h1, by omega, h3⟩

theorem drop_add_of_eq {s pre post : List α} {i : Nat} (h : s.drop i = pre ++ post) :
    s.drop (i + pre.length) = post := by
  rw [← List.drop_drop, h, List.drop_left]

theorem length_of_drop {s t : List α} {i : Nat} (h : s.drop i = t) (hi : i ≤ s.length) :
    s.length = i + t.length := by
  have := congrArg List.length h
  simp at this
  omega

/-! ### Readings -/

variable {π : Type} {P : List α → Option π} {a o c : α}

theorem _root_.Verif.StringTemplate.Spec.Reads.noLead {off : Nat} {t : List α} {ps : List (Piece α π)} {fs : List (Fault α)}
    (h : Reads a o c P off t ps fs) (ha : a ∉ t) : ps = t.map .char ∧ fs = [] := by
  induction h with
  | nil => simp
  | char _ _ ih =>
    obtain ⟨h1, h2⟩ := ih (by simp at ha; exact ha.2)
    exact ⟨by rw [h1]; rfl, h2⟩
  | _ => simp at ha

theorem _root_.Verif.StringTemplate.Spec.Reads.split {off : Nat} {t : List α} {ps : List (Piece α π)} {fs : List (Fault α)}
    (pre : List α) (post : List α) (h : Reads a o c P off t ps fs) (ht : t = pre ++ post)
    (ha : a ∉ pre) :
    ∃ ps', ps = pre.map .char ++ ps' ∧ Reads a o c P (off + pre.length) post ps' fs := by
  induction pre generalizing off t ps with
  | nil => exact ⟨ps, rfl, by subst ht; exact h⟩
  | cons x pre ih =>
    simp only [List.mem_cons, not_or] at ha
    rw [List.cons_append] at ht
    generalize hq : pre ++ post = q at ht
    subst ht
    cases h with
    | char _ h =>
      obtain ⟨ps', h1, h2⟩ := ih h hq.symm ha.2
      refine ⟨ps', by rw [h1]; rfl, ?_⟩
      rw [show off + (x :: pre).length = off + 1 + pre.length by simp; ring]
      exact h2
    | _ => exact absurd rfl ha.1

/-- Every string has a reading. -/
theorem _root_.Verif.StringTemplate.Spec.Reads.exists (P : List α → Option π) (a o c : α) (n : Nat) :
    ∀ (off : Nat) (t : List α), t.length ≤ n → ∃ ps fs, Reads a o c P off t ps fs := by
  induction n with
  | zero =>
    intro off t ht
    have : t = [] := List.length_eq_zero_iff.mp (by omega)
    subst this
    exact ⟨[], [], .nil⟩
  | succ n ih =>
    intro off t ht
    cases t with
    | nil => exact ⟨[], [], .nil⟩
    | cons x t =>
      simp only [List.length_cons] at ht
      by_cases hx : x = a
      · subst hx
        cases t with
        | nil => exact ⟨_, _, .atEnd⟩
        | cons y t =>
          simp only [List.length_cons] at ht
          by_cases hy : y = x
          · subst hy
            obtain ⟨ps, fs, h⟩ := ih (off + 2) t (by omega)
            exact ⟨_, _, .escape h⟩
          · by_cases ho : y = o
            · subst ho
              cases hk : t.idxOf? c with
              | none =>
                obtain ⟨ps, fs, h⟩ := ih (off + 2) t (by omega)
                exact ⟨_, _, .unterminated (idxOf?_none hk) h⟩
              | some k =>
                obtain ⟨name, post, h1, _, h3⟩ := idxOf?_some hk
                subst h1
                obtain ⟨ps, fs, h⟩ := ih (off + (name.length + 3)) post (by
                  simp only [List.length_append, List.length_cons] at ht; omega)
                cases hp : P name with
                | none => exact ⟨_, _, .longUndefined h3 hp h⟩
                | some p => exact ⟨_, _, .long h3 hp h⟩
            · obtain ⟨ps, fs, h⟩ := ih (off + 2) t (by omega)
              cases hp : P [y] with
              | none => exact ⟨_, _, .shortUndefined hy ho hp h⟩
              | some p => exact ⟨_, _, .short hy ho hp h⟩
      · obtain ⟨ps, fs, h⟩ := ih (off + 1) t (by omega)
        exact ⟨_, _, .char hx h⟩

theorem _root_.Verif.StringTemplate.Spec.Reads.inv_short {off : Nat} {ch : α} {t : List α}
    {ps : List (Piece α π)} {fs : List (Fault α)} (h : Reads a o c P off (a :: ch :: t) ps fs)
    (hch : ch ≠ o) :
    (ch = a ∧ ∃ ps', ps = .char a :: ps' ∧ Reads a o c P (off + 2) t ps' fs) ∨
    (ch ≠ a ∧ ∃ p ps', P [ch] = some p ∧ ps = .param p :: ps' ∧
      Reads a o c P (off + 2) t ps' fs) ∨
    (ch ≠ a ∧ ∃ ps' fs', P [ch] = none ∧ ps = .char a :: .char ch :: ps' ∧
      fs = .undefined [ch] [a, ch] :: fs' ∧ Reads a o c P (off + 2) t ps' fs') := by
  generalize hx : a :: ch :: t = T at h
  cases h with
  | nil => simp at hx
  | char hne => simp at hx; exact absurd hx.1.symm hne
  | escape h => simp at hx; obtain ⟨rfl, rfl⟩ := hx; exact .inl ⟨rfl, _, rfl, h⟩
  | short h1 h2 h3 h =>
    simp at hx; obtain ⟨rfl, rfl⟩ := hx; exact .inr (.inl ⟨h1, _, _, h3, rfl, h⟩)
  | long => simp at hx; exact absurd hx.1 hch
  | longUndefined => simp at hx; exact absurd hx.1 hch
  | atEnd => simp at hx
  | unterminated => simp at hx; exact absurd hx.1 hch
  | shortUndefined h1 h2 h3 h =>
    simp at hx; obtain ⟨rfl, rfl⟩ := hx; exact .inr (.inr ⟨h1, _, _, h3, rfl, rfl, h⟩)

theorem _root_.Verif.StringTemplate.Spec.Reads.inv_long {off : Nat} {t : List α}
    {ps : List (Piece α π)} {fs : List (Fault α)} (h : Reads a o c P off (a :: o :: t) ps fs)
    (hao : a ≠ o) :
    (c ∉ t ∧ ∃ ps' fs', ps = .char a :: .char o :: ps' ∧ fs = .unterminated off :: fs' ∧
      Reads a o c P (off + 2) t ps' fs') ∨
    (∃ name t' p ps', t = name ++ c :: t' ∧ c ∉ name ∧ P name = some p ∧ ps = .param p :: ps' ∧
      Reads a o c P (off + (name.length + 3)) t' ps' fs) ∨
    (∃ name t' ps' fs', t = name ++ c :: t' ∧ c ∉ name ∧ P name = none ∧
      ps = ([a, o] ++ name ++ [c]).map .char ++ ps' ∧
      fs = .undefined name ([a, o] ++ name ++ [c]) :: fs' ∧
      Reads a o c P (off + (name.length + 3)) t' ps' fs') := by
  generalize hx : a :: o :: t = T at h
  cases h with
  | nil => simp at hx
  | char hne => simp at hx; exact absurd hx.1.symm hne
  | escape h => simp at hx; exact absurd hx.1.symm hao
  | short h1 h2 h3 h => simp at hx; exact absurd hx.1.symm h2
  | long h1 h2 h => simp at hx; subst hx; exact .inr (.inl ⟨_, _, _, _, rfl, h1, h2, rfl, h⟩)
  | longUndefined h1 h2 h =>
    simp at hx; subst hx; exact .inr (.inr ⟨_, _, _, _, rfl, h1, h2, rfl, rfl, h⟩)
  | atEnd => simp at hx
  | unterminated h1 h => simp at hx; subst hx; exact .inl ⟨h1, _, _, rfl, rfl, h⟩
  | shortUndefined h1 h2 h3 h => simp at hx; exact absurd hx.1.symm h2

theorem split_unique {c : α} {name t name' t' : List α} (h : name ++ c :: t = name' ++ c :: t')
    (h1 : c ∉ name) (h2 : c ∉ name') : name' = name ∧ t' = t := by
  induction name generalizing name' with
  | nil =>
    cases name' with
    | nil => simpa using h.symm
    | cons y name' => simp at h h2; exact absurd h.1 h2.1
  | cons x name ih =>
    simp only [List.mem_cons, not_or] at h1
    cases name' with
    | nil => simp at h; exact absurd h.1.symm h1.1
    | cons y name' =>
      simp at h h2
      obtain ⟨k1, k2⟩ := ih h.2 h1.2 h2.2
      exact ⟨by rw [k1, h.1], k2⟩

/-- A string has at most one reading. -/
theorem _root_.Verif.StringTemplate.Spec.Reads.unique (hao : a ≠ o) {off : Nat} {t : List α}
    {ps : List (Piece α π)} {fs : List (Fault α)} (h : Reads a o c P off t ps fs) :
    ∀ {ps' fs'}, Reads a o c P off t ps' fs' → ps' = ps ∧ fs' = fs := by
  induction h with
  | nil => intro ps' fs' h'; cases h'; simp
  | char hne _ ih =>
    intro ps' fs' h'
    obtain ⟨ps'', rfl, h''⟩ := h'.split [_] _ rfl (by simpa using fun e => hne e.symm)
    obtain ⟨rfl, rfl⟩ := ih h''
    simp
  | escape _ ih =>
    intro ps' fs' h'
    rcases h'.inv_short hao with ⟨_, ps'', rfl, h''⟩ | ⟨hne, _⟩ | ⟨hne, _⟩
    · obtain ⟨rfl, rfl⟩ := ih h''; simp
    · exact absurd rfl hne
    · exact absurd rfl hne
  | short h1 h2 h3 _ ih =>
    intro ps' fs' h'
    rcases h'.inv_short h2 with ⟨e, _⟩ | ⟨_, p, ps'', hp, rfl, h''⟩ | ⟨_, ps'', fs'', hp, _⟩
    · exact absurd e h1
    · obtain ⟨rfl, rfl⟩ := ih h''
      rw [h3] at hp; cases hp; simp
    · rw [h3] at hp; cases hp
  | shortUndefined h1 h2 h3 _ ih =>
    intro ps' fs' h'
    rcases h'.inv_short h2 with ⟨e, _⟩ | ⟨_, p, ps'', hp, _⟩ | ⟨_, ps'', fs'', hp, rfl, rfl, h''⟩
    · exact absurd e h1
    · rw [h3] at hp; cases hp
    · obtain ⟨rfl, rfl⟩ := ih h''; simp
  | atEnd =>
    intro ps' fs' h'
    cases h' with
    | char hne => exact absurd rfl hne
    | atEnd => simp
  | unterminated h1 _ ih =>
    intro ps' fs' h'
    rcases h'.inv_long hao with ⟨_, ps'', fs'', rfl, rfl, h''⟩ | ⟨_, _, _, _, rfl, _⟩ |
      ⟨_, _, _, _, rfl, _⟩
    · obtain ⟨rfl, rfl⟩ := ih h''; simp
    · simp at h1
    · simp at h1
  | long h1 h2 _ ih =>
    intro ps' fs' h'
    rcases h'.inv_long hao with ⟨hn, _⟩ | ⟨name, t', p, ps'', hT, hn, hp, rfl, h''⟩ |
      ⟨name, t', ps'', fs'', hT, hn, hp, rfl, rfl, h''⟩
    · simp at hn
    · obtain ⟨rfl, rfl⟩ := split_unique hT h1 hn
      obtain ⟨rfl, rfl⟩ := ih h''
      rw [h2] at hp; cases hp; simp
    · obtain ⟨rfl, rfl⟩ := split_unique hT h1 hn
      rw [h2] at hp; cases hp
  | longUndefined h1 h2 _ ih =>
    intro ps' fs' h'
    rcases h'.inv_long hao with ⟨hn, _⟩ | ⟨name, t', p, ps'', hT, hn, hp, rfl, h''⟩ |
      ⟨name, t', ps'', fs'', hT, hn, hp, rfl, rfl, h''⟩
    · simp at hn
    · obtain ⟨rfl, rfl⟩ := split_unique hT h1 hn
      rw [h2] at hp; cases hp
    · obtain ⟨rfl, rfl⟩ := split_unique hT h1 hn
      obtain ⟨rfl, rfl⟩ := ih h''
      simp

/-- The reading of a concatenation of a faultless string with another string. -/
theorem _root_.Verif.StringTemplate.Spec.Reads.append {off : Nat} {s t : List α}
    {ps qs : List (Piece α π)} {es fs : List (Fault α)} (h : Reads a o c P off s ps es)
    (he : es = []) (h' : Reads a o c P (off + s.length) t qs fs) :
    Reads a o c P off (s ++ t) (ps ++ qs) fs := by
  induction h with
  | nil => simpa using h'
  | char hne _ ih =>
    exact .char hne (ih he (by rw [List.length_cons] at h'; convert h' using 1; omega))
  | escape _ ih =>
    exact .escape (ih he (by simp only [List.length_cons] at h'; convert h' using 1; omega))
  | short h1 h2 h3 _ ih =>
    exact .short h1 h2 h3 (ih he (by simp only [List.length_cons] at h'; convert h' using 1; omega))
  | long h1 h2 _ ih =>
    have := Reads.long h1 h2 (ih he (by
      simp only [List.length_cons, List.length_append] at h'; convert h' using 1; omega))
    simpa using this
  | _ => simp at he

/-- The reading of an escaped string. -/
theorem reads_escape (P : List α → Option π) (a o c : α) (s : List α) (off : Nat) :
    Reads a o c P off (escape a s) (s.map .char) [] := by
  induction s generalizing off with
  | nil => exact .nil
  | cons x s ih =>
    by_cases hx : x = a
    · subst hx
      have : escape x (x :: s) = x :: x :: escape x s := by simp [escape]
      rw [this]
      exact .escape (ih _)
    · have : escape a (x :: s) = x :: escape a s := by simp [escape, hx]
      rw [this]
      exact .char hx (ih _)

/-- The offset of a string matters only to the faults. -/
theorem _root_.Verif.StringTemplate.Spec.Reads.shift {off : Nat} {s : List α}
    {ps : List (Piece α π)} {es : List (Fault α)} (h : Reads a o c P off s ps es) :
    ∀ off', ∃ es', Reads a o c P off' s ps es' ∧ es'.length = es.length := by
  induction h with
  | nil => exact fun _ => ⟨_, .nil, rfl⟩
  | char h1 _ ih => intro off'; obtain ⟨es', h, hl⟩ := ih (off' + 1); exact ⟨_, .char h1 h, hl⟩
  | escape _ ih => intro off'; obtain ⟨es', h, hl⟩ := ih (off' + 2); exact ⟨_, .escape h, hl⟩
  | short h1 h2 h3 _ ih =>
    intro off'; obtain ⟨es', h, hl⟩ := ih (off' + 2); exact ⟨_, .short h1 h2 h3 h, hl⟩
  | long h1 h2 _ ih => intro off'; obtain ⟨es', h, hl⟩ := ih (off' + _); exact ⟨_, .long h1 h2 h, hl⟩
  | atEnd => exact fun _ => ⟨_, .atEnd, rfl⟩
  | unterminated h1 _ ih =>
    intro off'; obtain ⟨es', h, hl⟩ := ih (off' + 2); exact ⟨_, .unterminated h1 h, by simp [hl]⟩
  | shortUndefined h1 h2 h3 _ ih =>
    intro off'; obtain ⟨es', h, hl⟩ := ih (off' + 2)
    exact ⟨_, .shortUndefined h1 h2 h3 h, by simp [hl]⟩
  | longUndefined h1 h2 _ ih =>
    intro off'; obtain ⟨es', h, hl⟩ := ih (off' + _); exact ⟨_, .longUndefined h1 h2 h, by simp [hl]⟩

/-! ### Substitutions -/

/-- Piece that corresponds to substitution. -/
def pieceOf (C : Chars α β) (x : Subst α β F R A E) : Piece α (Entry α β F R A E) :=
  match x.param with
  | some e => .param e
  | none => .char C.lead

/-- Pieces that correspond to a sequence of substitutions. -/
def piecesOf (C : Chars α β) (s : List α) : Nat → List (Subst α β F R A E) →
    List (Piece α (Entry α β F R A E))
  | i, [] => (s.drop i).map .char
  | i, x :: xs => ((s.drop i).take (x.begin - i)).map .char ++ pieceOf C x :: piecesOf C s x.end xs

/-- Substitutions are in order, and in range. -/
def Ordered (s : List α) : Nat → List (Subst α β F R A E) → Prop
  | i, [] => i ≤ s.length
  | i, x :: xs => i ≤ x.begin ∧ x.begin ≤ s.length ∧ Ordered s x.end xs

theorem piecesOf_skip (C : Chars α β) {s : List α} {i j : Nat} (hij : i ≤ j)
    {xs : List (Subst α β F R A E)} (h : Ordered s j xs) :
    Ordered s i xs ∧
      piecesOf C s i xs = ((s.drop i).take (j - i)).map .char ++ piecesOf C s j xs := by
  have key : ∀ n, (s.drop i).take (j - i) ++ (s.drop j).take n = (s.drop i).take (j - i + n) := by
    intro n
    rw [List.take_add, List.drop_drop, show i + (j - i) = j by omega]
  cases xs with
  | nil =>
    simp only [Ordered] at h ⊢
    refine ⟨by omega, ?_⟩
    simp only [piecesOf, ← List.map_append]
    congr 1
    conv_lhs => rw [← List.take_append_drop (j - i) (s.drop i)]
    rw [List.drop_drop, show i + (j - i) = j by omega]
  | cons x xs =>
    simp only [Ordered] at h ⊢
    refine ⟨⟨by omega, h.2⟩, ?_⟩
    simp only [piecesOf, ← List.append_assoc, ← List.map_append, key]
    rw [show j - i + (x.begin - j) = x.begin - i by omega]

end Verif.StringTemplate
