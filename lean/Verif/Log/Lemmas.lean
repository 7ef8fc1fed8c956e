import Verif.Log.Spec
import Mathlib.Data.List.Induction

/-! # Proofs about loggers -/

namespace Verif.Log

variable {N S : Type} [LinearOrder N]

/-! ## Root loggers -/

theorem lines_ne_nil : ∀ m : List Char, lines m ≠ []
  | [] => by simp [lines]
  | c :: rest => by
    have ih := lines_ne_nil rest
    unfold lines
    split
    · simp
    · cases h : lines rest with
      | nil => exact absurd h ih
      | cons a b => simp

theorem lines_no_newline : ∀ m : List Char, '\n' ∉ m → lines m = [m]
  | [], _ => rfl
  | c :: rest, h => by
    simp only [List.mem_cons, not_or] at h
    rw [lines, if_neg (fun e => h.1 e.symm), lines_no_newline rest h.2]
    rfl

theorem lines_append : ∀ a m : List Char, '\n' ∉ a → lines (a ++ '\n' :: m) = a :: lines m
  | [], m, _ => by simp [lines]
  | c :: rest, m, h => by
    simp only [List.mem_cons, not_or] at h
    rw [List.cons_append, lines, if_neg (fun e => h.1 e.symm), lines_append rest m h.2]
    rfl

theorem split_newline (m : List Char) (h : '\n' ∈ m) : ∃ a b, m = a ++ '\n' :: b ∧ '\n' ∉ a ∧ m.idxOf '\n' = a.length := by
  induction m with
  | nil => simp at h
  | cons c rest ih =>
    by_cases hc : c = '\n'
    · exact ⟨[], rest, by simp [hc], by simp, by simp [hc]⟩
    · have hr : '\n' ∈ rest := by
        rcases List.mem_cons.1 h with e | e
        · exact absurd e.symm hc
        · exact e
      obtain ⟨a, b, e1, e2, e3⟩ := ih hr
      refine ⟨c :: a, b, by rw [e1]; rfl, ?_, ?_⟩
      · simp only [List.mem_cons, not_or]; exact ⟨fun e => hc e.symm, e2⟩
      · rw [List.idxOf_cons_ne _ hc, e3]; rfl

theorem assembleLoop_eq (pre : List Char) : ∀ (fuel : ℕ) (done a b : List Char) (acc : List Char), '\n' ∉ a → b.length < fuel →
    assembleLoop pre (done ++ (a ++ '\n' :: b)) fuel done.length (done.length + a.length) acc = some (acc ++ render pre (a ++ '\n' :: b)) := by
  intro fuel
  induction fuel with
  | zero => intro done a b acc _ h; omega
  | succ n ih =>
    intro done a b acc ha hb
    have e1 : (done ++ (a ++ '\n' :: b)).drop done.length = a ++ '\n' :: b := by simp
    have e2 : (done ++ (a ++ '\n' :: b)).drop (done.length + a.length + 1) = b := by
      rw [Nat.add_assoc, ← List.drop_drop, e1]
      rw [← List.drop_drop, List.drop_left]
      rfl
    have e3 : (a ++ '\n' :: b).take (done.length + a.length + 1 - done.length) = a ++ ['\n'] := by
      rw [show done.length + a.length + 1 - done.length = a.length + 1 from by omega, List.take_append]
      simp [List.take_of_length_le (Nat.le_succ a.length)]
    unfold assembleLoop
    simp only [e1, e3]
    have hr : render pre (a ++ '\n' :: b) = pre ++ a ++ ['\n'] ++ render pre b := by
      rw [render, lines_append _ _ ha]; simp [render]
    by_cases hn : '\n' ∈ b
    · obtain ⟨a', b', f1, f2, f3⟩ := split_newline b hn
      have hf : findNewline (done ++ (a ++ '\n' :: b)) (done.length + a.length + 1) =
          some ((done ++ (a ++ ['\n'])).length + a'.length) := by
        unfold findNewline
        rw [e2, if_pos (by simpa using hn), f3]
        congr 2
        simp
        omega
      rw [hf]
      have hd : done ++ (a ++ '\n' :: b) = (done ++ (a ++ ['\n'])) ++ (a' ++ '\n' :: b') := by rw [← f1]; simp
      have hl : b'.length < n := by rw [f1] at hb; simp at hb; omega
      have := ih (done ++ (a ++ ['\n'])) a' b' (acc ++ pre ++ (a ++ ['\n'])) f2 hl
      rw [hd]
      have hl2 : done.length + a.length + 1 = (done ++ (a ++ ['\n'])).length := by simp; omega
      simp only [hl2]
      rw [this, hr, ← f1]
      simp
    · have hf : findNewline (done ++ (a ++ '\n' :: b)) (done.length + a.length + 1) = none := by
        unfold findNewline
        rw [e2, if_neg (by simpa using hn)]
      rw [hf]
      simp only [e2]
      rw [hr]
      have : render pre b = pre ++ b ++ ['\n'] := by rw [render, lines_no_newline _ hn]; simp
      rw [this]
      simp

theorem assemble_eq (pre message : List Char) : assemble pre message = some (render pre message) := by
  unfold assemble
  by_cases h : '\n' ∈ message
  · obtain ⟨a, b, e1, e2, e3⟩ := split_newline message h
    have hf : findNewline message 0 = some a.length := by
      unfold findNewline
      rw [List.drop_zero, if_pos (by simpa using h), e3, Nat.zero_add]
    rw [hf]
    have := assembleLoop_eq pre (message.length + 1) [] a b [] e2 (by rw [e1]; simp; omega)
    simpa [← e1] using this
  · have hf : findNewline message 0 = none := by
      unfold findNewline
      rw [List.drop_zero, if_neg (by simpa using h)]
    rw [hf, render, lines_no_newline _ h]
    simp

/-! ## Searching -/

/-- Channels are in order, and have unique names. -/
def Sorted (channels : List (Channel N S)) : Prop := channels.Pairwise (fun a b => a.name < b.name)

theorem takeWhile_length (name : N) : ∀ channels : List (Channel N S), Sorted channels → ∀ c ∈ channels, c.name = name →
    channels[(channels.takeWhile (fun c => decide (c.name < name))).length]? = some c
  | [], _, c, hc, _ => by simp at hc
  | d :: rest, hs, c, hc, e => by
    obtain ⟨h1, h2⟩ := List.pairwise_cons.1 hs
    rcases List.mem_cons.1 hc with rfl | hc
    · rw [List.takeWhile_cons, if_neg (by simp [e])]; rfl
    · have hl : d.name < name := e ▸ h1 c hc
      rw [List.takeWhile_cons, if_pos (by simpa using hl), List.length_cons, List.getElem?_cons_succ]
      exact takeWhile_length name rest h2 c hc e

theorem findIndex_mem {channels : List (Channel N S)} (hs : Sorted channels) {c : Channel N S} (hc : c ∈ channels) :
    ∃ i, findIndex channels c.name = some i ∧ channels[i]? = some c := by
  have h := takeWhile_length c.name channels hs c hc rfl
  refine ⟨_, ?_, h⟩
  unfold findIndex
  simp only [h, if_true]

theorem findIndex_some {channels : List (Channel N S)} {name : N} {i : ℕ} (h : findIndex channels name = some i) :
    ∃ c, channels[i]? = some c ∧ c.name = name := by
  unfold findIndex at h
  generalize (channels.takeWhile (fun c => decide (c.name < name))).length = k at h
  simp only at h
  split at h
  · rename_i c hk
    split at h
    · rename_i he
      cases h
      exact ⟨c, hk, he⟩
    · cases h
  · cases h

theorem mem_of_getElem? {α : Type} {l : List α} {i : ℕ} {a : α} (h : l[i]? = some a) : a ∈ l := by
  obtain ⟨hi, e⟩ := List.getElem?_eq_some_iff.1 h
  exact e ▸ List.getElem_mem hi

theorem findIndex_none {channels : List (Channel N S)} (hs : Sorted channels) {name : N} :
    findIndex channels name = none ↔ ∀ c ∈ channels, c.name ≠ name := by
  constructor
  · intro h c hc e
    obtain ⟨i, hi, _⟩ := findIndex_mem hs hc
    rw [e, h] at hi
    cases hi
  · intro h
    cases hf : findIndex channels name with
    | none => rfl
    | some i =>
      obtain ⟨c, h1, h2⟩ := findIndex_some hf
      exact absurd h2 (h c (mem_of_getElem? h1))

theorem findChannel_mem {channels : List (Channel N S)} (hs : Sorted channels) {c : Channel N S} (hc : c ∈ channels) :
    findChannel channels c.name = .ok c := by
  obtain ⟨i, h1, h2⟩ := findIndex_mem hs hc
  simp [findChannel, h1, h2]

theorem reselect_mem {channels : List (Channel N S)} (hs : Sorted channels) {c : Channel N S} (hc : c ∈ channels) :
    reselect channels c.name = .ok c := by
  obtain ⟨i, h1, h2⟩ := findIndex_mem hs hc
  simp [reselect, h1, h2]

theorem findChannel_ok {channels : List (Channel N S)} {name : N} {c : Channel N S} (h : findChannel channels name = .ok c) :
    c ∈ channels ∧ c.name = name := by
  unfold findChannel at h
  cases hf : findIndex channels name with
  | none => rw [hf] at h; simp at h
  | some i =>
    obtain ⟨c', h1, h2⟩ := findIndex_some hf
    rw [hf] at h
    simp [h1] at h
    exact ⟨h ▸ mem_of_getElem? h1, h ▸ h2⟩

theorem findChannel_error {channels : List (Channel N S)} (hs : Sorted channels) {name : N} (h : ∀ c ∈ channels, c.name ≠ name) :
    findChannel channels name = .error .noSuchChannel := by
  simp [findChannel, (findIndex_none hs).2 h]

theorem sorted_unique {channels : List (Channel N S)} (hs : Sorted channels) {a b : Channel N S} (ha : a ∈ channels) (hb : b ∈ channels)
    (h : a.name = b.name) : a = b := by
  have h1 := findChannel_mem hs ha
  rw [h, findChannel_mem hs hb] at h1
  cases h1; rfl

/-! ## Maps -/

/-- Keys are in order. -/
def SortedKeys {V : Type} (l : List (N × V)) : Prop := l.Pairwise (fun a b => a.1 < b.1)

theorem assign_spec {V : Type} (key : N) (value : V) : ∀ l : List (N × V), SortedKeys l → SortedKeys (assign key value l) ∧
    ∀ k v, (k, v) ∈ assign key value l ↔ (k = key ∧ v = value) ∨ (k ≠ key ∧ (k, v) ∈ l)
  | [], _ => by
    refine ⟨List.pairwise_singleton _ _, fun k v => ?_⟩
    simp [assign]
  | (a, b) :: rest, hs => by
    obtain ⟨h1, h2⟩ := List.pairwise_cons.1 hs
    obtain ⟨i1, i2⟩ := assign_spec key value rest h2
    unfold assign
    by_cases hk : a < key
    · rw [if_pos hk]
      constructor
      · refine List.pairwise_cons.2 ⟨?_, i1⟩
        rintro ⟨k, v⟩ hm
        rcases (i2 k v).1 hm with ⟨e, _⟩ | ⟨_, hm⟩
        · simpa [e] using hk
        · exact h1 _ hm
      · intro k v
        rw [List.mem_cons, i2, List.mem_cons]
        constructor
        · rintro (h | h | h)
          · cases h; exact Or.inr ⟨ne_of_lt hk, Or.inl rfl⟩
          · exact Or.inl h
          · exact Or.inr ⟨h.1, Or.inr h.2⟩
        · rintro (h | ⟨h, h' | h'⟩)
          · exact Or.inr (Or.inl h)
          · exact Or.inl h'
          · exact Or.inr (Or.inr ⟨h, h'⟩)
    · rw [if_neg hk]
      by_cases he : a = key
      · subst he
        rw [if_pos rfl]
        constructor
        · exact List.pairwise_cons.2 ⟨fun x hx => h1 x hx, h2⟩
        · intro k v
          rw [List.mem_cons, List.mem_cons]
          constructor
          · rintro (h | h)
            · cases h; exact Or.inl ⟨rfl, rfl⟩
            · exact Or.inr ⟨ne_of_gt (h1 _ h), Or.inr h⟩
          · rintro (⟨e1, e2⟩ | ⟨h, h' | h'⟩)
            · exact Or.inl (by rw [e1, e2])
            · cases h'; exact absurd rfl h
            · exact Or.inr h'
      · rw [if_neg he]
        have hlt : key < a := lt_of_le_of_ne (not_lt.1 hk) (fun e => he e.symm)
        constructor
        · refine List.pairwise_cons.2 ⟨?_, hs⟩
          intro x hx
          rcases List.mem_cons.1 hx with rfl | hx
          · exact hlt
          · exact lt_trans hlt (h1 x hx)
        · intro k v
          rw [List.mem_cons]
          constructor
          · rintro (h | h)
            · cases h; exact Or.inl ⟨rfl, rfl⟩
            · refine Or.inr ⟨?_, h⟩
              rcases List.mem_cons.1 h with h | h
              · cases h; exact ne_of_gt hlt
              · exact ne_of_gt (lt_trans hlt (h1 _ h))
          · rintro (⟨e1, e2⟩ | ⟨_, h⟩)
            · exact Or.inl (by rw [e1, e2])
            · exact Or.inr h

/-- Repeated assignment: the last one with a particular key counts. -/
theorem foldl_assign {V A : Type} (key : A → N) (value : A → V) (init : List (N × V)) (hs : SortedKeys init) (l : List A) :
    SortedKeys (l.foldl (fun m a => assign (key a) (value a) m) init) ∧
    ∀ k v, (k, v) ∈ l.foldl (fun m a => assign (key a) (value a) m) init ↔
      match (l.filter (fun a => key a = k)).getLast? with
      | some a => v = value a
      | none => (k, v) ∈ init := by
  induction l using List.reverseRecOn with
  | nil => exact ⟨hs, fun k v => by simp⟩
  | append_singleton l a ih =>
    obtain ⟨i1, i2⟩ := ih
    rw [List.foldl_append, List.foldl_cons, List.foldl_nil]
    obtain ⟨j1, j2⟩ := assign_spec (key a) (value a) _ i1
    refine ⟨j1, fun k v => ?_⟩
    rw [j2, List.filter_append]
    by_cases hk : key a = k
    · subst hk
      simp
    · have : ([a].filter (fun a => decide (key a = k))) = [] := by simp [hk]
      rw [this, List.append_nil, i2]
      constructor
      · rintro (⟨e, _⟩ | ⟨_, h⟩)
        · exact absurd e.symm hk
        · exact h
      · intro h; exact Or.inr ⟨fun e => hk e.symm, h⟩

end Verif.Log
