import Verif.WordWrap.Text
/-!
What the arguments of the word wrapping functions mean.
-/
namespace Verif.WordWrap
open Spec

/-- The geometry of each line. -/
def geomAt (env : Env) : Nat → Nat
  | 0 => env.first
  | l + 1 => (env.geometry[geomAt env l]?.map Geom.next).getD 0

/-- What is to be broken into lines. -/
def text (env : Env) : Text where
  n := env.words.length
  size k := (env.words[k]?.map Word.size).getD 0
  space k := (env.words[k]?.map Word.space).getD 0
  trailing := env.trailing
  line l := (env.geometry[geomAt env l]?.map Geom.line).getD 0

/-- The requirements on arguments: indexes of geometries are valid, and the line sizes are less than the largest value of
`std::size_t`. -/
structure Ok (env : Env) : Prop where
  first : env.first < env.geometry.length
  next : ∀ g ∈ env.geometry, g.next < env.geometry.length
  line : ∀ g ∈ env.geometry, g.line < env.sizeMax

variable {env : Env}

theorem geomAt_lt (ok : Ok env) (l : Nat) : geomAt env l < env.geometry.length := by
  induction l with
  | zero => exact ok.first
  | succ l ih =>
    rw [geomAt, List.getElem?_eq_getElem ih]
    exact ok.next _ (List.getElem_mem ih)

theorem geom_get (ok : Ok env) (l : Nat) :
    ∃ g, env.geometry[geomAt env l]? = some g ∧ g.line = (text env).line l ∧ g.next = geomAt env (l + 1) ∧ g.line < env.sizeMax := by
  have h := geomAt_lt ok l
  refine ⟨_, List.getElem?_eq_getElem h, ?_, ?_, ok.line _ (List.getElem_mem h)⟩
  · show _ = (env.geometry[geomAt env l]?.map Geom.line).getD 0
    rw [List.getElem?_eq_getElem h]; rfl
  · rw [geomAt, List.getElem?_eq_getElem h]; rfl

theorem line_lt (ok : Ok env) (l : Nat) : (text env).line l < env.sizeMax := by
  obtain ⟨g, _, h1, _, h2⟩ := geom_get ok l
  rw [← h1]; exact h2

theorem word_get {k : Nat} (h : k < env.words.length) : ∃ word, env.words[k]? = some word ∧ word.size = (text env).size k ∧ word.space = (text env).space k := by
  refine ⟨_, List.getElem?_eq_getElem h, ?_, ?_⟩
  · show _ = (env.words[k]?.map Word.size).getD 0
    rw [List.getElem?_eq_getElem h]; rfl
  · show _ = (env.words[k]?.map Word.space).getD 0
    rw [List.getElem?_eq_getElem h]; rfl

theorem geomAt_shift {l l' : Nat} (h : geomAt env l = geomAt env l') (d : Nat) : geomAt env (l + d) = geomAt env (l' + d) := by
  induction d with
  | zero => exact h
  | succ d ih => rw [← Nat.add_assoc, ← Nat.add_assoc, geomAt, geomAt, ih]

theorem line_shift {l l' : Nat} (h : geomAt env l = geomAt env l') (d : Nat) : (text env).line (l + d) = (text env).line (l' + d) := by
  show (env.geometry[geomAt env (l + d)]?.map Geom.line).getD 0 = (env.geometry[geomAt env (l' + d)]?.map Geom.line).getD 0
  rw [geomAt_shift h d]

/-- The cursor position is the width of the line, except that when it is beyond the end of the line, so is the width of the line. -/
def CurOk (env : Env) (l i j cur : Nat) : Prop :=
  cur = (text env).width i j ∨ ((text env).line l < cur ∧ (text env).line l < (text env).width i j)

theorem curOk_sub {l i j cur : Nat} (h : CurOk env l i j cur) : (text env).line l - cur = (text env).line l - (text env).width i j := by
  rcases h with h | ⟨h1, h2⟩
  · rw [h]
  · omega

theorem curOk_fit {l i j cur : Nat} (h : CurOk env l i j cur) (hc : cur ≤ (text env).line l) : cur = (text env).width i j := by
  rcases h with h | ⟨h1, h2⟩
  · exact h
  · omega

theorem curOk_not_fit {l i j cur : Nat} (h : CurOk env l i j cur) (hc : (text env).line l < cur) : (text env).line l < (text env).width i j := by
  rcases h with h | ⟨h1, h2⟩
  · omega
  · exact h2

theorem satAdd_of_le {a b m : Nat} (hm : m < env.sizeMax) (h : satAdd env a b ≤ m) : satAdd env a b = a + b := by
  unfold satAdd at *
  split at h
  · rw [if_pos ‹_›]
  · omega

/-- Greedy: the first word on a line. -/
theorem firstWord_spec (ok : Ok env) {l k : Nat} (hk : k < env.words.length) :
    ∃ cur, firstWord env (geomAt env l) k = some ((text env).line l, cur) ∧ (k + 1 < env.words.length → CurOk env l k (k + 1) cur) := by
  obtain ⟨g, h1, h2, _, h4⟩ := geom_get ok l
  obtain ⟨word, w1, w2, w3⟩ := word_get hk
  unfold firstWord
  rw [h1, w1]
  refine ⟨_, by rw [← h2]; rfl, fun hk' => ?_⟩
  rw [CurOk, width_one, if_neg (show ¬ k + 1 = (text env).n from by show ¬ k + 1 = env.words.length; omega), ← w2]
  rw [h2] at h4
  by_cases h0 : k = 0
  · subst h0
    rw [if_pos rfl, if_pos rfl, ← w3]
    unfold satAdd
    split
    · left; rfl
    · right; omega
  · rw [if_neg h0, if_neg h0]; left; rfl

end Verif.WordWrap
