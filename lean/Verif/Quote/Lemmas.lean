import Verif.Quote.Model
import Verif.Quote.Spec
import Mathlib.Data.List.Basic
/-!
Lemmas about the model of quotation.
-/
namespace Verif.Quote

variable {env : Env} {s : List Nat}

/-- The texts that represent the individual characters of a string. -/
def textsFrom (env : Env) : Bool → List Nat → List (List Nat)
  | _, [] => []
  | fh, c :: cs => (renderChar env fh c cs.head?).1 :: textsFrom env (renderChar env fh c cs.head?).2 cs

theorem textsFrom_length (fh : Bool) (l : List Nat) : (textsFrom env fh l).length = l.length := by
  induction l generalizing fh with
  | nil => rfl
  | cons c cs ih => simp [textsFrom, ih]

theorem renderChar_pos (fh : Bool) (c : Nat) (o : Option Nat) : 1 ≤ (renderChar env fh c o).1.length := by
  unfold renderChar renderSpecial renderNumeric
  repeat' split
  all_goals simp

theorem textsFrom_pos {fh : Bool} {l : List Nat} : ∀ t ∈ textsFrom env fh l, 1 ≤ t.length := by
  induction l generalizing fh with
  | nil => simp [textsFrom]
  | cons c cs ih =>
    intro t ht
    rw [textsFrom, List.mem_cons] at ht
    rcases ht with rfl | ht
    · exact renderChar_pos ..
    · exact ih t ht

theorem flatten_ge {ts : List (List Nat)} (h : ∀ t ∈ ts, 1 ≤ t.length) : ts.length ≤ ts.flatten.length := by
  induction ts with
  | nil => simp
  | cons t ts ih =>
    have h1 := h t List.mem_cons_self
    have h2 := ih (fun t ht => h t (List.mem_cons_of_mem _ ht))
    simp only [List.flatten_cons, List.length_append, List.length_cons]
    omega

theorem texts_ge (fh : Bool) (l : List Nat) : l.length ≤ (textsFrom env fh l).flatten.length := by
  have := flatten_ge (textsFrom_pos (env := env) (fh := fh) (l := l))
  rwa [textsFrom_length] at this

theorem singles_flatten (l : List Nat) : (l.map ([·])).flatten = l := by
  induction l with
  | nil => rfl
  | cons c cs ih => simpa using ih

theorem find_le (fh : Bool) (l : List Nat) : find env fh l ≤ l.length := by
  induction l generalizing fh with
  | nil => simp [find]
  | cons c cs ih =>
    rw [find]
    split
    · have := ih false
      simp only [List.length_cons]; omega
    · omega

/-- The characters that are found do not need to be escaped. -/
theorem find_texts (fh : Bool) (l : List Nat) : ∀ m, m ≤ find env fh l →
    textsFrom env fh l = (l.take m).map ([·]) ++ textsFrom env (if m > 0 then false else fh) (l.drop m) := by
  induction l generalizing fh with
  | nil => intro m hm; simp [textsFrom]
  | cons c cs ih =>
    intro m hm
    cases m with
    | zero => simp
    | succ m =>
      rw [find] at hm
      split at hm
      · rename_i h
        have hr : renderChar env fh c cs.head? = ([c], false) := by
          obtain ⟨_, h2⟩ := h
          simp only [not_or, not_and, not_not] at h2
          obtain ⟨h3, h4, h5, h6⟩ := h2
          rw [renderChar, if_pos, if_pos ⟨h3, h4⟩]
          refine ⟨h5, ?_⟩
          by_cases hf : fh = true
          · exact .inr (h6 hf)
          · exact .inl hf
        rw [textsFrom, hr]
        simp only
        rw [ih false m (by omega)]
        simp
      · omega

theorem render_spec {i : Nat} (hi : i < s.length) (b : List Nat) (fh : Bool) :
    ∃ t fh', render env s i ⟨b, fh⟩ = some ⟨b ++ t, fh'⟩ ∧ 1 ≤ t.length ∧
      textsFrom env fh (s.drop i) = t :: textsFrom env fh' (s.drop (i + 1)) := by
  have hd : s.drop i = s[i] :: s.drop (i + 1) := List.drop_eq_getElem_cons hi
  refine ⟨(renderChar env fh s[i] s[i + 1]?).1, (renderChar env fh s[i] s[i + 1]?).2, ?_, renderChar_pos .., ?_⟩
  · simp only [render, List.getElem?_eq_getElem hi, Option.bind_eq_bind, Option.bind_some]
  · rw [hd, textsFrom, List.head?_drop]

theorem sub_spec {pos n : Nat} (h : pos + n ≤ s.length) : sub s pos n = some ((s.drop pos).take n) := by
  rw [sub, if_pos h]

theorem renderMore_spec {n2 : Nat} (k : Nat) : ∀ {i : Nat} {b : List Nat} {fh : Bool}, i + k = s.length → 0 < k →
    let all := b ++ (textsFrom env fh (s.drop (i + 1))).flatten
    (all.length ≤ n2 → renderMore env s n2 k i ⟨b, fh⟩ = some (some all)) ∧
    (n2 < all.length → renderMore env s n2 k i ⟨b, fh⟩ = some none) := by
  induction k with
  | zero => intro i b fh h1 h2; omega
  | succ k ih =>
    intro i b fh h1 _
    simp only
    rw [renderMore]
    simp only
    have hl := List.length_append (as := b) (bs := (textsFrom env fh (s.drop (i + 1))).flatten)
    by_cases hb : b.length > n2
    · rw [if_pos hb]
      exact ⟨fun h => by omega, fun _ => rfl⟩
    · rw [if_neg hb]
      by_cases hi : i + 1 = s.length
      · rw [if_neg (by simpa using hi)]
        have : s.drop (i + 1) = [] := List.drop_eq_nil_iff.2 (by omega)
        rw [this] at hl ⊢
        simp only [textsFrom, List.flatten_nil, List.append_nil] at hl ⊢
        exact ⟨fun _ => trivial, fun h => by omega⟩
      · rw [if_pos hi]
        obtain ⟨t, fh', g1, g2, g3⟩ := render_spec (env := env) (s := s) (i := i + 1) (by omega) b fh
        rw [g1, g3]
        simp only [Option.bind_eq_bind, Option.bind_some, List.flatten_cons, ← List.append_assoc]
        exact ih (by omega) (by omega)

theorem compareLoop_spec {lim : Limits} {n1 : Nat} (hm : lim.max2 < env.sizeMax) (k : Nat) :
    ∀ {i : Nat} {b : List Nat} {fh : Bool}, i + k = s.length → 0 < k →
    let all := b ++ (textsFrom env fh (s.drop (i + 1))).flatten
    (n1 + all.length ≤ lim.max2 → compareLoop env s lim n1 k i ⟨b, fh⟩ = some (some all)) ∧
    (lim.max2 < n1 + all.length → compareLoop env s lim n1 k i ⟨b, fh⟩ = some none) := by
  induction k with
  | zero => intro i b fh h1 h2; omega
  | succ k ih =>
    intro i b fh h1 _
    simp only
    rw [compareLoop]
    simp only
    have hsat : satAdd env n1 b.length > lim.max2 ↔ n1 + b.length > lim.max2 := by
      unfold satAdd; split <;> omega
    have hl := List.length_append (as := b) (bs := (textsFrom env fh (s.drop (i + 1))).flatten)
    by_cases hb : n1 + b.length > lim.max2
    · rw [if_pos (hsat.2 hb)]
      exact ⟨fun h => by omega, fun _ => rfl⟩
    · rw [if_neg (fun h => hb (hsat.1 h))]
      by_cases hi : i + 1 = s.length
      · rw [if_neg (by simpa using hi)]
        have : s.drop (i + 1) = [] := List.drop_eq_nil_iff.2 (by omega)
        rw [this] at hl ⊢
        simp only [textsFrom, List.flatten_nil, List.append_nil] at hl ⊢
        exact ⟨fun _ => trivial, fun h => by omega⟩
      · rw [if_pos hi]
        obtain ⟨t, fh', g1, g2, g3⟩ := render_spec (env := env) (s := s) (i := i + 1) (by omega) b fh
        rw [g1, g3]
        simp only [Option.bind_eq_bind, Option.bind_some, List.flatten_cons, ← List.append_assoc]
        exact ih (by omega) (by omega)

/-! ### The documented form -/

open Spec

theorem form_complete {q max : Nat} {T : List (List Nat)} {n : Nat} {out : List Nat} (h : T.flatten.length + 2 ≤ Max.max max 5)
    (hn : n = T.length) (ho : out = q :: (T.flatten ++ [q])) : QuotedForm q max T n out := by
  unfold QuotedForm
  simp only
  rw [if_pos (by rw [List.take_length]; exact h)]
  exact ⟨hn, by rw [ho]; simp⟩

theorem form_partial {q max : Nat} {P : List (List Nat)} {t : List Nat} {R : List (List Nat)} {out : List Nat}
    (h : ¬ (P ++ t :: R).flatten.length + 2 ≤ Max.max max 5) (h1 : P.flatten.length + 5 ≤ Max.max max 5)
    (h2 : Max.max max 5 < P.flatten.length + t.length + 5) (ho : out = q :: (P.flatten ++ (ellipsis ++ [q]))) :
    QuotedForm q max (P ++ t :: R) P.length out := by
  unfold QuotedForm
  simp only
  rw [if_neg (by rw [List.take_length]; exact h)]
  refine ⟨by simp, by rw [List.take_left' rfl]; exact h1, ?_, ?_⟩
  · intro m hm hs
    by_contra hlt
    have : m = P.length + (1 + (m - P.length - 1)) := by omega
    rw [this, List.take_length_add_append, Nat.add_comm 1, List.take_succ_cons] at hs
    simp only [List.flatten_append, List.flatten_cons, List.length_append] at hs
    omega
  · rw [ho, List.take_left' rfl]
    simp [ellipsis]

theorem finish_spec {i n2 : Nat} {t : List Nat} {fh' : Bool} (hi : i < s.length) :
    let all := t ++ (textsFrom env fh' (s.drop (i + 1))).flatten
    (all.length ≤ n2 → finish env s n2 i ⟨t, fh'⟩ = some (all ++ [env.quote])) ∧
    (n2 < all.length → finish env s n2 i ⟨t, fh'⟩ = some (ellipsis ++ [env.quote])) := by
  obtain ⟨h1, h2⟩ := renderMore_spec (env := env) (s := s) (n2 := n2) (s.length - i) (i := i) (b := t) (fh := fh') (by omega) (by omega)
  simp only at h1 h2 ⊢
  constructor
  · intro h; rw [finish, h1 h]; rfl
  · intro h; rw [finish, h2 h]; rfl

end Verif.Quote
