import Verif.Quote.Loop
import Verif.Quote.Read
/-!
Property theorems about quotation (claims C44 and C45).
-/
namespace Verif.Quote
open Spec

variable {env : Env} {s : List Nat} {maxSize : Nat}

/-- The texts that represent the individual characters of a string. They are characterized by `C45_texts`. -/
def texts (env : Env) (s : List Nat) : List (List Nat) := textsFrom env false s

/-- Characters that do not call for quotation. -/
def Plain (env : Env) (c : Nat) : Prop :=
  env.isPrint c = true ∧ c ≠ env.quote ∧ c ≠ '\\'.toNat ∧ env.isSpace c = false

/-- C44. For every string and every size limit, what is written is the documented quoted form. -/
theorem C44_quoted (hs5 : 5 ≤ env.sizeMax) (hover : NoOverflow env maxSize (texts env s)) :
    ∃ out n, doQuote env s maxSize false = some out ∧ QuotedForm env.quote maxSize (texts env s) n out := by
  obtain ⟨text, h1, n, h2⟩ := loop_ok (env := env) (s := s) (maxSize := maxSize) hover hs5 (s.length + 1) (A := []) (i1 := 0) (i2 := 0)
    (fh := false) ⟨rfl, rfl, rfl, Nat.zero_le _, by omega⟩ (by omega)
  refine ⟨_, n, ?_, h2⟩
  rw [doQuote, if_neg (by simp), h1]
  rfl

theorem find_plain (l : List Nat) : (∀ c ∈ l.take (find env false l), Plain env c) ∧
    ∀ m, m ≤ l.length → (∀ c ∈ l.take m, Plain env c) → m ≤ find env false l := by
  induction l with
  | nil => simp
  | cons c cs ih =>
    rw [find]
    have hiff : (¬ env.isSpace c = true ∧ ¬ (c = env.quote ∨ c = bslash ∨ ¬ env.isPrint c = true ∨ (false = true ∧ env.isXdigit c = true))) ↔
        Plain env c := by
      simp only [Plain, not_or, false_and, Bool.false_eq_true, not_false_eq_true, and_true, Bool.not_eq_true, Bool.not_eq_false]
      exact ⟨fun ⟨h1, h2, h3, h4⟩ => ⟨h4, h2, h3, h1⟩, fun ⟨h1, h2, h3, h4⟩ => ⟨h4, h2, h3, h1⟩⟩
    by_cases hc : Plain env c
    · rw [if_pos (hiff.2 hc)]
      refine ⟨?_, ?_⟩
      · rw [Nat.add_comm, List.take_succ_cons]
        intro x hx
        rcases List.mem_cons.1 hx with rfl | hx
        · exact hc
        · exact ih.1 x hx
      · intro m hm h
        cases m with
        | zero => omega
        | succ m =>
          have := ih.2 m (by simpa using hm) (fun x hx => h x (by rw [List.take_succ_cons]; exact List.mem_cons_of_mem _ hx))
          omega
    · rw [if_neg (fun h => hc (hiff.1 h))]
      refine ⟨by simp, ?_⟩
      intro m hm h
      cases m with
      | zero => omega
      | succ m => exact absurd (h c (by simp)) hc

theorem find_take (l : List Nat) (n : Nat) : find env false (l.take n) = min n (find env false l) := by
  induction l generalizing n with
  | nil => simp [find]
  | cons c cs ih =>
    cases n with
    | zero => simp [find]
    | succ n =>
      rw [List.take_succ_cons, find, find]
      split
      · rw [ih]; omega
      · omega

theorem texts_ge' : s.length ≤ (texts env s).flatten.length := texts_ge false s

/-- The unquoted form. -/
theorem unquoted_ok (hs5 : 5 ≤ env.sizeMax) (hover : NoOverflow env maxSize (texts env s)) :
    (unquotedSize env s (limits env maxSize).noMax maxSize = some none ∧ UnquotedForm (Plain env) maxSize s s.length s ∧
      find env false s = s.length ∧ s.length ≤ Max.max maxSize 3) ∨
    ∃ n, unquotedSize env s (limits env maxSize).noMax maxSize = some (some n) ∧ n < s.length ∧ n ≤ find env false s ∧ n + 3 ≤ Max.max maxSize 3 ∧
      UnquotedForm (Plain env) maxSize s n (s.take n ++ ellipsis) := by
  have hfl := find_le (env := env) false s
  obtain ⟨hp1, hp2⟩ := find_plain (env := env) s
  have hge := texts_ge' (env := env) (s := s)
  have hmax : (if maxSize ≥ 3 then maxSize else 3) = Max.max maxSize 3 := by split <;> omega
  have hno : (limits env maxSize).noMax = true → s.length ≤ Max.max maxSize 3 - 3 := by
    intro h
    rw [lim_noMax] at h
    have := hover h
    omega
  unfold unquotedSize
  rw [hmax]
  simp only
  -- the general conclusion
  have key : ∀ n, n = min (find env false s) (Max.max maxSize 3 - 3) → ¬ (s.length ≤ Max.max maxSize 3 ∧ ∀ c ∈ s, Plain env c) →
      UnquotedForm (Plain env) maxSize s n (s.take n ++ ellipsis) := by
    intro n hn hnot
    refine ⟨fun h => absurd h hnot, fun _ => ⟨by omega, by omega, ?_, ?_, rfl⟩⟩
    · intro c hc
      have : s.take n = (s.take (find env false s)).take n := by rw [List.take_take]; congr 1; omega
      rw [this] at hc
      exact hp1 c (List.mem_of_mem_take hc)
    · intro m h1 h2 h3
      have := hp2 m h1 h3
      omega
  by_cases hc : (limits env maxSize).noMax = true ∨ s.length ≤ Max.max maxSize 3
  · rw [if_pos hc]
    have hle : s.length ≤ Max.max maxSize 3 := by
      rcases hc with h | h
      · have := hno h; omega
      · exact h
    by_cases hf : find env false s = s.length
    · rw [if_pos hf]
      refine .inl ⟨rfl, ⟨fun _ => ⟨rfl, rfl⟩, fun h => absurd ⟨hle, ?_⟩ h⟩, hf, hle⟩
      rw [hf, List.take_length] at hp1
      exact hp1
    · rw [if_neg hf]
      have hnot : ¬ (s.length ≤ Max.max maxSize 3 ∧ ∀ c ∈ s, Plain env c) := by
        rintro ⟨_, h⟩
        have := hp2 s.length (Nat.le_refl _) (by rwa [List.take_length])
        omega
      by_cases hj : (limits env maxSize).noMax = true ∨ find env false s ≤ Max.max maxSize 3 - 3
      · rw [if_pos hj]
        have : find env false s ≤ Max.max maxSize 3 - 3 := by
          rcases hj with h | h
          · have := hno h; omega
          · exact h
        exact .inr ⟨_, rfl, by omega, Nat.le_refl _, by omega, key _ (by omega) hnot⟩
      · rw [if_neg hj]
        rw [not_or] at hj
        exact .inr ⟨_, rfl, by omega, by omega, by omega, key _ (by omega) hnot⟩
  · rw [if_neg hc]
    rw [not_or] at hc
    rw [sub_spec (by omega)]
    simp only [Option.bind_eq_bind, Option.bind_some, List.drop_zero]
    rw [find_take]
    exact .inr ⟨_, rfl, by omega, by omega, by omega, key _ (by omega) (fun h => hc.2 h.1)⟩

/-- What is known about any quoted form when the first `n` characters do not need to be escaped. -/
theorem form_size {q : Nat} {T : List (List Nat)} {n : Nat} {out : List Nat} (h : QuotedForm q maxSize T n out) :
    n ≤ T.length ∧ out.length ≤ Max.max maxSize 5 ∧
    (T.flatten.length + 2 ≤ Max.max maxSize 5 → n = T.length ∧ out.length = T.flatten.length + 2) ∧
    (¬ T.flatten.length + 2 ≤ Max.max maxSize 5 → out.length = (T.take n).flatten.length + 5 ∧
      (T.take n).flatten.length + 5 ≤ Max.max maxSize 5 ∧ ∀ m, m ≤ T.length → (T.take m).flatten.length + 5 ≤ Max.max maxSize 5 → m ≤ n) := by
  unfold QuotedForm at h
  simp only [List.take_length] at h
  by_cases hc : T.flatten.length + 2 ≤ Max.max maxSize 5
  · rw [if_pos hc] at h
    obtain ⟨h1, h2⟩ := h
    have hl : out.length = T.flatten.length + 2 := by
      rw [h2, List.length_append, List.length_append, List.length_singleton]; omega
    exact ⟨by omega, by omega, fun _ => ⟨h1, hl⟩, fun h => absurd hc h⟩
  · rw [if_neg hc] at h
    obtain ⟨h1, h2, h3, h4⟩ := h
    have hl : out.length = (T.take n).flatten.length + 5 := by
      rw [h4, List.length_append, List.length_append, List.length_append, List.length_singleton, List.length_map]
      have : "...".toList.length = 3 := by decide
      omega
    exact ⟨h1, by omega, fun h => absurd h hc, fun _ => ⟨hl, h2, h3⟩⟩

theorem take_singles {l : List Nat} {R : List (List Nat)} {m : Nat} (hm : m ≤ l.length) :
    ((l.map ([·]) ++ R).take m).flatten.length = m := by
  rw [List.take_append_of_le_length (by simpa using hm), ← List.map_take, singles_flatten, List.length_take]
  omega

/-- C44. For every string and every size limit, what is written in smart mode is the documented choice between the documented unquoted
form and the documented quoted form. -/
theorem C44_smart (hs5 : 5 ≤ env.sizeMax) (hm : maxSize ≤ env.sizeMax) (hover : NoOverflow env maxSize (texts env s)) :
    ∃ out nu u nq q, doQuote env s maxSize true = some out ∧ UnquotedForm (Plain env) maxSize s nu u ∧
      QuotedForm env.quote maxSize (texts env s) nq q ∧
      (s ≠ [] ∧ PreferUnquoted maxSize u.length nu q.length nq → out = u) ∧
      (¬ (s ≠ [] ∧ PreferUnquoted maxSize u.length nu q.length nq) → out = q) := by
  obtain ⟨q, nq, hq, hqf⟩ := C44_quoted (env := env) (s := s) (maxSize := maxSize) hs5 hover
  have hlen : (texts env s).length = s.length := textsFrom_length false s
  have hel : ellipsis.length = 3 := rfl
  by_cases hnil : s = []
  · obtain ⟨nu, u, hu⟩ : ∃ nu u, UnquotedForm (Plain env) maxSize s nu u := by
      rcases unquoted_ok (env := env) (s := s) (maxSize := maxSize) hs5 hover with ⟨_, h, _⟩ | ⟨n, _, _, _, _, h⟩
      · exact ⟨_, _, h⟩
      · exact ⟨_, _, h⟩
    refine ⟨q, nu, u, nq, q, ?_, hu, hqf, fun h => absurd hnil h.1, fun _ => rfl⟩
    rw [doQuote, if_neg (by simp [hnil])]
    rw [doQuote, if_neg (by simp)] at hq
    exact hq
  · obtain ⟨f1, f2, f3, f4⟩ := form_size hqf
    rw [doQuote, if_pos ⟨rfl, hnil⟩]
    rcases unquoted_ok (env := env) (s := s) (maxSize := maxSize) hs5 hover with ⟨h1, h2, h3, h4⟩ | ⟨n, h1, h2, h3, h4, h5⟩
    · refine ⟨s, _, _, nq, q, by rw [h1]; rfl, h2, hqf, fun _ => rfl, fun h => ?_⟩
      refine absurd ⟨hnil, ?_⟩ h
      -- everything is plain
      have hT : texts env s = s.map ([·]) ++ [] := by
        have := find_texts (env := env) false s s.length (by omega)
        rw [List.drop_length, List.take_length] at this
        exact this
      have hTl : (texts env s).flatten.length = s.length := by rw [hT, List.append_nil, singles_flatten]
      unfold PreferUnquoted
      split
      · omega
      · by_cases hc : (texts env s).flatten.length + 2 ≤ Max.max maxSize 5
        · have := f3 hc; omega
        · obtain ⟨g1, g2, g3⟩ := f4 hc
          rw [hT, take_singles (by omega)] at g1 g2
          have := g3 (Max.max maxSize 5 - 5) (by omega) (by rw [hT, take_singles (by omega)]; omega)
          omega
    · -- there is something that is not included in the unquoted form
      obtain ⟨t, fh', r1, r2, r3⟩ := render_spec (env := env) (s := s) (i := n) h2 [] false
      rw [List.nil_append] at r1
      have hT : texts env s = (s.take n).map ([·]) ++ t :: textsFrom env fh' (s.drop (n + 1)) := by
        have := find_texts (env := env) false s n h3
        rw [show (if n > 0 then false else false) = false by split <;> rfl, r3] at this
        exact this
      have htn : (s.take n).length = n := by rw [List.length_take]; omega
      have hTt : ∀ m ≤ n, ((texts env s).take m).flatten.length = m := fun m hm => by
        rw [hT, take_singles (by omega)]
      have hTn : ((texts env s).take (n + 1)).flatten.length = n + t.length := by
        have : n + 1 = ((s.take n).map ([·])).length + 1 := by rw [List.length_map, htn]
        rw [hT, this, List.take_length_add_append, List.take_succ_cons, List.take_zero, List.flatten_append, singles_flatten]
        simp only [List.flatten_cons, List.flatten_nil, List.append_nil, List.length_append, htn]
      have hTl : (texts env s).flatten.length = n + (t ++ (textsFrom env fh' (s.drop (n + 1))).flatten).length := by
        rw [hT, List.flatten_append, singles_flatten, List.flatten_cons, List.length_append, htn]
      have hul : (s.take n ++ ellipsis).length = n + 3 := by rw [List.length_append, htn, hel]
      have hl2 : (limits env maxSize).max2 = Max.max maxSize 5 - 2 := lim_max2
      have hl3 : (limits env maxSize).max3 = Max.max maxSize 5 - 5 := lim_max3
      have htl : (t ++ (textsFrom env fh' (s.drop (n + 1))).flatten).length = t.length + (textsFrom env fh' (s.drop (n + 1))).flatten.length :=
        List.length_append
      rw [h1]
      simp only [Option.bind_eq_bind, Option.bind_some]
      rw [r1, sub_spec (by omega)]
      simp only [Option.bind_some, List.drop_zero]
      by_cases hA : (limits env maxSize).noMax = true ∨ satAdd env n t.length ≤ (limits env maxSize).max3
      · rw [if_pos hA]
        have hfit : n + t.length + 5 ≤ Max.max maxSize 5 := by
          rcases hA with h | h
          · have := hover (lim_noMax.1 h)
            have := lim_noMax.1 h
            omega
          · unfold satAdd at h
            split at h <;> omega
        obtain ⟨text, l1, nq', l2⟩ := loop_ok (env := env) (s := s) (maxSize := maxSize) hover hs5 (s.length + 1)
          (A := (s.take n).map ([·]) ++ [t]) (i1 := n + 1) (i2 := n + t.length) (fh := fh')
          ⟨by rw [show textsFrom env false s = texts env s from rfl, hT]; simp, by rw [List.length_append, singles_len, htn]; rfl, by
            rw [List.flatten_append, singles_flatten, List.length_append, htn]; simp, by omega, hfit⟩ (by omega)
        rw [l1]
        simp only [Option.bind_some]
        rw [List.flatten_append, singles_flatten] at l2
        simp only [List.flatten_cons, List.flatten_nil, List.append_nil] at l2
        refine ⟨_, n, _, nq', _, rfl, h5, l2, fun h => ?_, fun _ => rfl⟩
        obtain ⟨_, h⟩ := h
        obtain ⟨e1, e2, e3, e4⟩ := form_size l2
        rw [hul] at h
        unfold PreferUnquoted at h
        have hmore : n < nq' := by
          by_cases hc : (texts env s).flatten.length + 2 ≤ Max.max maxSize 5
          · have := e3 hc
            have : (textsFrom env false s).length = s.length := hlen
            omega
          · have hlen' : (textsFrom env false s).length = s.length := hlen
            exact (e4 hc).2.2 (n + 1) (by omega) (by rw [show textsFrom env false s = texts env s from rfl, hTn]; omega)
        rw [if_pos (by constructor <;> omega)] at h
        omega
      · rw [if_neg hA]
        rw [not_or, lim_noMax] at hA
        have hnfit : Max.max maxSize 5 < n + t.length + 5 := by
          have := hA.2
          unfold satAdd at this
          split at this <;> omega
        obtain ⟨c1, c2⟩ := compareLoop_spec (env := env) (s := s) (lim := limits env maxSize) (n1 := n) (by omega) (s.length - n) (i := n)
          (b := t) (fh := fh') (by omega) (by omega)
        by_cases hC : n + (t ++ (textsFrom env fh' (s.drop (n + 1))).flatten).length ≤ (limits env maxSize).max2
        · rw [c1 hC]
          simp only [Option.bind_some]
          have hsat : satAdd env n (t ++ (textsFrom env fh' (s.drop (n + 1))).flatten).length =
              n + (t ++ (textsFrom env fh' (s.drop (n + 1))).flatten).length := by
            unfold satAdd; rw [if_pos (by omega)]
          rw [hsat]
          obtain ⟨e1, e2⟩ := f3 (by omega)
          have hqe : q = env.quote :: (s.take n ++ (t ++ (textsFrom env fh' (s.drop (n + 1))).flatten ++ [env.quote])) := by
            unfold QuotedForm at hqf
            simp only [List.take_length] at hqf
            rw [if_pos (by omega)] at hqf
            rw [hqf.2, hT, List.flatten_append, singles_flatten, List.flatten_cons]
            simp
          generalize (t ++ (textsFrom env fh' (s.drop (n + 1))).flatten) = buf at *
          by_cases hD : ¬ (n + buf.length > maxSize ∨ 2 > maxSize - (n + buf.length)) ∨ ¬ (buf.length > 3 ∨ 2 > 3 - buf.length)
          · rw [if_pos hD]
            refine ⟨_, n, _, nq, q, rfl, h5, hqf, fun h => ?_, fun _ => hqe.symm⟩
            obtain ⟨_, h⟩ := h
            rw [hul] at h
            unfold PreferUnquoted at h
            split at h <;> omega
          · rw [if_neg hD]
            refine ⟨_, n, _, nq, q, rfl, h5, hqf, fun _ => rfl, fun h => absurd ⟨hnil, ?_⟩ h⟩
            rw [hul]
            unfold PreferUnquoted
            rw [if_neg (by omega)]
            omega
        · rw [c2 (by omega)]
          simp only [Option.bind_some]
          refine ⟨_, n, _, nq, q, rfl, h5, hqf, fun _ => rfl, fun h => absurd ⟨hnil, ?_⟩ h⟩
          obtain ⟨e1, e2, e3⟩ := f4 (by omega)
          rw [hul]
          have hnq : nq ≤ n := by
            by_contra hlt
            have h6 : (texts env s).take (n + 1) = ((texts env s).take nq).take (n + 1) := by
              rw [List.take_take]; congr 1; omega
            have h7 : ((texts env s).take (n + 1)).flatten.length ≤ ((texts env s).take nq).flatten.length := by
              rw [h6]
              conv => rhs; rw [← List.take_append_drop (n + 1) ((texts env s).take nq), List.flatten_append, List.length_append]
              omega
            omega
          rw [hTt nq hnq] at e1 e2
          unfold PreferUnquoted
          split
          · exact hnq
          · by_cases h6 : nq = n
            · omega
            · have := e3 (nq + 1) (by omega)
              rw [hTt (nq + 1) (by omega)] at this
              omega

/-- C44. What is written is never larger than specified, except that there is always room for an ellipsis and two quotation
characters. -/
theorem C44_size (hs5 : 5 ≤ env.sizeMax) (hm : maxSize ≤ env.sizeMax) (hover : NoOverflow env maxSize (texts env s)) (smart : Bool) :
    ∃ out, doQuote env s maxSize smart = some out ∧ out.length ≤ Max.max maxSize 5 := by
  cases smart with
  | false =>
    obtain ⟨out, n, h1, h2⟩ := C44_quoted (env := env) (s := s) (maxSize := maxSize) hs5 hover
    exact ⟨out, h1, (form_size h2).2.1⟩
  | true =>
    obtain ⟨out, nu, u, nq, q, h1, h2, h3, h4, h5⟩ := C44_smart (env := env) (s := s) (maxSize := maxSize) hs5 hm hover
    refine ⟨out, h1, ?_⟩
    by_cases h : s ≠ [] ∧ PreferUnquoted maxSize u.length nu q.length nq
    · rw [h4 h]
      by_cases hc : s.length ≤ Max.max maxSize 3 ∧ ∀ c ∈ s, Plain env c
      · have := (h2.1 hc).2
        rw [this]; omega
      · obtain ⟨g1, g2, _, _, g3⟩ := h2.2 hc
        rw [g3, List.length_append, List.length_take, List.length_map]
        have : "...".toList.length = 3 := by decide
        omega
    · rw [h5 h]
      exact (form_size h3).2.1

/-- C45. Every character of the string has a text, and the texts of the first `n` characters, in quotes, are a literal that denotes the
string of these characters. -/
theorem C45_texts (hs : Sane env) (s : List Nat) (n : Nat) : (texts env s).length = s.length ∧
    literal env.quote ([env.quote] ++ ((texts env s).take n).flatten ++ [env.quote]) = some (s.take n) := by
  refine ⟨textsFrom_length false s, ?_⟩
  rw [List.append_assoc, List.singleton_append, literal, if_pos rfl]
  have hq1 : octDigit env.quote = none := by rcases hs.quote with h | h <;> rw [h] <;> decide
  have hq2 : hexDigit env.quote = none := by rcases hs.quote with h | h <;> rw [h] <;> decide
  have := rest_texts hs (y := env.quote) (Y := []) hq1 hq2 s false n
  rw [show textsFrom env false s = texts env s from rfl] at this
  rw [this]
  have hr : rest env.quote .normal [env.quote] = some [] := by
    rw [rest, next, between, if_pos rfl]
    simp
  rw [hr]; simp

/-- C45. The string can be recovered from its complete quotation by application of the rules for literals. -/
theorem C45_complete (hs : Sane env) (hs5 : 5 ≤ env.sizeMax) (hover : NoOverflow env env.sizeMax (texts env s)) :
    ∃ out, doQuote env s env.sizeMax false = some out ∧ literal env.quote out = some s := by
  obtain ⟨out, n, h1, h2⟩ := C44_quoted (env := env) (s := s) (maxSize := env.sizeMax) hs5 hover
  refine ⟨out, h1, ?_⟩
  have := hover rfl
  unfold QuotedForm at h2
  simp only [List.take_length] at h2
  rw [if_pos (by omega)] at h2
  have h3 := (C45_texts hs s s.length).2
  rw [List.take_length, ← (C45_texts hs s 0).1, List.take_length] at h3
  rw [h2.2, h3]

/-- C45. Different strings have different complete quotations. -/
theorem C45_injective (hs : Sane env) (hs5 : 5 ≤ env.sizeMax) {s₁ s₂ : List Nat} (h₁ : NoOverflow env env.sizeMax (texts env s₁))
    (h₂ : NoOverflow env env.sizeMax (texts env s₂)) (h : doQuote env s₁ env.sizeMax false = doQuote env s₂ env.sizeMax false) :
    s₁ = s₂ := by
  obtain ⟨o1, g1, g2⟩ := C45_complete hs hs5 h₁
  obtain ⟨o2, g3, g4⟩ := C45_complete hs hs5 h₂
  rw [g1, g3] at h
  injection h with h
  subst h
  rw [g2] at g4
  exact Option.some.inj g4

/-- C45. A quotation that is not complete is a literal that denotes a proper prefix of the string, followed by an ellipsis. -/
theorem C45_truncated (hs : Sane env) {n : Nat} {out : List Nat} (h : QuotedForm env.quote maxSize (texts env s) n out)
    (hc : ¬ (texts env s).flatten.length + 2 ≤ Max.max maxSize 5) :
    literal env.quote out = some (s.take n ++ "...".toList.map Char.toNat) ∧ n < s.length := by
  have hlen : (texts env s).length = s.length := textsFrom_length false s
  obtain ⟨_, _, _, f4⟩ := form_size h
  obtain ⟨g1, g2, g3⟩ := f4 hc
  unfold QuotedForm at h
  simp only [List.take_length] at h
  rw [if_neg hc] at h
  obtain ⟨h1, _, _, h4⟩ := h
  constructor
  · rw [h4]
    rw [List.append_assoc, List.append_assoc, List.singleton_append, literal, if_pos rfl]
    have := rest_texts hs (y := 46) (Y := [46, 46, env.quote]) (by decide) (by decide) s false n
    rw [show textsFrom env false s = texts env s from rfl] at this
    rw [show "...".toList.map Char.toNat ++ [env.quote] = 46 :: [46, 46, env.quote] from rfl, this]
    have hr : rest env.quote .normal (46 :: [46, 46, env.quote]) = some [46, 46, 46] := by
      rcases hs.quote with h | h <;> rw [h] <;> decide
    rw [hr]
    rfl
  · rcases Nat.lt_or_ge n s.length with h5 | h5
    · exact h5
    · rw [List.take_of_length_le (by omega)] at g2
      omega

/-- C45. Also in smart mode, the string can be recovered from what is written when there is no size limit: if it starts with a quotation
character, it is a literal that denotes the string. Otherwise, it is the string. -/
theorem C45_smart (hs : Sane env) (hs5 : 5 ≤ env.sizeMax) (hover : NoOverflow env env.sizeMax (texts env s)) :
    ∃ out, doQuote env s env.sizeMax true = some out ∧
      (if out.head? = some env.quote then literal env.quote out else some out) = some s := by
  obtain ⟨out, nu, u, nq, q, h1, h2, h3, h4, h5⟩ := C44_smart (env := env) (s := s) (maxSize := env.sizeMax) hs5 (Nat.le_refl _) hover
  refine ⟨out, h1, ?_⟩
  have hov := hover rfl
  have hge := texts_ge' (env := env) (s := s)
  have hlen : (texts env s).length = s.length := textsFrom_length false s
  obtain ⟨f1, f2, f3, f4⟩ := form_size h3
  obtain ⟨e1, e2⟩ := f3 (by omega)
  have hq : literal env.quote q = some s ∧ q.head? = some env.quote := by
    unfold QuotedForm at h3
    simp only [List.take_length] at h3
    rw [if_pos (by omega)] at h3
    have h3' := (C45_texts hs s s.length).2
    rw [List.take_length, ← (C45_texts hs s 0).1, List.take_length] at h3'
    rw [h3.2, h3']
    simp
  by_cases hp : s ≠ [] ∧ PreferUnquoted env.sizeMax u.length nu q.length nq
  · rw [h4 hp]
    by_cases hc : s.length ≤ Max.max env.sizeMax 3 ∧ ∀ c ∈ s, Plain env c
    · rw [(h2.1 hc).2]
      rw [if_neg]
      intro h
      have := hc.2 env.quote (List.mem_of_mem_head? h)
      exact this.2.1 rfl
    · obtain ⟨g1, g2, g3, g4, g5⟩ := h2.2 hc
      exfalso
      have hul : u.length = nu + 3 := by
        rw [g5, List.length_append, List.length_take, List.length_map]
        have : "...".toList.length = 3 := by decide
        omega
      have hlt : nu < s.length := by
        rcases Nat.lt_or_ge nu s.length with h | h
        · exact h
        · rw [List.take_of_length_le h] at g3
          exact absurd ⟨by omega, g3⟩ hc
      have := hp.2
      unfold PreferUnquoted at this
      rw [if_pos (by omega)] at this
      omega
  · rw [h5 hp, if_pos hq.2, hq.1]

theorem char_hex {fh : Bool} {c : Nat} {nx : Option Nat} (h : (renderChar env fh c nx).2 = true) :
    ∃ t, (renderChar env fh c nx).1 = bslash :: 120 :: t := by
  unfold renderChar renderSpecial renderNumeric at h ⊢
  by_cases hp : env.isPrint c = true ∧ (¬ fh = true ∨ ¬ env.isXdigit c = true)
  · rw [if_pos hp] at h
    split at h <;> simp at h
  · rw [if_neg hp] at h ⊢
    split at h
    all_goals first | (simp at h; done) | skip
    split at h
    · simp at h
    · rename_i hc
      rw [if_neg hc]
      exact ⟨_, rfl⟩

theorem texts_special (l : List Nat) : ∀ (fh : Bool) (k : Nat) (c : Nat) (t : List Nat), l[k]? = some c →
    (textsFrom env fh l)[k]? = some t → t ≠ [c] → env.isPrint c = false ∨ c = env.quote ∨ c = bslash ∨
      (env.isXdigit c = true ∧ (k = 0 → fh = true) ∧ (0 < k → ∃ t', (textsFrom env fh l)[k - 1]? = some (bslash :: 120 :: t'))) := by
  induction l with
  | nil => intro fh k c t h; simp at h
  | cons x xs ih =>
    intro fh k c t h1 h2 h3
    cases k with
    | zero =>
      simp only [List.getElem?_cons_zero, Option.some.injEq] at h1
      subst h1
      rw [textsFrom, List.getElem?_cons_zero, Option.some.injEq] at h2
      unfold renderChar at h2
      by_cases hp : env.isPrint x = true ∧ (¬ fh = true ∨ ¬ env.isXdigit x = true)
      · rw [if_pos hp] at h2
        by_cases hc : x ≠ env.quote ∧ x ≠ bslash
        · rw [if_pos hc] at h2
          exact absurd h2.symm h3
        · by_cases hq : x = env.quote
          · exact .inr (.inl hq)
          · refine .inr (.inr (.inl ?_))
            by_contra hb
            exact hc ⟨hq, hb⟩
      · by_cases hpr : env.isPrint x = true
        · have : ¬ (¬ fh = true ∨ ¬ env.isXdigit x = true) := fun h => hp ⟨hpr, h⟩
          rw [not_or, not_not, not_not] at this
          exact .inr (.inr (.inr ⟨this.2, fun _ => this.1, fun h => absurd h (by omega)⟩))
        · exact .inl (by simpa using hpr)
    | succ k =>
      rw [List.getElem?_cons_succ] at h1
      rw [textsFrom, List.getElem?_cons_succ] at h2
      rcases ih _ k c t h1 h2 h3 with h | h | h | ⟨h4, h5, h6⟩
      · exact .inl h
      · exact .inr (.inl h)
      · exact .inr (.inr (.inl h))
      · refine .inr (.inr (.inr ⟨h4, fun h => absurd h (by omega), fun _ => ?_⟩))
        rw [textsFrom]
        cases k with
        | zero =>
          obtain ⟨t', ht⟩ := char_hex (h5 rfl)
          exact ⟨t', by rw [← ht]; rfl⟩
        | succ k =>
          obtain ⟨t', ht⟩ := h6 (by omega)
          exact ⟨t', by simpa using ht⟩

/-- C45. Nothing is escaped without reason: if the text of a character is not the character itself, then the character is not printable,
or it is the quotation character or a backslash, or it is a hexadecimal digit that follows a character whose text is a hexadecimal
escape sequence. -/
theorem C45_minimal (k c : Nat) (t : List Nat) (h1 : s[k]? = some c) (h2 : (texts env s)[k]? = some t) (h3 : t ≠ [c]) :
    env.isPrint c = false ∨ c = env.quote ∨ c = '\\'.toNat ∨
      (env.isXdigit c = true ∧ 0 < k ∧ ∃ t', (texts env s)[k - 1]? = some ('\\'.toNat :: 'x'.toNat :: t')) := by
  rcases texts_special s false k c t h1 h2 h3 with h | h | h | ⟨h4, h5, h6⟩
  · exact .inl h
  · exact .inr (.inl h)
  · exact .inr (.inr (.inl h))
  · have hk : 0 < k := by
      rcases Nat.eq_zero_or_pos k with hk | hk
      · exact absurd (h5 hk) (by simp)
      · exact hk
    exact .inr (.inr (.inr ⟨h4, hk, h6 hk⟩))

/-! ### Examples -/

/-- ASCII with a 64-bit `std::size_t`. -/
def ascii : Env where
  isPrint c := 32 ≤ c ∧ c ≤ 126
  isSpace c := (9 ≤ c ∧ c ≤ 13) ∨ c = 32
  isXdigit c := (48 ≤ c ∧ c ≤ 57) ∨ (65 ≤ c ∧ c ≤ 70) ∨ (97 ≤ c ∧ c ≤ 102)
  narrow c := if c < 128 then c else 0
  quote := 34
  sizeMax := 2 ^ 64 - 1

def codes (s : String) : List Nat := s.toList.map Char.toNat

example : Sane ascii where
  narrow c h1 h2 := by
    simp only [ascii] at *
    split at h1 <;> simp_all
  xdigit c h := by
    unfold hexDigit at h
    simp only [ascii, decide_eq_true_eq]
    by_contra hc
    apply h
    rw [if_neg, if_neg, if_neg]
    · show ¬ (65 ≤ c ∧ c ≤ 70); omega
    · show ¬ (97 ≤ c ∧ c ≤ 102); omega
    · show ¬ (48 ≤ c ∧ c ≤ 57); omega
  quote := .inl rfl

example : doQuote ascii (codes "foo bar") 9 false = some (codes "\"foo bar\"") := by decide +kernel
example : doQuote ascii (codes "foo bar") 8 false = some (codes "\"foo...\"") := by decide +kernel
example : doQuote ascii (codes "foo\"bar") (2 ^ 64 - 1) false = some (codes "\"foo\\\"bar\"") := by decide +kernel
example : doQuote ascii (codes "foo bar") 6 true = some (codes "foo...") := by decide +kernel
example : doQuote ascii (codes "xy") (2 ^ 64 - 1) true = some (codes "xy") := by decide +kernel
example : doQuote ascii (codes "x y") (2 ^ 64 - 1) true = some (codes "\"x y\"") := by decide +kernel
example : doQuote ascii [1, 49, 1000, 97, 10] (2 ^ 64 - 1) false = some (codes "\"\\0011\\x3e8\\141\\n\"") := by decide +kernel
example : literal 34 (codes "\"\\0011\\x3e8\\141\\n\"") = some [1, 49, 1000, 97, 10] := by decide +kernel
example : literal 34 (codes "\"\\11\\x3e8a\"") = some [9, 16010] := by decide +kernel

/-- The quoted form is documented as the escaped form of the longest prefix that fits. However, in the code, how a character is escaped
depends on the character that follows it, even if that character is not part of the prefix: the prefix that consists of the first
character of this string, when escaped, is `\1`, and then the quoted form with ellipsis has size 7, but what is written is the ellipsis
alone. -/
theorem C44_context : doQuote ascii [1, 55, 55, 55, 55, 55] 7 false = some (codes "\"...\"") ∧
    texts ascii [1] = [codes "\\1"] ∧ (codes "\"\\1...\"").length = 7 := by decide +kernel

end Verif.Quote
