import Verif.Newline.Model
import Verif.Newline.Spec

namespace Verif.Newline
open Spec

theorem fromWindows_cons_ne {c : Char} (h : c ≠ '\r') (t : List Char) :
    fromWindows (c :: t) = c :: fromWindows t := by
  cases t with
  | nil => simp [fromWindows]
  | cons d t => simp [fromWindows, h]

theorem fromWindows_cons_ne' (c : Char) {d : Char} (h : d ≠ '\n') (t : List Char) :
    fromWindows (c :: d :: t) = c :: fromWindows (d :: t) := by
  simp [fromWindows, h]

theorem fromWindows_crlf (t : List Char) :
    fromWindows ('\r' :: '\n' :: t) = '\n' :: fromWindows t := by
  simp [fromWindows]

theorem fromWindows_toWindows (s : List Char) : fromWindows (toWindows s) = s := by
  induction s with
  | nil => rfl
  | cons c s ih =>
    unfold toWindows at ih ⊢
    rw [List.flatMap_cons]
    by_cases hc : c = '\n'
    · subst hc
      simp [fromWindows_crlf, ih]
    · simp only [hc, if_false, List.singleton_append]
      by_cases hr : c = '\r'
      · subst hr
        -- next character of the encoded form is never NL
        cases s with
        | nil => simp [fromWindows]
        | cons d s =>
          rw [List.flatMap_cons] at ih ⊢
          by_cases hd : d = '\n'
          · subst hd
            simp only [if_true, List.cons_append, List.nil_append] at ih ⊢
            rw [fromWindows_cons_ne' _ (by decide), ih]
          · simp only [hd, if_false, List.singleton_append] at ih ⊢
            rw [fromWindows_cons_ne' _ hd, ih]
      · rw [fromWindows_cons_ne hr, ih]

/-- What one run of the decoding loop achieves. -/
theorem decodeLoop_spec (n : Nat) (e : Bool) (co : Nat) (data : List Char) (s : DecState)
    (hs : s.out.length ≤ n) :
    ∃ w m, (decodeLoop n e co data s).out = s.out ++ w ∧
      (decodeLoop n e co data s).i = s.i + m ∧ m ≤ data.length ∧
      s.out.length + w.length ≤ n ∧
      fromWindows data = w ++ fromWindows (data.drop m) ∧
      (e = false → ∀ rest, fromWindows (data ++ rest) = w ++ fromWindows (data.drop m ++ rest)) ∧
      (s.out.length + w.length = n ∨ data.drop m = [] ∨ (e = false ∧ data.drop m = ['\r'])) := by
  induction data, s using decodeLoop.induct n e co with
  | case1 s => exact ⟨[], 0, by simp [decodeLoop]; omega⟩
  | case2 ch rest s hlt hne ih =>
    obtain ⟨w, m, h1, h2, h3, h4, h5, h6, h7⟩ := ih (by simp; omega)
    rw [decodeLoop.eq_def]
    simp only [hlt, hne, if_true, ne_eq, not_false_eq_true]
    refine ⟨ch :: w, m + 1, ?_⟩
    simp only [List.length_append, List.length_cons, List.length_nil] at *
    refine ⟨by simp [h1], by omega, by omega, by omega, ?_, ?_, ?_⟩
    · rw [fromWindows_cons_ne hne]; simp [h5]
    · intro he r
      rw [List.cons_append, fromWindows_cons_ne hne]; simp [h6 he]
    · simpa [Nat.add_assoc, Nat.add_comm, Nat.add_left_comm] using h7
  | case3 ch s hlt hcr rest2 ih =>
    obtain ⟨w, m, h1, h2, h3, h4, h5, h6, h7⟩ := ih (by simp; omega)
    have hcr : ch = '\r' := by simpa using hcr
    subst hcr
    rw [decodeLoop.eq_def]
    simp only [hlt, if_true, ne_eq, not_true_eq_false, if_false]
    refine ⟨'\n' :: w, m + 2, ?_⟩
    simp only [List.length_append, List.length_cons, List.length_nil] at *
    refine ⟨by simp [h1], by omega, by omega, by omega, ?_, ?_, ?_⟩
    · rw [fromWindows_crlf]; simp [h5]
    · intro he r
      rw [List.cons_append, List.cons_append, fromWindows_crlf]; simp [h6 he]
    · simpa [Nat.add_assoc, Nat.add_comm, Nat.add_left_comm] using h7
  | case4 ch s hlt hcr ch2 rest2 hnl ih =>
    obtain ⟨w, m, h1, h2, h3, h4, h5, h6, h7⟩ := ih (by simp; omega)
    have hcr : ch = '\r' := by simpa using hcr
    subst hcr
    rw [decodeLoop.eq_def]
    simp only [hlt, if_true, ne_eq, not_true_eq_false, if_false, hnl]
    refine ⟨'\r' :: w, m + 1, ?_⟩
    simp only [List.length_append, List.length_cons, List.length_nil] at *
    refine ⟨by simp [h1], by omega, by omega, by omega, ?_, ?_, ?_⟩
    · rw [fromWindows_cons_ne' _ hnl]; simp [h5]
    · intro he r
      rw [List.cons_append, List.cons_append, fromWindows_cons_ne' _ hnl]
      have := h6 he r
      rw [List.cons_append] at this
      simp [this]
    · simpa [Nat.add_assoc, Nat.add_comm, Nat.add_left_comm] using h7
  | case5 ch s hlt hcr he ih =>
    have hcr : ch = '\r' := by simpa using hcr
    subst hcr
    rw [decodeLoop.eq_def]
    simp only [hlt, if_true, ne_eq, not_true_eq_false, if_false, he]
    refine ⟨['\r'], 1, by simp [decodeLoop], by simp [decodeLoop], by simp, by simp; omega,
      by simp [fromWindows], by simp, by simp⟩
  | case6 ch s hlt hcr he =>
    have hcr : ch = '\r' := by simpa using hcr
    subst hcr
    rw [decodeLoop.eq_def]
    simp only [hlt, if_true, ne_eq, not_true_eq_false, if_false, he]
    exact ⟨[], 0, by simp, by simp, by simp, by simp; omega, by simp, by simp, by simp⟩
  | case7 ch rest s hlt =>
    rw [decodeLoop.eq_def]
    simp only [hlt, if_false]
    exact ⟨[], 0, by simp, by simp, by simp, by simp; omega, by simp, by simp, by simp; omega⟩

/-- What one run of the decoding loop does to `clear`. -/
theorem decodeLoop_clear (n : Nat) (e : Bool) (co : Nat) (data : List Char) (s : DecState) :
    ∃ m, (decodeLoop n e co data s).i = s.i + m ∧
      ((decodeLoop n e co data s).clear = s.clear ∧
          (decodeLoop n e co data s).out = s.out ++ data.take m ∨
        ∃ pre verb, data.take m = pre ++ '\r' :: '\n' :: verb ∧
          (decodeLoop n e co data s).out = s.out ++ fromWindows pre ++ '\n' :: verb ∧
          (decodeLoop n e co data s).clear = co + (s.out.length + (fromWindows pre).length + 1)) := by
  induction data, s using decodeLoop.induct n e co with
  | case1 s => exact ⟨0, by simp [decodeLoop]⟩
  | case2 ch rest s hlt hne ih =>
    obtain ⟨m, h1, h2⟩ := ih
    rw [decodeLoop.eq_def]
    simp only [hlt, hne, if_true, ne_eq, not_false_eq_true]
    refine ⟨m + 1, by simp only at h1; omega, ?_⟩
    rcases h2 with ⟨h2, h3⟩ | ⟨pre, verb, h2, h3, h4⟩
    · exact .inl ⟨h2, by simp [h3]⟩
    · refine .inr ⟨ch :: pre, verb, by simp [h2], ?_, ?_⟩
      · rw [h3, fromWindows_cons_ne hne]; simp
      · rw [h4, fromWindows_cons_ne hne]; simp; omega
  | case3 ch s hlt hcr rest2 ih =>
    obtain ⟨m, h1, h2⟩ := ih
    have hcr : ch = '\r' := by simpa using hcr
    subst hcr
    rw [decodeLoop.eq_def]
    simp only [hlt, if_true, ne_eq, not_true_eq_false, if_false]
    refine ⟨m + 2, by simp only at h1; omega, .inr ?_⟩
    rcases h2 with ⟨h2, h3⟩ | ⟨pre, verb, h2, h3, h4⟩
    · refine ⟨[], rest2.take m, by simp, by simp [h3, fromWindows], by simp [h2, fromWindows]⟩
    · refine ⟨'\r' :: '\n' :: pre, verb, by simp [h2], ?_, ?_⟩
      · rw [h3, fromWindows_crlf]; simp
      · rw [h4, fromWindows_crlf]; simp; omega
  | case4 ch s hlt hcr ch2 rest2 hnl ih =>
    obtain ⟨m, h1, h2⟩ := ih
    have hcr : ch = '\r' := by simpa using hcr
    subst hcr
    rw [decodeLoop.eq_def]
    simp only [hlt, if_true, ne_eq, not_true_eq_false, if_false, hnl]
    refine ⟨m + 1, by simp only at h1; omega, ?_⟩
    rcases h2 with ⟨h2, h3⟩ | ⟨pre, verb, h2, h3, h4⟩
    · exact .inl ⟨h2, by simp [h3]⟩
    · have key : fromWindows ('\r' :: pre) = '\r' :: fromWindows pre := by
        cases pre with
        | nil => simp [fromWindows]
        | cons p pre =>
          cases m with
          | zero => simp at h2
          | succ m =>
            simp only [List.take_succ_cons, List.cons_append, List.cons.injEq] at h2
            obtain ⟨h2, -⟩ := h2
            subst h2
            exact fromWindows_cons_ne' _ hnl _
      refine .inr ⟨'\r' :: pre, verb, by simp [h2], ?_, ?_⟩
      · rw [h3, key]; simp
      · rw [h4, key]; simp; omega
  | case5 ch s hlt hcr he ih =>
    have hcr : ch = '\r' := by simpa using hcr
    subst hcr
    rw [decodeLoop.eq_def]
    simp only [hlt, if_true, ne_eq, not_true_eq_false, if_false, he]
    exact ⟨1, by simp [decodeLoop]⟩
  | case6 ch s hlt hcr he =>
    rw [decodeLoop.eq_def]
    simp only [hlt, hcr, if_true, if_false, he]
    exact ⟨0, by simp⟩
  | case7 ch rest s hlt =>
    rw [decodeLoop.eq_def]
    simp only [hlt, if_false]
    exact ⟨0, by simp⟩

/-- What one run of the encoding loop achieves. -/
theorem encodeLoop_spec (n : Nat) (data : List Char) (s : EncState) (hs : s.out.length ≤ n) :
    ∃ m, (encodeLoop n data s).i = s.i + m ∧ m ≤ data.length ∧
      (encodeLoop n data s).out = s.out ++ toWindows (data.take m) ∧
      (encodeLoop n data s).out.length ≤ n ∧
      (∀ c t, data.drop m = c :: t → n < (encodeLoop n data s).out.length + (toWindows [c]).length) := by
  induction data generalizing s with
  | nil => exact ⟨0, by simp [encodeLoop, toWindows, hs]⟩
  | cons ch rest ih =>
    unfold encodeLoop
    by_cases hc : ch = '\n'
    · simp only [hc, ne_eq, not_true_eq_false, if_false]
      split
      · refine ⟨0, by simp, by simp, by simp [toWindows], by simpa using hs, ?_⟩
        intro c t h
        simp only [List.drop_zero, List.cons.injEq] at h
        obtain ⟨h, -⟩ := h
        subst h
        simp only [toWindows, List.flatMap_cons, List.flatMap_nil, if_true, List.length_append,
          List.length_cons, List.length_nil]
        omega
      · obtain ⟨m, h1, h2, h3, h4, h5⟩ := ih { i := s.i + 1, out := s.out ++ ['\r'] ++ ['\n'] }
          (by simp; omega)
        refine ⟨m + 1, by simp only at h1; omega, by simp; omega, ?_, h4, by simpa using h5⟩
        rw [h3]; simp [toWindows]
    · simp only [hc, ne_eq, not_false_eq_true, if_true]
      split
      · refine ⟨0, by simp, by simp, by simp [toWindows], by simpa using hs, ?_⟩
        intro c t h
        simp only [List.drop_zero, List.cons.injEq] at h
        obtain ⟨h, -⟩ := h
        subst h
        simp [toWindows, hc]
        omega
      · obtain ⟨m, h1, h2, h3, h4, h5⟩ := ih { i := s.i + 1, out := s.out ++ [ch] }
          (by simp; omega)
        refine ⟨m + 1, by simp only at h1; omega, by simp; omega, ?_, h4, by simpa using h5⟩
        rw [h3]; simp [toWindows, hc]

/-- `simul_decode()` follows `decode()` with `end_of_data` and a buffer of the given size. -/
theorem simulLoop_eq (n co : Nat) (data : List Char) (s : DecState) (hs : s.out.length ≤ n) :
    simulLoop n data s.i s.out.length =
      if (decodeLoop n true co data s).out.length = n then some (decodeLoop n true co data s).i
      else none := by
  induction data, s using decodeLoop.induct n true co with
  | case1 s =>
    rw [simulLoop.eq_def, decodeLoop.eq_def]
    by_cases h : s.out.length < n
    · simp [h]; omega
    · have : s.out.length = n := by omega
      simp [this]
  | case2 ch rest s hlt hne ih =>
    rw [simulLoop.eq_def, decodeLoop.eq_def]
    simp only [hlt, hne, if_true, ne_eq, not_false_eq_true]
    have := ih (by simp; omega)
    simpa using this
  | case3 ch s hlt hcr rest2 ih =>
    rw [simulLoop.eq_def, decodeLoop.eq_def]
    simp only [hlt, hcr, if_true, if_false]
    have := ih (by simp; omega)
    simpa using this
  | case4 ch s hlt hcr ch2 rest2 hnl ih =>
    rw [simulLoop.eq_def, decodeLoop.eq_def]
    simp only [hlt, hcr, hnl, if_true, if_false]
    have := ih (by simp; omega)
    simpa using this
  | case5 ch s hlt hcr he ih =>
    rw [simulLoop.eq_def, decodeLoop.eq_def]
    simp only [hlt, hcr, if_true, if_false]
    have := ih (by simp; omega)
    simpa using this
  | case6 ch s hlt hcr he => simp at he
  | case7 ch rest s hlt =>
    rw [simulLoop.eq_def, decodeLoop.eq_def]
    simp only [hlt, if_false]
    rw [if_pos (by omega)]

end Verif.Newline
