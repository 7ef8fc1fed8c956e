import Verif.Unicode.Regular
/-! Lemmas about the frame of the incremental functions, and about the functions built on it. -/
namespace Verif.Unicode
open Verif.Buffer (Err Res copyN expand append bind_ok bind_err copyN_ok)

/-- Running a loop body on `rest` with unlimited space: `out` is written, `k` elements are consumed, and `st` is why it
stops. -/
inductive Run (step : List Nat → Nat → Step) : List Nat → List Nat → Nat → Step → Prop
  | error {rest} : step rest 4 = .error → Run step rest [] 0 .error
  | exhausted {rest} : step rest 4 = .exhausted → Run step rest [] 0 .exhausted
  | emit {rest us n out k st} : step rest 4 = .emit us n → Run step (rest.drop n) out k st →
      Run step rest (us ++ out) (n + k) st

/-- Some number of turns of a loop body on `rest` with unlimited space: `out` is written, `k` elements are consumed. -/
inductive Pre (step : List Nat → Nat → Step) : List Nat → List Nat → Nat → Prop
  | nil {rest} : Pre step rest [] 0
  | cons {rest us n out k} : step rest 4 = .emit us n → Pre step (rest.drop n) out k → Pre step rest (us ++ out) (n + k)

variable {step : List Nat → Nat → Step}

theorem Pre.run {rest out k out' k' st} (h : Pre step rest out k) (h' : Run step (rest.drop k) out' k' st) :
    Run step rest (out ++ out') (k + k') st := by
  induction h with
  | nil => simpa using h'
  | cons e _ ih =>
    rw [List.append_assoc, Nat.add_assoc]
    exact .emit e (ih (by rw [List.drop_drop]; exact h'))

theorem Pre.ext (R : Regular step) {rest out k} (h : Pre step rest out k) (more : List Nat) :
    Pre step (rest ++ more) out k := by
  induction h with
  | nil => exact .nil
  | @cons rest us n out k e _ ih =>
    refine .cons (us := us) (n := n) ?_ ?_
    · rw [R.ext _ _ (by rw [e]; simp), e]
    · rw [List.drop_append_of_le_length (R.pos _ _ _ e).2.1]; exact ih

theorem Run.exists (R : Regular step) (rest : List Nat) : ∃ out k st, Run step rest out k st := by
  induction hl : rest.length using Nat.strong_induction_on generalizing rest with
  | _ l ih =>
    cases e : step rest 4 with
    | emit us n =>
      obtain ⟨h1, h2, _⟩ := R.pos _ _ _ e
      obtain ⟨out, k, st, h⟩ := ih (rest.drop n).length (by rw [List.length_drop]; omega) _ rfl
      exact ⟨_, _, _, .emit e h⟩
    | full => exact absurd e (R.notFull _)
    | error => exact ⟨_, _, _, .error e⟩
    | exhausted => exact ⟨_, _, _, .exhausted e⟩

theorem Run.unique {rest out k st out' k' st'} (h : Run step rest out k st) (h' : Run step rest out' k' st') :
    out = out' ∧ k = k' ∧ st = st' := by
  induction h generalizing out' k' st' with
  | error e => cases h' <;> simp_all
  | exhausted e => cases h' <;> simp_all
  | emit e _ ih =>
    cases h' with
    | error e' => rw [e] at e'; cases e'
    | exhausted e' => rw [e] at e'; cases e'
    | emit e' h2 =>
      rw [e] at e'; cases e'
      obtain ⟨a, b, c⟩ := ih h2
      subst a b c; exact ⟨rfl, rfl, rfl⟩

theorem Run.le (R : Regular step) {rest out k st} (h : Run step rest out k st) : k ≤ rest.length := by
  induction h with
  | error => omega
  | exhausted => omega
  | emit e _ ih =>
    have := (R.pos _ _ _ e).2.1
    rw [List.length_drop] at ih; omega

theorem Run.final {rest out k st} (h : Run step rest out k st) : step (rest.drop k) 4 = st ∧
    (st = .error ∨ st = .exhausted) := by
  induction h with
  | error e => exact ⟨by simpa using e, .inl rfl⟩
  | exhausted e => exact ⟨by simpa using e, .inr rfl⟩
  | emit e _ ih => rw [← List.drop_drop]; exact ih

theorem Run.last {rest out k st} (h : Run step rest out k st) : Run step (rest.drop k) [] 0 st := by
  obtain ⟨h1, h2 | h2⟩ := h.final
  · subst h2; exact .error h1
  · subst h2; exact .exhausted h1

/-- The flags as they are left by a run that stops because of `st`. -/
def flags (st : Step) (exh err : Bool) : Bool × Bool :=
  match st with
  | .error => (exh, true)
  | .exhausted => (true, err)
  | _ => (exh, err)

/-- What a call of an incremental function amounts to: a prefix of the unlimited run. -/
structure Part (step : List Nat → Nat → Step) (inp : List Nat) (s t : State) (out : List Nat) (k : Nat) (st : Step)
    (out1 out2 : List Nat) (k1 k2 : Nat) : Prop where
  hout : out = out1 ++ out2
  hk : k = k1 + k2
  rest : Run step (inp.drop (s.i + k1)) out2 k2 st
  pre : Pre step (inp.drop s.i) out1 k1
  ti : t.i = s.i + k1
  tj : t.j = s.j + out1.length
  tlen : t.out.length = s.out.length
  fits : s.j + out1.length ≤ s.out.length
  tout : t.out = s.out.take s.j ++ out1 ++ s.out.drop (s.j + out1.length)
  why : (out2 = [] ∧ k2 = 0 ∧ (t.exhausted, t.error) = flags st s.exhausted s.error) ∨
    (t.exhausted = s.exhausted ∧ t.error = s.error ∧ ∃ us n out3, step (inp.drop (s.i + k1)) 4 = .emit us n ∧
      out2 = us ++ out3 ∧ s.out.length < t.j + us.length)

theorem loop_part (R : Regular step) (inp : List Nat) {rest out k st} (h : Run step rest out k st) :
    ∀ (fuel : Nat) (s : State), inp.drop s.i = rest → rest.length < fuel → s.j ≤ s.out.length →
    ∃ t out1 out2 k1 k2, loop step inp fuel s = .ok t ∧ Part step inp s t out k st out1 out2 k1 k2 := by
  induction h with
  | @error rest e =>
    intro fuel s hr hf hj
    obtain ⟨f, rfl⟩ : ∃ f, fuel = f + 1 := ⟨fuel - 1, by omega⟩
    refine ⟨{ s with error := true }, [], [], 0, 0, ?_, ⟨rfl, rfl, ?_, .nil, rfl, rfl, rfl, by simpa using hj, ?_, .inl ⟨rfl, rfl, rfl⟩⟩⟩
    · rw [loop, hr, R.cap rest, e]
    · simpa [hr] using Run.error e
    · simp
  | @exhausted rest e =>
    intro fuel s hr hf hj
    obtain ⟨f, rfl⟩ : ∃ f, fuel = f + 1 := ⟨fuel - 1, by omega⟩
    refine ⟨{ s with exhausted := true }, [], [], 0, 0, ?_, ⟨rfl, rfl, ?_, .nil, rfl, rfl, rfl, by simpa using hj, ?_, .inl ⟨rfl, rfl, rfl⟩⟩⟩
    · rw [loop, hr, R.cap rest, e]
    · simpa [hr] using Run.exhausted e
    · simp
  | @emit rest us n out k st e h ih =>
    intro fuel s hr hf hj
    obtain ⟨f, rfl⟩ : ∃ f, fuel = f + 1 := ⟨fuel - 1, by omega⟩
    obtain ⟨p1, p2, p3⟩ := R.pos _ _ _ e
    by_cases hfit : us.length ≤ s.out.length - s.j
    · have hc : copyN us 0 us.length s.out s.j = .ok (s.out.take s.j ++ us ++ s.out.drop (s.j + us.length)) := by
        rw [copyN_ok (by omega) (by omega)]; simp
      have hlen : (s.out.take s.j ++ us ++ s.out.drop (s.j + us.length)).length = s.out.length := by
        simp; omega
      obtain ⟨t, o1, o2, k1, k2, h1, P⟩ := ih f
        ⟨s.i + n, s.out.take s.j ++ us ++ s.out.drop (s.j + us.length), s.j + us.length, s.exhausted, s.error⟩
        (by simp only; rw [← hr, List.drop_drop]) (by rw [List.length_drop]; omega)
        (by simp only; rw [hlen]; omega)
      refine ⟨t, us ++ o1, o2, n + k1, k2, ?_, ?_⟩
      · have hs : step rest (s.out.length - s.j) = .emit us n := by rw [R.cap rest, e]; exact if_pos hfit
        rw [loop, hr, hs]
        dsimp only
        rw [hc, bind_ok]
        exact h1
      · obtain ⟨a1, a2, a3, ap, a4, a5, a6, a7, a8, a9⟩ := P
        simp only at a3 ap a4 a5 a6 a7 a8 a9
        rw [hlen] at a6 a7 a9
        refine ⟨by rw [a1, List.append_assoc], by omega, by rw [← Nat.add_assoc]; exact a3, ?_, by omega,
          by rw [a5, List.length_append]; omega, a6, by rw [List.length_append]; omega, ?_, ?_⟩
        · rw [hr]; exact .cons e (by rw [← hr, List.drop_drop]; exact ap)
        · rw [a8]
          have : (s.out.take s.j ++ us).length = s.j + us.length := by simp; omega
          rw [List.take_left' this, List.length_append, ← Nat.add_assoc, List.append_assoc (s.out.take s.j ++ us),
            ← List.append_assoc (s.out.take s.j) us o1]
          rw [List.drop_append, this, List.drop_of_length_le (by omega), List.nil_append, List.drop_drop]
          rw [List.append_assoc (s.out.take s.j ++ us)]
          congr 3; omega
        · rcases a9 with a9 | ⟨b1, b2, us', n', o3, b3, b4, b5⟩
          · exact .inl a9
          · exact .inr ⟨b1, b2, us', n', o3, by rw [← Nat.add_assoc]; exact b3, b4, b5⟩
    · refine ⟨s, [], us ++ out, 0, n + k, ?_, ⟨rfl, by omega, ?_, .nil, rfl, rfl, rfl, by simpa using hj, by simp, ?_⟩⟩
      · have hs : step rest (s.out.length - s.j) = .full := by rw [R.cap rest, e]; exact if_neg hfit
        rw [loop, hr, hs]
      · simpa [hr] using Run.emit e h
      · exact .inr ⟨rfl, rfl, us, n, out, by simpa [hr] using e, rfl, by omega⟩

theorem incr_part (R : Regular step) {inp mem : List Nat} {i j : Nat} (hi : i ≤ inp.length) (hj : j ≤ mem.length)
    (exh err : Bool) {out k st} (h : Run step (inp.drop i) out k st) :
    ∃ t out1 out2 k1 k2, incr step inp mem i j exh err = .ok t ∧
      Part step inp ⟨i, mem, j, exh, err⟩ t out k st out1 out2 k1 k2 := by
  obtain ⟨t, o1, o2, k1, k2, h1, h2⟩ := loop_part R inp h (inp.length - i + 1) ⟨i, mem, j, exh, err⟩ rfl
    (by simp) hj
  refine ⟨t, o1, o2, k1, k2, ?_, h2⟩
  rw [incr, if_neg (by omega), if_neg (by omega)]
  exact h1

end Verif.Unicode
