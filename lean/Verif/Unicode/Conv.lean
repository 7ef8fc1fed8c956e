import Verif.Unicode.Loop
/-! Lemmas about the functions that work with a growing buffer. -/
namespace Verif.Unicode
open Verif.Buffer (Err Res copyN expand append bind_ok bind_err copyN_ok)

/-- What is needed of a codec: the loop body is regular, and if the conversion function has the assertions of the
encoders, then input is never exhausted before the end. -/
structure Good (c : Codec) : Prop where
  reg : Regular c.step
  enc : c.asserts = true → ∀ rest, c.step rest 4 = .exhausted → rest = []

theorem encodeUtf8_good : Good encodeUtf8 :=
  ⟨encodeUtf8_regular, fun _ rest h => by
    rcases rest with _ | ⟨a, t⟩
    · rfl
    · exfalso; revert h; simp only [encodeUtf8, encodeUtf8Step]; split_ifs <;> simp⟩
theorem encodeUtf16_good : Good encodeUtf16 :=
  ⟨encodeUtf16_regular, fun _ rest h => by
    rcases rest with _ | ⟨a, t⟩
    · rfl
    · exfalso; revert h; simp only [encodeUtf16, encodeUtf16Step]; split_ifs <;> simp⟩
theorem decodeUtf8_good (red : Bool) : Good (decodeUtf8 red) := ⟨decodeUtf8_regular red, fun h => by cases h⟩
theorem decodeUtf16_good (red : Bool) : Good (decodeUtf16 red) := ⟨decodeUtf16_regular red, fun h => by cases h⟩
theorem utf8ToUtf16_good : Good utf8ToUtf16 := ⟨utf8ToUtf16_regular, fun h => by cases h⟩
theorem utf16ToUtf8_good : Good utf16ToUtf8 := ⟨utf16ToUtf8_regular, fun h => by cases h⟩

theorem flags_error : flags .error false false = (false, true) := rfl
theorem flags_exhausted : flags .exhausted false false = (true, false) := rfl

theorem aLoop_spec {c : Codec} (G : Good c) (M : Nat) (str : List Nat) :
    ∀ (fuel i : Nat) (mem : List Nat) (j : Nat) (out : List Nat) (k : Nat) (st : Step),
    i ≤ str.length → j ≤ mem.length → mem.length ≤ M → M - mem.length < fuel → Run c.step (str.drop i) out k st →
    (j + out.length ≤ M → ∃ mem', aLoop M c str fuel i mem j false false = .ok (i + k, mem', j + out.length) ∧
      mem'.take (j + out.length) = mem.take j ++ out ∧ j + out.length ≤ mem'.length ∧ mem'.length ≤ M ∧
      mem.length ≤ mem'.length) ∧
    (M < j + out.length → aLoop M c str fuel i mem j false false = .error .lengthError) := by
  intro fuel
  induction fuel with
  | zero => intro i mem j out k st _ _ _ h; omega
  | succ f ih =>
    intro i mem j out k st hi hj hm hf hr
    have hk := hr.le G.reg
    rw [List.length_drop] at hk
    obtain ⟨t, o1, o2, k1, k2, h1, P⟩ := incr_part G.reg hi hj false false hr
    obtain ⟨a1, a2, a3, -, a4, a5, a6, a7, a8, a9⟩ := P
    simp only at a3 a4 a5 a6 a7 a8 a9
    have htake : t.out.take (j + o1.length) = mem.take j ++ o1 := by
      rw [a8]
      exact List.take_left' (by simp; omega)
    rw [aLoop, h1, bind_ok]
    rcases a9 with ⟨b1, b2, b3⟩ | ⟨b1, b2, us, n, o3, b3, b4, b5⟩
    · subst b1 b2
      rw [List.append_nil] at a1; subst a1
      have hk1 : k = k1 := by omega
      subst hk1
      have hfin := a3.final
      rw [List.drop_zero] at hfin
      obtain ⟨f1, f2 | f2⟩ := hfin
      · subst f2
        rw [flags_error] at b3
        obtain ⟨e1, e2⟩ := Prod.mk.inj b3
        have hne : i + k < str.length := by
          by_contra hcon
          rw [List.drop_of_length_le (by omega), G.reg.nil] at f1; cases f1
        rw [if_neg (by simp [e1]), if_neg (by rintro ⟨_, h⟩; omega), if_neg (by simp [e2])]
        refine ⟨fun _ => ⟨t.out, by rw [a4, a5], htake, by omega, by omega, by omega⟩, fun h => ?_⟩
        omega
      · subst f2
        rw [flags_exhausted] at b3
        obtain ⟨e1, e2⟩ := Prod.mk.inj b3
        have hne : ¬ (c.asserts ∧ ¬ t.i = str.length) := by
          rintro ⟨g1, g2⟩
          have := G.enc g1 _ f1
          have := congrArg List.length this
          rw [List.length_drop, List.length_nil] at this
          omega
        rw [if_pos (by simp [e1]), if_neg hne]
        refine ⟨fun _ => ⟨t.out, by rw [a4, a5], htake, by omega, by omega, by omega⟩, fun h => ?_⟩
        omega
    · obtain ⟨p1, p2, p3⟩ := G.reg.pos _ _ _ b3
      rw [List.length_drop] at p2
      rw [if_neg (by simp [b1]), if_neg (by rintro ⟨_, h⟩; omega), if_pos (by simp [b2])]
      have hol : out.length = o1.length + us.length + o3.length := by rw [a1, b4]; simp; omega
      have hE := Verif.Buffer.C58_expand 0 t.out t.j M (by omega)
      by_cases hlt : t.out.length < M
      · obtain ⟨mem2, x1, x2, x3, x4⟩ := hE.1 hlt
        rw [x1, bind_ok, b1, b2]
        clear hE
        have hrun : Run c.step (str.drop t.i) o2 k2 st := by rw [a4]; exact a3
        have q1 : t.i ≤ str.length := by omega
        have q2 : t.j ≤ mem2.length := by omega
        have q3 : M - mem2.length < f := by omega
        obtain ⟨y1, y2⟩ := ih t.i mem2 t.j o2 k2 st q1 q2 x3 q3 hrun
        have hol2 : out.length = o1.length + o2.length := by rw [a1]; simp
        refine ⟨fun hle => ?_, fun hlt => y2 (by omega)⟩
        obtain ⟨mem', z1, z2, z3, z4, z5⟩ := y1 (by omega)
        refine ⟨mem', ?_, ?_, by omega, z4, by omega⟩
        · rw [z1, a4, a5, a2, hol2, Nat.add_assoc, Nat.add_assoc]
        · rw [show j + out.length = t.j + o2.length by omega, z2, x4, a5, htake, a1, List.append_assoc]
      · rw [hE.2 (by omega), bind_err]
        exact ⟨fun h => by omega, fun _ => rfl⟩

theorem convA_spec {c : Codec} (G : Good c) {M : Nat} {str : List Nat} {i : Nat} {mem : List Nat} {j : Nat}
    {out : List Nat} {k : Nat} {st : Step}
    (hi : i ≤ str.length) (hj : j ≤ mem.length) (hm : mem.length ≤ M) (hr : Run c.step (str.drop i) out k st) :
    (j + out.length ≤ M → ∃ mem', convA M c str i mem j = .ok (i + k, mem', j + out.length) ∧
      mem'.take (j + out.length) = mem.take j ++ out ∧ j + out.length ≤ mem'.length ∧ mem'.length ≤ M ∧
      mem.length ≤ mem'.length) ∧
    (M < j + out.length → convA M c str i mem j = .error .lengthError) :=
  aLoop_spec G M str _ i mem j out k st hi hj hm (by omega) hr

theorem tryConv_spec {c : Codec} (G : Good c) {M : Nat} {str mem : List Nat} {j : Nat} {out : List Nat} {k : Nat}
    {st : Step} (hj : j ≤ mem.length) (hm : mem.length ≤ M) (hr : Run c.step str out k st) :
    (j + out.length ≤ M → ∃ mem', j + out.length ≤ mem'.length ∧ mem'.length ≤ M ∧
      mem'.take (j + out.length) = mem.take j ++ out ∧
      (k = str.length → tryConv M c str mem j = .ok (mem', j + out.length, true)) ∧
      (k ≠ str.length → tryConv M c str mem j = .ok (mem', j, false))) ∧
    (M < j + out.length → tryConv M c str mem j = .error .lengthError) := by
  have hk := hr.le G.reg
  obtain ⟨h1, h2⟩ := convA_spec G (M := M) (i := 0) (Nat.zero_le _) hj hm (by simpa using hr)
  constructor
  · intro hle
    obtain ⟨mem', x1, x2, x3, x4, x5⟩ := h1 hle
    refine ⟨mem', x3, x4, x2, fun e => ?_, fun e => ?_⟩
    · rw [tryConv, x1, bind_ok]
      dsimp only
      rw [if_pos (by omega)]
    · rw [tryConv, x1, bind_ok]
      dsimp only
      rw [if_neg (by omega), if_neg (by omega)]
  · intro hlt
    rw [tryConv, h2 hlt, bind_err]

end Verif.Unicode
