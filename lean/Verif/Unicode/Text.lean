import Verif.Unicode.Chars
/-! Lemmas that relate whole runs to texts. -/
namespace Verif.Unicode
open Spec
open Verif.Buffer (Err Res copyN expand append bind_ok bind_err copyN_ok append_spec)

variable {step : List Nat → Nat → Step} {B : Nat → Prop} {form : Nat → List Nat → Prop} {P : Nat → Prop}
  {e : Nat → List Nat}

theorem Converts.run (C : Converts step B form P e) (R : Regular step) {vs ts : List Nat} (h : Text form P vs ts) :
    Run step ts (vs.flatMap e) ts.length .exhausted := by
  induction h with
  | nil => exact .exhausted R.nil
  | @cons v us vs ts hP hf _ ih =>
    rw [List.flatMap_cons, List.length_append]
    exact .emit (C.complete v us ts hP hf) (by rw [List.drop_left]; exact ih)

theorem Converts.text (C : Converts step B form P e) (R : Regular step) {ts out : List Nat} {k : Nat} {st : Step}
    (h : Run step ts out k st) (hB : ∀ b ∈ ts, B b) :
    ∃ vs, Text form P vs (ts.take k) ∧ out = vs.flatMap e ∧ NoChar form P (ts.drop k) := by
  induction h with
  | @error rest he =>
    refine ⟨[], .nil, rfl, ?_⟩
    intro v us more hP hf hc
    rw [List.drop_zero] at hc
    rw [hc, C.complete v us more hP hf] at he; cases he
  | @exhausted rest he =>
    refine ⟨[], .nil, rfl, ?_⟩
    intro v us more hP hf hc
    rw [List.drop_zero] at hc
    rw [hc, C.complete v us more hP hf] at he; cases he
  | @emit rest us n out k st he _ ih =>
    obtain ⟨v, hP, hf, hu⟩ := C.sound _ _ _ hB he
    obtain ⟨vs, h1, h2, h3⟩ := ih (fun b hb => hB b (List.mem_of_mem_drop hb))
    refine ⟨v :: vs, ?_, by rw [List.flatMap_cons, ← hu, ← h2], by rw [← List.drop_drop]; exact h3⟩
    rw [List.take_add]
    exact .cons hP hf h1

/-- The result of a conversion is described exactly by the texts that have the given form. -/
theorem conv_exact {c : Codec} (G : Good c) (C : Converts c.step B form P e) {M : Nat} {ts mem : List Nat} {j : Nat}
    (hB : ∀ b ∈ ts, B b) (hj : j ≤ mem.length) (hm : mem.length ≤ M) (out : List Nat) :
    (∃ mem', conv M c ts mem j = .ok (some (mem', j + out.length)) ∧ mem'.take (j + out.length) = mem.take j ++ out) ↔
    (∃ vs, Text form P vs ts ∧ out = vs.flatMap e) ∧ j + out.length ≤ M := by
  obtain ⟨out', k, st, hr⟩ := Run.exists G.reg ts
  obtain ⟨h1, h2⟩ := tryConv_spec G (M := M) hj hm hr
  constructor
  · rintro ⟨mem', hc, ht⟩
    rw [conv] at hc
    by_cases hM : j + out'.length ≤ M
    · obtain ⟨mem2, x1, x2, x3, x4, x5⟩ := h1 hM
      by_cases hk : k = ts.length
      · rw [x4 hk, bind_ok] at hc
        dsimp only at hc
        rw [if_pos rfl] at hc
        injection hc with hc
        injection hc with hc
        injection hc with hc1 hc2
        subst hc1
        have hlen : out'.length = out.length := by omega
        rw [hlen, ht] at x3
        have := List.append_cancel_left x3
        subst this
        obtain ⟨vs, t1, t2, -⟩ := C.text G.reg hr hB
        rw [hk, List.take_length] at t1
        exact ⟨⟨vs, t1, t2⟩, hM⟩
      · rw [x5 hk, bind_ok] at hc
        dsimp only at hc
        rw [if_neg (by simp)] at hc
        injection hc with hc; cases hc
    · rw [h2 (by omega), bind_err] at hc; cases hc
  · rintro ⟨⟨vs, t1, t2⟩, hM⟩
    obtain ⟨e1, e2, e3⟩ := hr.unique (C.run G.reg t1)
    rw [← t2] at e1; subst e1
    obtain ⟨mem2, x1, x2, x3, x4, x5⟩ := h1 hM
    refine ⟨mem2, ?_, x3⟩
    rw [conv, x4 e2, bind_ok]
    rfl

/-- Text that is not well-formed is rejected. -/
theorem conv_reject {c : Codec} (G : Good c) (C : Converts c.step B form P e) {M : Nat} {ts mem : List Nat} {j : Nat}
    (hB : ∀ b ∈ ts, B b) (hj : j ≤ mem.length) (hm : mem.length ≤ M) (hn : ¬ ∃ vs, Text form P vs ts)
    (hl : conv M c ts mem j ≠ .error .lengthError) : conv M c ts mem j = .ok none := by
  obtain ⟨out', k, st, hr⟩ := Run.exists G.reg ts
  obtain ⟨h1, h2⟩ := tryConv_spec G (M := M) hj hm hr
  rw [conv] at hl ⊢
  by_cases hM : j + out'.length ≤ M
  · obtain ⟨mem2, x1, x2, x3, x4, x5⟩ := h1 hM
    by_cases hk : k = ts.length
    · obtain ⟨vs, t1, -, -⟩ := C.text G.reg hr hB
      rw [hk, List.take_length] at t1
      exact absurd ⟨vs, t1⟩ hn
    · rw [x5 hk, bind_ok]; rfl
  · rw [h2 (by omega), bind_err] at hl; exact absurd rfl hl

/-- The `_a` functions stop at the first position where no character starts. -/
theorem convA_exact {c : Codec} (G : Good c) (C : Converts c.step B form P e) {M : Nat} {ts mem : List Nat} {i j : Nat}
    (hB : ∀ b ∈ ts, B b) (hi : i ≤ ts.length) (hj : j ≤ mem.length) (hm : mem.length ≤ M) :
    convA M c ts i mem j = .error .lengthError ∨
    ∃ k vs mem', convA M c ts i mem j = .ok (i + k, mem', j + (vs.flatMap e).length) ∧ i + k ≤ ts.length ∧
      Text form P vs ((ts.drop i).take k) ∧ NoChar form P (ts.drop (i + k)) ∧
      mem'.take (j + (vs.flatMap e).length) = mem.take j ++ vs.flatMap e ∧ j + (vs.flatMap e).length ≤ mem'.length ∧
      mem'.length ≤ M ∧ mem.length ≤ mem'.length := by
  obtain ⟨out', k, st, hr⟩ := Run.exists G.reg (ts.drop i)
  have hk := hr.le G.reg
  rw [List.length_drop] at hk
  have hik : i + k ≤ ts.length := by omega
  obtain ⟨h1, h2⟩ := convA_spec G (M := M) hi hj hm hr
  obtain ⟨vs, t1, t2, t3⟩ := C.text G.reg hr (fun b hb => hB b (List.mem_of_mem_drop hb))
  by_cases hM : j + out'.length ≤ M
  · obtain ⟨mem', x1, x2, x3, x4, x5⟩ := h1 hM
    subst t2
    exact .inr ⟨k, vs, mem', x1, hik, t1, by rw [← List.drop_drop]; exact t3, x2, x3, x4, x5⟩
  · exact .inl (h2 (by omega))

/-- The characters found when reading from the left, skipping one element where no character starts. -/
inductive Scan (form : Nat → List Nat → Prop) (P : Nat → Prop) : List Nat → List Nat → Prop
  | nil : Scan form P [] []
  | char {v us ts vs} : P v → form v us → Scan form P ts vs → Scan form P (us ++ ts) (v :: vs)
  | skip {b ts vs} : NoChar form P (b :: ts) → Scan form P ts vs → Scan form P (b :: ts) vs

theorem Lenient.scan {ts : List Nat} {os : List (Option Nat)} (h : Lenient form P ts os) :
    Scan form P ts (os.filterMap id) := by
  induction h with
  | nil => exact .nil
  | char hP hf _ ih => exact .char hP hf ih
  | @bad junk ts os _ hno _ ih =>
    rw [List.filterMap_cons_none rfl]
    clear * - hno ih
    induction junk with
    | nil => exact ih
    | cons b junk ihj =>
      refine .skip (hno 0 (by simp)) (ihj fun i hi => ?_)
      have := hno (i + 1) (by simpa using hi)
      simpa using this

/-- Forms of characters are prefix free. -/
def PrefixFree (form : Nat → List Nat → Prop) (P : Nat → Prop) : Prop :=
  ∀ v w us us' ts ts', P v → P w → form v us → form w us' → us ++ ts = us' ++ ts' → v = w ∧ us = us'

theorem Converts.prefixFree (C : Converts step B form P (fun v => [v])) : PrefixFree form P := by
  intro v w us us' ts ts' hv hw h1 h2 heq
  have a := C.complete v us ts hv h1
  have b := C.complete w us' ts' hw h2
  rw [heq, b] at a
  injection a with a1 a2
  injection a1 with a1
  refine ⟨a1.symm, ?_⟩
  have := congrArg (List.take us.length) heq
  rw [List.take_left, a2.symm, List.take_left] at this
  exact this

theorem Scan.text (F : PrefixFree form P) {vs ts : List Nat} (h : Text form P vs ts) :
    ∀ {us ws : List Nat}, (∀ v us, P v → form v us → us ≠ []) → Scan form P (ts ++ us) ws →
    ∃ ws', ws = vs ++ ws' ∧ Scan form P us ws' := by
  intro us ws hne hs
  induction h generalizing ws with
  | nil => exact ⟨ws, rfl, hs⟩
  | @cons v cs vs ts hP hf _ ih =>
    rw [List.append_assoc] at hs
    generalize hx : cs ++ (ts ++ us) = x at hs
    cases hs with
    | nil => exact absurd (List.append_eq_nil_iff.1 hx).1 (hne v cs hP hf)
    | @char w us' ts' vs' hw hfw hs' =>
      obtain ⟨e1, e2⟩ := F v w cs us' _ _ hP hw hf hfw hx
      subst e1 e2
      rw [List.append_cancel_left hx.symm] at hs'
      obtain ⟨ws', f1, f2⟩ := ih hs'
      exact ⟨ws', by rw [f1]; rfl, f2⟩
    | @skip b ts' _ hno _ => exact absurd hx.symm (hno v cs _ hP hf)

theorem Scan.skips {a ts vs : List Nat} (h : Scan form P (a ++ ts) vs)
    (hno : ∀ i < a.length, NoChar form P ((a ++ ts).drop i)) : Scan form P ts vs := by
  induction a with
  | nil => exact h
  | cons b a ih =>
    rw [List.cons_append] at h
    generalize hx : b :: (a ++ ts) = x at h
    cases h with
    | nil => cases hx
    | @char w us' ts' vs' hw hfw _ => exact absurd hx (hno 0 (by simp) w us' ts' hw hfw)
    | @skip b' ts' _ _ hs =>
      injection hx with _ hx
      subst hx
      exact ih hs fun i hi => by
        have := hno (i + 1) (by simpa using hi)
        simpa using this

/-- What is needed of the resynchronization: it advances over elements that cannot start a character. -/
structure Resync (form : Nat → List Nat → Prop) (P : Nat → Prop) (resync : List Nat → Nat → Nat) : Prop where
  le : ∀ ts i, i ≤ ts.length → i ≤ resync ts i ∧ resync ts i ≤ ts.length
  no : ∀ ts i m, i ≤ m → m < resync ts i → NoChar form P (ts.drop m)

theorem resyncUtf8Loop_spec (rest : List Nat) : ∀ i, i ≤ resyncUtf8Loop rest i ∧ resyncUtf8Loop rest i ≤ i + rest.length ∧
    ∀ m < resyncUtf8Loop rest i - i, ∃ b t, rest.drop m = b :: t ∧ ¬ (b < 0x80 ∨ (b ≥ 0xC0 ∧ b < 0xF8)) := by
  induction rest with
  | nil => intro i; simp [resyncUtf8Loop]
  | cons v rest ih =>
    intro i
    rw [resyncUtf8Loop]
    split_ifs with h
    · exact ⟨by omega, by simp, by intro m hm; omega⟩
    · obtain ⟨h1, h2, h3⟩ := ih (i + 1)
      refine ⟨by omega, by rw [List.length_cons]; omega, ?_⟩
      intro m hm
      rcases m with _ | m
      · exact ⟨v, rest, rfl, h⟩
      · exact h3 m (by omega)

theorem resyncUtf16Loop_spec (rest : List Nat) : ∀ i, i ≤ resyncUtf16Loop rest i ∧
    resyncUtf16Loop rest i ≤ i + rest.length ∧
    ∀ m < resyncUtf16Loop rest i - i, ∃ b t, rest.drop m = b :: t ∧ ¬ (b < 0xDC00 ∨ b ≥ 0xE000) := by
  induction rest with
  | nil => intro i; simp [resyncUtf16Loop]
  | cons v rest ih =>
    intro i
    rw [resyncUtf16Loop]
    split_ifs with h
    · exact ⟨by omega, by simp, by intro m hm; omega⟩
    · obtain ⟨h1, h2, h3⟩ := ih (i + 1)
      refine ⟨by omega, by rw [List.length_cons]; omega, ?_⟩
      intro m hm
      rcases m with _ | m
      · exact ⟨v, rest, rfl, h⟩
      · exact h3 m (by omega)

theorem utf8Char_head {v : Nat} {us : List Nat} (h : Utf8Char v us) :
    ∃ b t, us = b :: t ∧ (b < 0x80 ∨ (b ≥ 0xC0 ∧ b < 0xF8)) := by
  cases h <;> exact ⟨_, _, rfl, by omega⟩

theorem utf16Char_head {v : Nat} {us : List Nat} (h : Utf16Char v us) (hv : Valid v) :
    ∃ b t, us = b :: t ∧ (b < 0xDC00 ∨ b ≥ 0xE000) := by
  unfold Valid at hv
  cases h <;> exact ⟨_, _, rfl, by omega⟩

theorem resyncUtf8_ok {P : Nat → Prop} : Resync Utf8Char P resyncUtf8 where
  le ts i h := by
    obtain ⟨h1, h2, -⟩ := resyncUtf8Loop_spec (ts.drop i) i
    rw [List.length_drop] at h2
    exact ⟨h1, by unfold resyncUtf8; omega⟩
  no ts i m h1 h2 := by
    obtain ⟨-, -, h3⟩ := resyncUtf8Loop_spec (ts.drop i) i
    obtain ⟨b, t, e, hb⟩ := h3 (m - i) (by unfold resyncUtf8 at h2; omega)
    rw [List.drop_drop, show i + (m - i) = m by omega] at e
    intro v us more _ hf hc
    obtain ⟨b', t', e', hb'⟩ := utf8Char_head hf
    rw [e, e', List.cons_append] at hc
    injection hc with hc _
    exact hb (hc ▸ hb')

theorem resyncUtf16_ok (red : Bool) : Resync Utf16Char (Dec red) resyncUtf16 where
  le ts i h := by
    obtain ⟨h1, h2, -⟩ := resyncUtf16Loop_spec (ts.drop i) i
    rw [List.length_drop] at h2
    exact ⟨h1, by unfold resyncUtf16; omega⟩
  no ts i m h1 h2 := by
    obtain ⟨-, -, h3⟩ := resyncUtf16Loop_spec (ts.drop i) i
    obtain ⟨b, t, e, hb⟩ := h3 (m - i) (by unfold resyncUtf16 at h2; omega)
    rw [List.drop_drop, show i + (m - i) = m by omega] at e
    intro v us more hP hf hc
    obtain ⟨b', t', e', hb'⟩ := utf16Char_head hf hP.1
    rw [e, e', List.cons_append] at hc
    injection hc with hc _
    exact hb (hc ▸ hb')

theorem noResync_ok : Resync form P (fun _ i => i) where
  le ts i h := ⟨by omega, h⟩
  no ts i m h1 h2 := absurd h2 (by omega)

/-- The lenient functions succeed, and the number of elements that they output is the number of elements in the output
for the well-formed characters alone. -/
theorem lLoop_spec {c : Codec} (G : Good c) (C : Converts c.step B form P e) (F : PrefixFree form P)
    (hne : ∀ v us, P v → form v us → us ≠ []) (S : Resync form P c.resync) {M : Nat} {ts : List Nat}
    (hB : ∀ b ∈ ts, B b) (r : Nat) (hr : c.replacement.length ≤ r) :
    ∀ (fuel i : Nat) (mem : List Nat) (o o2 : Nat) (vs : List Nat), i ≤ ts.length → ts.length - i < fuel →
    o ≤ mem.length → o2 ≤ mem.length → mem.length ≤ M → o + r * (ts.length - i) ≤ M →
    o2 + (vs.flatMap e).length ≤ M → Scan form P (ts.drop i) vs →
    ∃ mem', lLoop M c ts fuel i mem o o2 = .ok (mem', o2 + (vs.flatMap e).length) ∧
      o2 + (vs.flatMap e).length ≤ mem'.length ∧ mem'.length ≤ M := by
  intro fuel
  induction fuel with
  | zero => intro i mem o o2 vs _ h; omega
  | succ f ih =>
    intro i mem o o2 vs hi hf ho ho2 hm hMo hMo2 hs
    obtain ⟨out, k, st, hrun⟩ := Run.exists G.reg (ts.drop i)
    have hk := hrun.le G.reg
    rw [List.length_drop] at hk
    obtain ⟨cs, t1, t2, t3⟩ := C.text G.reg hrun (fun b hb => hB b (List.mem_of_mem_drop hb))
    have hsplit : ts.drop i = (ts.drop i).take k ++ ts.drop (i + k) := by
      rw [← List.drop_drop, List.take_append_drop]
    rw [hsplit] at hs
    obtain ⟨ws, w1, w2⟩ := Scan.text F t1 hne hs
    have hlen : (vs.flatMap e).length = out.length + (ws.flatMap e).length := by
      rw [w1, List.flatMap_append, List.length_append, ← t2]
    obtain ⟨h1, -⟩ := convA_spec G (M := M) hi ho2 hm hrun
    obtain ⟨mem1, x1, -, x3, x4, x5⟩ := h1 (by omega)
    clear h1
    rw [lLoop, x1, bind_ok]
    dsimp only
    by_cases hend : i + k = ts.length
    · rw [if_pos hend]
      have hws : ws = [] := by
        rw [List.drop_of_length_le (by omega)] at w2
        generalize hx : ([] : List Nat) = x at w2
        cases w2 with
        | nil => rfl
        | char hP hf _ => exact absurd (List.append_eq_nil_iff.1 hx.symm).1 (hne _ _ hP hf)
        | skip => cases hx
      subst hws
      simp only [List.flatMap_nil, List.length_nil, Nat.add_zero] at hlen
      exact ⟨mem1, by rw [hlen], by omega, x4⟩
    · rw [if_neg hend, if_neg (by omega)]
      obtain ⟨r1, r2⟩ := S.le ts (i + k + 1) (by omega)
      have hmul : c.replacement.length + r * (ts.length - c.resync ts (i + k + 1)) ≤ r * (ts.length - i) := by
        have : r + r * (ts.length - c.resync ts (i + k + 1)) = r * (ts.length - c.resync ts (i + k + 1) + 1) := by ring
        have h2 : r * (ts.length - c.resync ts (i + k + 1) + 1) ≤ r * (ts.length - i) :=
          Nat.mul_le_mul_left r (by omega)
        omega
      have hap := (append_spec (M := M) (d := 0) (mem := mem1) (data := c.replacement) (offset := o) (by omega) x4).1
        (by omega)
      obtain ⟨mem2, y1, y2, y3, y4, -, -⟩ := hap
      rw [y1, bind_ok]
      dsimp only
      have hw2 : Scan form P (ts.drop (c.resync ts (i + k + 1))) ws := by
        generalize hR : c.resync ts (i + k + 1) = q at *
        have hsp : ts.drop (i + k) = (ts.drop (i + k)).take (q - (i + k)) ++ ts.drop q := by
          conv_lhs => rw [← List.take_append_drop (q - (i + k)) (ts.drop (i + k))]
          rw [List.drop_drop, show i + k + (q - (i + k)) = q by omega]
        rw [hsp] at w2
        refine Scan.skips w2 ?_
        intro m hm
        rw [← hsp, List.drop_drop]
        rw [List.length_take, List.length_drop] at hm
        rcases m with _ | m
        · rw [Nat.add_zero, ← List.drop_drop]; exact t3
        · exact S.no ts (i + k + 1) _ (by omega) (by rw [hR]; omega)
      obtain ⟨mem', z1, z2, z3⟩ := ih (c.resync ts (i + k + 1)) mem2 (o + c.replacement.length) (o2 + out.length) ws r2
        (by omega) y2 (by omega) y4 (by omega) (by omega) hw2
      exact ⟨mem', by rw [z1, hlen, Nat.add_assoc], by omega, z3⟩

end Verif.Unicode
