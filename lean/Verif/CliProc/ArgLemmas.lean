import Verif.CliProc.RunLemmas
/-!
The steps of the processor for an argument.
-/
namespace Verif.CliProc

open Verif.CliPattern Verif.CliSpec

/-- What happens for the items of an argument: Processing continues after it, or there is a result. -/
def Out (D : Cmd) (c : Ctx) (m : Matcher) (err : Bool) (errs : List (Nat × Message)) (invs : List Invocation) (l : Label) (s : St) (i : Nat) (further : Bool)
    (a : Progress) (items : List Item) (two : Bool) (arg : Str) : Prop :=
  (∃ a' s', Goes c l s .nextArg1 s' ∧ s'.argIndex = i + (if two then 1 else 0) ∧
    (s'.valuesOnly = true ↔ s.valuesOnly = true ∨ ∃ n v, .option n v ∈ items ∧ D.EndsOptions n) ∧ Rel D c m err errs invs s' a' ∧
    ItemsStep D i further arg a items none a') ∨
  ∃ o a' s', Ends c l s (o, s') ∧ Rel D c m err errs invs s' a' ∧ ItemsStep D i further arg a items (some o) a'

/-- The beginning of label `short_form_option`. -/
def shortUpd (s : St) : St := { s with occ := { s.occ with nameBegin := s.offset, nameEnd := s.offset + 1 }, offset := s.offset + 1 }

/-- The part of label `short_form_option` that is for known options. -/
def shortRest (c : Ctx) (s : St) : Option Next :=
  if !s.allow then
    if s.offset = s.arg1.length ∨ s.arg1[s.offset]? ≠ some dash then some (.goto .withoutArg s) else some (.goto .notAllowed s)
  else if s.offset < s.arg1.length then
    some (.goto .withArg { s with occ := { s.occ with hasValue := true, valueBegin := s.offset } })
  else if !s.require then some (.goto .withoutArg s)
  else if s.argIndex ≠ c.args.length - 1 then
    some (.goto .withArg { s with argIndex := s.argIndex + 1, occ := { s.occ with hasValue := true } })
  else some (.goto .missing s)

theorem shortForm_eq (c : Ctx) (s : St) : shortForm c s = (s.arg1[s.offset]?).bind fun ch => match c.reg.findShort ch with
    | some i => ((shortUpd s).unpack c i).bind (shortRest c)
    | none => some (.goto .unknown (shortUpd s)) := rfl

theorem shortForm_known {c : Ctx} {s s1 : St} {ch i : Nat} (h1 : s.arg1[s.offset]? = some ch) (h2 : c.reg.findShort ch = some i)
    (h3 : (shortUpd s).unpack c i = some s1) : shortForm c s = shortRest c s1 := by
  rw [shortForm_eq, h1, Option.bind_some, h2]
  simp [h3]

theorem shortForm_unknown {c : Ctx} {s : St} {ch : Nat} (h1 : s.arg1[s.offset]? = some ch) (h2 : c.reg.findShort ch = none) :
    shortForm c s = some (.goto .unknown (shortUpd s)) := by
  rw [shortForm_eq, h1, Option.bind_some, h2]

section
variable {D : Cmd} {c : Ctx} {m : Matcher} (hs : Serves D c m) {err : Bool} {errs : List (Nat × Message)} {invs : List Invocation}

theorem short_form (pre cs : Str) (ch : Nat) (occ : Occurrence) (hl : occ.leadEnd = 1) :
    optForm (45 :: (pre ++ ch :: cs)) { occ with nameBegin := 1 + pre.length, nameEnd := 1 + pre.length + 1 } = some (form (.short ch)) := by
  have h1 : 1 + pre.length ≤ (45 :: (pre ++ ch :: cs)).length := by simp; omega
  have h2 : (45 :: (pre ++ ch :: cs)).drop (1 + pre.length) = ch :: cs := by
    rw [Nat.add_comm, List.drop_succ_cons]
    simp
  have h3 : 1 + pre.length + 1 - (1 + pre.length) = 1 := by omega
  simp only [optForm, substr, hl, Nat.zero_le, if_true, h1, h2, h3, Option.bind_eq_bind, Option.bind_some, form]
  rfl

theorem short_rest (pre cs : Str) (ch : Nat) : (45 :: (pre ++ ch :: cs)).drop (1 + pre.length + 1) = cs := by
  rw [show 1 + pre.length + 1 = (pre.length + 1) + 1 by omega, List.drop_succ_cons, ← List.drop_drop]
  simp

theorem short_char (pre cs : Str) (ch : Nat) : (45 :: (pre ++ ch :: cs))[1 + pre.length]? = some ch := by
  rw [Nat.add_comm, List.getElem?_cons_succ]
  simp

include hs

theorem compound_lemma {first : Bool} {cs : Str} {next : Option Str} {items : List Item} {two : Bool} (hC : Compound D first cs next items two) (i : Nat)
    (further : Bool) (arg : Str) (hnext : next = c.args[i + 1]?) (harg : c.args[i]? = some arg) :
    ∀ (pre : Str) (s : St) (a : Progress), s.arg1 = arg → arg = 45 :: (pre ++ cs) → s.offset = 1 + pre.length → (first = true ↔ pre = []) →
      s.occ.argIndex = i → s.occ.hasValue = false → s.occ.leadEnd = 1 → s.occ.valueBegin = 0 → s.argIndex = i → Rel D c m err errs invs s a →
      Out D c m err errs invs .maybeShort s i further a items two arg := by
  have hlt : i < c.args.length := (List.getElem?_eq_some_iff.1 harg).1
  -- entry to label `short_form_option` for a known option
  have entry : ∀ (pre : Str) (ch : Nat) (cs : Str) (s : St), s.arg1 = arg → arg = 45 :: (pre ++ ch :: cs) → s.offset = 1 + pre.length →
      Goes c .maybeShort s .shortForm s := by
    intro pre ch cs s h1 h2 h3
    apply goes
    have : s.offset ≠ s.arg1.length := by rw [h3, h1, h2]; simp; omega
    simp [step, this]
  have hupd : ∀ (s : St) (a : Progress), Rel D c m err errs invs s a → Rel D c m err errs invs (shortUpd s) a :=
    fun s a h => ⟨h.1, h.2, h.3, h.4, h.5, h.6⟩
  have look : ∀ (pre : Str) (ch : Nat) (cs : Str) (s : St) (a : Progress), s.arg1 = arg → arg = 45 :: (pre ++ ch :: cs) → s.offset = 1 + pre.length →
      D.Known (.short ch) → Rel D c m err errs invs s a → ∃ i s', c.reg.findShort ch = some i ∧ (shortUpd s).unpack c i = some s' ∧
        Looked D c (.short ch) s' ∧ Frame (shortUpd s) s' ∧ Rel D c m err errs invs s' a := by
    intro pre ch cs s a h1 h2 h3 h4 h5
    obtain ⟨i, hi⟩ := Option.ne_none_iff_exists'.1 ((hs.known (.short ch)).2 h4)
    obtain ⟨s', h6, h7, h8, h9⟩ := unpack_lemma hs (err := err) (errs := errs) (invs := invs) hi (shortUpd s)
    exact ⟨i, s', hi, h6, h7, h8, h9 _ (hupd _ _ h5)⟩
  have char : ∀ (pre : Str) (ch : Nat) (cs : Str) (s : St), s.arg1 = arg → arg = 45 :: (pre ++ ch :: cs) → s.offset = 1 + pre.length →
      s.arg1[s.offset]? = some ch := by
    intro pre ch cs s h1 h2 h3
    rw [h1, h3, h2, short_char]
  have occForm : ∀ (pre : Str) (ch : Nat) (cs : Str) (s : St) (b : Bool) (k : Nat), s.arg1 = arg → arg = 45 :: (pre ++ ch :: cs) → s.offset = 1 + pre.length →
      s.occ.leadEnd = 1 → optForm arg { s.occ with nameBegin := s.offset, nameEnd := s.offset + 1, hasValue := b, valueBegin := k } = some (form (.short ch)) := by
    intro pre ch cs s b k h1 h2 h3 h4
    rw [h3, h2]
    exact short_form pre cs ch { s.occ with hasValue := b, valueBegin := k } h4
  have known_of_allows : ∀ n, D.Allows n → D.Known n := by rintro n ⟨j, _, h1, _⟩; exact Or.inl ⟨j, h1⟩
  subst hnext
  generalize hnx : c.args[i + 1]? = next at hC
  induction hC with
  | done =>
    intro pre s a h1 h2 h3 _ h4 h5 h6 h7 h8 h9
    refine Or.inl ⟨a, s, goes ?_, by simp [h8], by simp, h9, .done⟩
    have : s.offset = s.arg1.length := by rw [h3, h1, h2]; simp; omega
    simp [step, this]
  | @plain first two ch cs nx items hk hna hdash hC ih =>
    intro pre s a h1 h2 h3 _ h4 h5 h6 h7 h8 h9
    obtain ⟨pi, s1, hf, hu, hL, hF, hR⟩ := look pre ch cs s a h1 h2 h3 hk h9
    have hal : s1.allow = false := by
      cases hx : s1.allow with
      | false => rfl
      | true => exact absurd (hL.allow.1 hx) hna
    have hrest : s1.offset = s1.arg1.length ∨ s1.arg1[s1.offset]? ≠ some dash := by
      right
      rw [hF.arg1, hF.offset]
      show s.arg1[s.offset + 1]? ≠ some dash
      rw [h1, h3, h2, ← List.head?_drop, short_rest]
      exact hdash
    have hG : Goes c .maybeShort s .withoutArg s1 := by
      refine (entry pre ch cs s h1 h2 h3).trans (goes ?_)
      simp only [step, shortForm_known (char pre ch cs s h1 h2 h3) hf hu, shortRest, hal, Bool.not_false, if_true, if_pos hrest]
    have hai : s1.argIndex = i := hF.argIndex.trans h8
    have ha1 : s1.arg1 = arg := hF.arg1.trans h1
    have hocc : s1.occ = { s.occ with nameBegin := s.offset, nameEnd := s.offset + 1 } := hF.occ
    have hcond : s1.occ.argIndex = s1.argIndex ∧ argOf c.args s1.occ = some none ∧ c.args[s1.argIndex]? = some s1.arg1 ∧
        optForm s1.arg1 s1.occ = some (form (.short ch)) := by
      refine ⟨by rw [hocc, hai]; exact h4, by rw [hocc]; simp [argOf, h5], by rw [hai, ha1]; exact harg, ?_⟩
      rw [ha1, hocc]
      exact occForm pre ch cs s _ _ h1 h2 h3 h6
    rcases withoutArg_lemma hs hR hL (by rw [hai]; exact hlt) hcond further with
      ⟨a', s', h10, ⟨h11, h12, h13, h14⟩, h15, h16, h17⟩ | ⟨o, a', s', h10, h11, h12⟩
    · rw [hai, ha1] at h17
      have h18 : s'.offset = 1 + (pre ++ [ch]).length := by rw [h12, hF.offset]; simp only [shortUpd, h3]; simp; omega
      rcases ih hnx (pre ++ [ch]) s' a' (h13.trans ha1) (by rw [h2]; simp) h18 (by simp) (by rw [h14, hocc]; exact h4) (by rw [h14, hocc]; exact h5)
        (by rw [h14, hocc]; exact h6) (by rw [h14, hocc]; exact h7) (h11.trans hai) h16 with ⟨a'', s'', h19, h20, h21, h22, h23⟩ | ⟨o, a'', s'', h19, h20, h21⟩
      · refine Or.inl ⟨a'', s'', (hG.trans h10).trans h19, h20, ?_, h22, .next h17 h23⟩
        rw [h21, h15, hF.valuesOnly]
        simp only [shortUpd, List.mem_cons, Item.option.injEq]
        constructor
        · rintro ((h | h) | ⟨n, v, h, h'⟩)
          · exact Or.inl h
          · exact Or.inr ⟨_, _, Or.inl ⟨rfl, rfl⟩, h⟩
          · exact Or.inr ⟨n, v, Or.inr h, h'⟩
        · rintro (h | ⟨n, v, ⟨rfl, rfl⟩ | h, h'⟩)
          · exact Or.inl (Or.inl h)
          · exact Or.inl (Or.inr h')
          · exact Or.inr ⟨n, v, h, h'⟩
      · exact Or.inr ⟨o, a'', s'', (hG.trans h10) _ h19, h20, .next h17 h21⟩
    · rw [hai, ha1] at h12
      exact Or.inr ⟨o, a', s', hG _ h10, h11, .stop h12⟩
  | @unexpected first ch cs nx hk hna hdash =>
    intro pre s a h1 h2 h3 _ h4 h5 h6 h7 h8 h9
    obtain ⟨pi, s1, hf, hu, hL, hF, hR⟩ := look pre ch cs s a h1 h2 h3 hk h9
    have hal : s1.allow = false := by
      cases hx : s1.allow with
      | false => rfl
      | true => exact absurd (hL.allow.1 hx) hna
    have hdrop : s1.arg1.drop s1.offset = cs := by
      rw [hF.arg1, hF.offset]
      show s.arg1.drop (s.offset + 1) = cs
      rw [h1, h3, h2, short_rest]
    have hat : s1.arg1[s1.offset]? = some dash := by
      rw [← List.head?_drop, hdrop]
      exact hdash
    have hol : s1.offset < s1.arg1.length := (List.getElem?_eq_some_iff.1 hat).1
    have hrest : ¬ (s1.offset = s1.arg1.length ∨ s1.arg1[s1.offset]? ≠ some dash) := by simp [hat]; omega
    have hG : Goes c .maybeShort s .notAllowed s1 := by
      refine (entry pre ch cs s h1 h2 h3).trans (goes ?_)
      simp only [step, shortForm_known (char pre ch cs s h1 h2 h3) hf hu, shortRest, hal, Bool.not_false, if_true, if_neg hrest]
    have hai : s1.argIndex = i := hF.argIndex.trans h8
    have ha1 : s1.arg1 = arg := hF.arg1.trans h1
    have hocc : s1.occ = { s.occ with nameBegin := s.offset, nameEnd := s.offset + 1 } := hF.occ
    obtain ⟨a', s', h10, ⟨h11, h12⟩, h13, h14⟩ := notAllowed_lemma (n := .short ch) hR (by rw [ha1, hocc]; exact occForm pre ch cs s _ _ h1 h2 h3 h6)
      (v := cs) (by
        have : s1.offset ≤ s1.arg1.length := by omega
        simp only [substr, this, if_true, hdrop]
        rw [List.take_of_length_le]
        rw [← hdrop]; simp) further
    rw [hai, ha1] at h14
    refine Or.inl ⟨a', s', hG.trans h10, by rw [h11, hai]; simp, ?_, h13, .next h14 .done⟩
    rw [h12, hF.valuesOnly]
    simp [shortUpd]
  | @attached first ch cs nx hal hne =>
    intro pre s a h1 h2 h3 _ h4 h5 h6 h7 h8 h9
    obtain ⟨pi, s1, hf, hu, hL, hF, hR⟩ := look pre ch cs s a h1 h2 h3 (known_of_allows _ hal) h9
    have hal' := hL.allow.2 hal
    have hol : s1.offset < s1.arg1.length := by
      rw [hF.arg1, hF.offset]
      show s.offset + 1 < s.arg1.length
      rw [h1, h3, h2]
      cases cs with
      | nil => exact absurd rfl hne
      | cons => simp; omega
    let s2 : St := { s1 with occ := { s1.occ with hasValue := true, valueBegin := s1.offset } }
    have hG : Goes c .maybeShort s .withArg s2 := by
      refine (entry pre ch cs s h1 h2 h3).trans (goes ?_)
      simp only [step, shortForm_known (char pre ch cs s h1 h2 h3) hf hu, shortRest, hal', Bool.not_true, Bool.false_eq_true, if_false, if_pos hol, s2]
    have hai : s1.argIndex = i := hF.argIndex.trans h8
    have ha1 : s1.arg1 = arg := hF.arg1.trans h1
    have hoff : s1.offset = s.offset + 1 := hF.offset
    have hocc : s2.occ = { s.occ with nameBegin := s.offset, nameEnd := s.offset + 1, hasValue := true, valueBegin := s.offset + 1 } := by
      simp only [s2, hF.occ, hoff]; rfl
    have hR2 : Rel D c m err errs invs s2 a := ⟨hR.1, hR.2, hR.3, hR.4, hR.5, hR.6⟩
    have hL2 : Looked D c (.short ch) s2 := ⟨hL.1, hL.2, hL.3⟩
    obtain ⟨a', s', h10, h11, h12, h13⟩ := withArg_lemma hs hR2 hL2 hal (i := i) (v := cs) (arg := arg) (by
      refine ⟨by rw [hocc]; exact h4, ?_, harg, ?_⟩
      · rw [hocc]
        have : s.offset + 1 ≤ arg.length := by rw [h3, h2]; simp; omega
        simp only [argOf, Bool.not_true, Bool.false_eq_true, if_false, h4, hlt, if_true, harg, Option.bind_eq_bind, Option.bind_some, substr, this]
        rw [if_pos (by omega)]
        simp only [Option.some.injEq]
        rw [h3, h2, short_rest, List.take_of_length_le]
        simp; omega
      · rw [hocc]; exact occForm pre ch cs s _ _ h1 h2 h3 h6) further
    refine Or.inl ⟨a', s', hG.trans h10, by rw [h11.argIndex]; simp [s2, hai], ?_, h12, .next h13 .done⟩
    rw [h11.valuesOnly]
    simp only [s2, hF.valuesOnly, shortUpd, List.mem_singleton, Item.option.injEq]
    constructor
    · exact Or.inl
    · rintro (h | ⟨n, v, ⟨rfl, rfl⟩, h⟩)
      · exact h
      · exact absurd h (hs.allows _ hal).2
  | @bare first ch nx hal hnr =>
    intro pre s a h1 h2 h3 _ h4 h5 h6 h7 h8 h9
    obtain ⟨pi, s1, hf, hu, hL, hF, hR⟩ := look pre ch [] s a h1 h2 h3 (known_of_allows _ hal) h9
    have hal' := hL.allow.2 hal
    have hre : s1.require = false := by
      cases hx : s1.require with
      | false => rfl
      | true => exact absurd (hL.require.1 hx) hnr
    have hend : s1.offset = s1.arg1.length := by
      rw [hF.arg1, hF.offset]
      show s.offset + 1 = s.arg1.length
      rw [h1, h3, h2]
      simp; omega
    have hG : Goes c .maybeShort s .withoutArg s1 := by
      refine (entry pre ch [] s h1 h2 h3).trans (goes ?_)
      simp only [step, shortForm_known (char pre ch [] s h1 h2 h3) hf hu, shortRest, hal', Bool.not_true, Bool.false_eq_true, if_false, hre, Bool.not_false, if_true]
      rw [if_neg (by omega)]
    have hai : s1.argIndex = i := hF.argIndex.trans h8
    have ha1 : s1.arg1 = arg := hF.arg1.trans h1
    have hocc : s1.occ = { s.occ with nameBegin := s.offset, nameEnd := s.offset + 1 } := hF.occ
    have hcond : s1.occ.argIndex = s1.argIndex ∧ argOf c.args s1.occ = some none ∧ c.args[s1.argIndex]? = some s1.arg1 ∧
        optForm s1.arg1 s1.occ = some (form (.short ch)) := by
      refine ⟨by rw [hocc, hai]; exact h4, by rw [hocc]; simp [argOf, h5], by rw [hai, ha1]; exact harg, ?_⟩
      rw [ha1, hocc]
      exact occForm pre ch [] s _ _ h1 h2 h3 h6
    rcases withoutArg_lemma hs hR hL (by rw [hai]; exact hlt) hcond further with
      ⟨a', s', h10, ⟨h11, h12, h13, h14⟩, h15, h16, h17⟩ | ⟨o, a', s', h10, h11, h12⟩
    · rw [hai, ha1] at h17
      have hG2 : Goes c .maybeShort s' .nextArg1 s' := goes (by simp [step, h12, h13, hend])
      refine Or.inl ⟨a', s', (hG.trans h10).trans hG2, by rw [h11, hai]; simp, ?_, h16, .next h17 .done⟩
      rw [h15, hF.valuesOnly]
      simp [shortUpd]
    · rw [hai, ha1] at h12
      exact Or.inr ⟨o, a', s', hG _ h10, h11, .stop h12⟩
  | @separate first ch v hre =>
    intro pre s a h1 h2 h3 _ h4 h5 h6 h7 h8 h9
    have hal := hs.requires _ hre
    obtain ⟨pi, s1, hf, hu, hL, hF, hR⟩ := look pre ch [] s a h1 h2 h3 (known_of_allows _ hal) h9
    have hal' := hL.allow.2 hal
    have hre' := hL.require.2 hre
    have hend : s1.offset = s1.arg1.length := by
      rw [hF.arg1, hF.offset]
      show s.offset + 1 = s.arg1.length
      rw [h1, h3, h2]
      simp; omega
    have hai : s1.argIndex = i := hF.argIndex.trans h8
    have hlt2 : i + 1 < c.args.length := (List.getElem?_eq_some_iff.1 hnx).1
    let s2 : St := { s1 with argIndex := s1.argIndex + 1, occ := { s1.occ with hasValue := true } }
    have hG : Goes c .maybeShort s .withArg s2 := by
      refine (entry pre ch [] s h1 h2 h3).trans (goes ?_)
      simp only [step, shortForm_known (char pre ch [] s h1 h2 h3) hf hu, shortRest, hal', Bool.not_true, Bool.false_eq_true, if_false, hre']
      rw [if_neg (by omega), if_pos (by omega)]
    have hocc : s2.occ = { s.occ with nameBegin := s.offset, nameEnd := s.offset + 1, hasValue := true } := by
      simp only [s2, hF.occ]; rfl
    have hR2 : Rel D c m err errs invs s2 a := ⟨hR.1, hR.2, hR.3, hR.4, hR.5, hR.6⟩
    have hL2 : Looked D c (.short ch) s2 := ⟨hL.1, hL.2, hL.3⟩
    obtain ⟨a', s', h10, h11, h12, h13⟩ := withArg_lemma hs hR2 hL2 hal (i := i) (v := v) (arg := arg) (by
      refine ⟨by rw [hocc]; exact h4, ?_, harg, ?_⟩
      · rw [hocc]
        simp [argOf, h4, hlt, h7, hnx]
      · rw [hocc]; exact occForm pre ch [] s _ _ h1 h2 h3 h6) further
    refine Or.inl ⟨a', s', hG.trans h10, by rw [h11.argIndex]; simp [s2, hai], ?_, h12, .next h13 .done⟩
    rw [h11.valuesOnly]
    simp only [s2, hF.valuesOnly, shortUpd, List.mem_singleton, Item.option.injEq]
    constructor
    · exact Or.inl
    · rintro (h | ⟨n, v, ⟨rfl, rfl⟩, h⟩)
      · exact h
      · exact absurd h (hs.allows _ hal).2
  | @missing first ch hre =>
    intro pre s a h1 h2 h3 hfirst h4 h5 h6 h7 h8 h9
    have hal := hs.requires _ hre
    obtain ⟨pi, s1, hf, hu, hL, hF, hR⟩ := look pre ch [] s a h1 h2 h3 (known_of_allows _ hal) h9
    have hal' := hL.allow.2 hal
    have hre' := hL.require.2 hre
    have hend : s1.offset = s1.arg1.length := by
      rw [hF.arg1, hF.offset]
      show s.offset + 1 = s.arg1.length
      rw [h1, h3, h2]
      simp; omega
    have hai : s1.argIndex = i := hF.argIndex.trans h8
    have ha1 : s1.arg1 = arg := hF.arg1.trans h1
    have hlt2 : ¬ i + 1 < c.args.length := by
      intro h
      simp [h] at hnx
    have hG : Goes c .maybeShort s .missing s1 := by
      refine (entry pre ch [] s h1 h2 h3).trans (goes ?_)
      simp only [step, shortForm_known (char pre ch [] s h1 h2 h3) hf hu, shortRest, hal', Bool.not_true, Bool.false_eq_true, if_false, hre']
      rw [if_neg (by omega), if_neg (by omega)]
    have hocc : s1.occ = { s.occ with nameBegin := s.offset, nameEnd := s.offset + 1 } := hF.occ
    obtain ⟨a', s', h10, ⟨h11, h12⟩, h13, h14⟩ := missing_lemma (n := .short ch) hR (by rw [ha1, hocc]; exact occForm pre ch [] s _ _ h1 h2 h3 h6) hend further
    rw [hai, ha1, show decide (s1.occ.nameBegin = s1.occ.leadEnd) = first by
      rw [hocc]
      simp only [h6, h3]
      cases first with
      | true => simp [hfirst.1 rfl]
      | false => simp; intro hp; simpa using hfirst.2 hp] at h14
    refine Or.inl ⟨a', s', hG.trans h10, by rw [h11, hai]; simp, ?_, h13, .next h14 .done⟩
    rw [h12, hF.valuesOnly]
    simp [shortUpd]
  | @unknown first ch cs nx hk =>
    intro pre s a h1 h2 h3 hfirst h4 h5 h6 h7 h8 h9
    have hf : c.reg.findShort ch = none := by
      have := hs.known (.short ch)
      cases hx : c.reg.findShort ch with
      | none => rfl
      | some k => exact absurd (this.1 (by simp [protoNamed, hx])) hk
    have hG : Goes c .maybeShort s .unknown (shortUpd s) := by
      refine (entry pre ch cs s h1 h2 h3).trans (goes ?_)
      simp only [step, shortForm_unknown (char pre ch cs s h1 h2 h3) hf]
    have hdec : decide ((shortUpd s).occ.nameBegin = (shortUpd s).occ.leadEnd) = first := by
      simp only [shortUpd, h6, h3]
      cases first with
      | true => simp [hfirst.1 rfl]
      | false => simp; intro hp; simpa using hfirst.2 hp
    rcases unknown_lemma hs (n := .short ch) (hupd s a h9) (by
      show optForm s.arg1 _ = _
      rw [h1]; exact occForm pre ch cs s _ _ h1 h2 h3 h6) further with ⟨a', s', h10, ⟨h11, h12⟩, h13, h14⟩ | ⟨o, a', s', h10, h11, h12⟩
    · rw [hdec] at h14
      have h14' : ItemStep D i further arg a (.unknown (.short ch) first) none a' := by
        rw [← h8, ← h1]; exact h14
      refine Or.inl ⟨a', s', hG.trans h10, by rw [h11]; simp [shortUpd, h8], ?_, h13, .next h14' .done⟩
      rw [h12]
      simp [shortUpd]
    · rw [hdec] at h12
      have h12' : ItemStep D i further arg a (.unknown (.short ch) first) (some o) a' := by
        rw [← h8, ← h1]; exact h12
      exact Or.inr ⟨o, a', s', hG _ h10, h11, .stop h12'⟩

end

/-- The beginning of label `long_form_option`. -/
def longUpd (s : St) : St :=
  { s with occ := { s.occ with nameBegin := s.offset, nameEnd := s.offset + ((s.arg1.drop s.offset).findIdx (· == equal)) },
           offset := s.offset + ((s.arg1.drop s.offset).findIdx (· == equal)) }

/-- The part of label `long_form_option` that is for known options. -/
def longRest (c : Ctx) (s : St) : Option Next :=
  if s.offset < s.arg1.length then
    if s.arg1[s.offset]? = some equal then
      let s := { s with offset := s.offset + 1 }
      if s.allow then
        some (.goto .withArg { s with occ := { s.occ with hasValue := true, valueBegin := s.offset } })
      else some (.goto .notAllowed s)
    else none
  else if !s.require then some (.goto .withoutArg s)
  else if s.argIndex ≠ c.args.length - 1 then
    some (.goto .withArg { s with argIndex := s.argIndex + 1, occ := { s.occ with hasValue := true } })
  else some (.goto .missing s)

theorem longForm_eq (c : Ctx) (s : St) : longForm c s = (substr (longUpd s).arg1 (longUpd s).occ.nameBegin ((longUpd s).occ.nameEnd -
    (longUpd s).occ.nameBegin)).bind fun name => match c.reg.findLong name with
    | some i => ((longUpd s).unpack c i).bind (longRest c)
    | none => some (.goto .unknown (longUpd s)) := rfl

theorem findIdx_name {l : Str} (h : 61 ∉ l) (v : Str) : (l ++ 61 :: v).findIdx (· == equal) = l.length := by
  induction l with
  | nil => rfl
  | cons x l ih =>
    simp only [List.mem_cons, not_or] at h
    have : (x == equal) = false := by simp [equal]; omega
    simp [List.findIdx_cons, this, ih h.2]

theorem findIdx_name' {l : Str} (h : 61 ∉ l) : l.findIdx (· == equal) = l.length := by
  induction l with
  | nil => rfl
  | cons x l ih =>
    simp only [List.mem_cons, not_or] at h
    have : (x == equal) = false := by simp [equal]; omega
    simp [List.findIdx_cons, this, ih h.2]

/-- The rest of a long option after the name. -/
inductive LongTail : Str → Prop
  | none : LongTail []
  | some (v : Str) : LongTail (61 :: v)

theorem longUpd_end {l t : Str} (hl : 61 ∉ l) (ht : LongTail t) {s : St} (h1 : s.arg1 = 45 :: 45 :: (l ++ t)) (h2 : s.offset = 2) :
    (longUpd s).offset = l.length + 2 ∧ (longUpd s).occ = { s.occ with nameBegin := 2, nameEnd := l.length + 2 } := by
  have h3 : s.offset + ((s.arg1.drop s.offset).findIdx (· == equal)) = l.length + 2 := by
    rw [h1, h2]
    simp only [List.drop_succ_cons, List.drop_zero]
    cases ht with
    | none => rw [List.append_nil, findIdx_name' hl]; omega
    | some v => rw [findIdx_name hl]; omega
  exact ⟨h3, by simp only [longUpd, h3]; rw [h2]⟩

theorem long_name {l t : Str} (hl : 61 ∉ l) (ht : LongTail t) {s : St} (h1 : s.arg1 = 45 :: 45 :: (l ++ t)) (h2 : s.offset = 2) :
    substr (longUpd s).arg1 (longUpd s).occ.nameBegin ((longUpd s).occ.nameEnd - (longUpd s).occ.nameBegin) = some l := by
  rw [(longUpd_end hl ht h1 h2).2]
  have : (longUpd s).arg1 = s.arg1 := rfl
  rw [this, h1]
  simp [substr]

theorem long_form {l t : Str} (occ : Occurrence) (hl : occ.leadEnd = 2) :
    optForm (45 :: 45 :: (l ++ t)) { occ with nameBegin := 2, nameEnd := l.length + 2 } = some (form (.long l)) := by
  simp [optForm, substr, hl, form]

theorem longForm_known {l t : Str} (hl : 61 ∉ l) (ht : LongTail t) {s : St} (h1 : s.arg1 = 45 :: 45 :: (l ++ t)) (h2 : s.offset = 2) {c : Ctx} {i : Nat}
    {s1 : St} (h3 : c.reg.findLong l = some i) (h4 : (longUpd s).unpack c i = some s1) : longForm c s = longRest c s1 := by
  rw [longForm_eq, long_name hl ht h1 h2, Option.bind_some, h3]
  simp [h4]

theorem longForm_unknown {l t : Str} (hl : 61 ∉ l) (ht : LongTail t) {s : St} (h1 : s.arg1 = 45 :: 45 :: (l ++ t)) (h2 : s.offset = 2) {c : Ctx}
    (h3 : c.reg.findLong l = none) : longForm c s = some (.goto .unknown (longUpd s)) := by
  rw [longForm_eq, long_name hl ht h1 h2, Option.bind_some, h3]

section
variable {D : Cmd} {c : Ctx} {m : Matcher} (hs : Serves D c m) {err : Bool} {errs : List (Nat × Message)} {invs : List Invocation}
include hs

/-- From label `long_form_option`, when the option is known. -/
theorem long_look {l t : Str} (hl : 61 ∉ l) (ht : LongTail t) {s : St} (h1 : s.arg1 = 45 :: 45 :: (l ++ t)) (h2 : s.offset = 2) (hk : D.Known (.long l))
    {a : Progress} (h : Rel D c m err errs invs s a) :
    ∃ s1, longForm c s = longRest c s1 ∧ Looked D c (.long l) s1 ∧ Rel D c m err errs invs s1 a ∧ s1.argIndex = s.argIndex ∧
      s1.valuesOnly = s.valuesOnly ∧ s1.offset = l.length + 2 ∧ s1.arg1 = s.arg1 ∧ s1.occ = { s.occ with nameBegin := 2, nameEnd := l.length + 2 } := by
  obtain ⟨i, hi⟩ := Option.ne_none_iff_exists'.1 ((hs.known (.long l)).2 hk)
  obtain ⟨s', h6, h7, h8, h9⟩ := unpack_lemma hs (err := err) (errs := errs) (invs := invs) hi (longUpd s)
  obtain ⟨h10, h11⟩ := longUpd_end hl ht h1 h2
  exact ⟨s', longForm_known hl ht h1 h2 hi h6, h7, h9 _ ⟨h.1, h.2, h.3, h.4, h.5, h.6⟩, h8.argIndex, h8.valuesOnly, h8.offset.trans h10, h8.arg1, h8.occ.trans h11⟩

/-- From label `long_form_option`. -/
theorem long_lemma {l t : Str} (hl : 61 ∉ l) (ht : LongTail t) {arg : Str} (harg' : arg = 45 :: 45 :: (l ++ t)) {i : Nat} (harg : c.args[i]? = some arg)
    {items : List Item} {two : Bool}
    (hitems : (t = [] ∧ D.Known (.long l) ∧ ¬ D.Requires (.long l) ∧ items = [.option (.long l) none] ∧ two = false) ∨
      (∃ v, t = 61 :: v ∧ D.Allows (.long l) ∧ items = [.option (.long l) (some v)] ∧ two = false) ∨
      (∃ v, t = 61 :: v ∧ D.Known (.long l) ∧ ¬ D.Allows (.long l) ∧ items = [.unexpected (.long l) v] ∧ two = false) ∨
      (∃ v, t = [] ∧ D.Requires (.long l) ∧ c.args[i + 1]? = some v ∧ items = [.option (.long l) (some v)] ∧ two = true) ∨
      (t = [] ∧ D.Requires (.long l) ∧ c.args[i + 1]? = none ∧ items = [.missing (.long l) true] ∧ two = false) ∨
      (¬ D.Known (.long l) ∧ items = [.unknown (.long l) true] ∧ two = false)) {s : St} {a : Progress} (h1 : s.arg1 = arg) (h2 : s.offset = 2)
    (h3 : s.occ.argIndex = i) (h4 : s.occ.hasValue = false) (h5 : s.occ.leadEnd = 2) (h6 : s.occ.valueBegin = 0) (h7 : s.argIndex = i)
    (h : Rel D c m err errs invs s a) (further : Bool) : Out D c m err errs invs .longForm s i further a items two arg := by
  have hlt : i < c.args.length := (List.getElem?_eq_some_iff.1 harg).1
  have h1' : s.arg1 = 45 :: 45 :: (l ++ t) := h1.trans harg'
  have known_of_allows : ∀ n, D.Allows n → D.Known n := by rintro n ⟨j, _, h1, _⟩; exact Or.inl ⟨j, h1⟩
  have hform : ∀ (b : Bool) (k : Nat), optForm arg { s.occ with nameBegin := 2, nameEnd := l.length + 2, hasValue := b, valueBegin := k } =
      some (form (.long l)) := by
    intro b k
    rw [harg']
    exact long_form { s.occ with hasValue := b, valueBegin := k } h5
  rcases hitems with ⟨rfl, hk, hnr, rfl, rfl⟩ | ⟨v, rfl, hal, rfl, rfl⟩ | ⟨v, rfl, hk, hna, rfl, rfl⟩ | ⟨v, rfl, hre, hv, rfl, rfl⟩ | ⟨rfl, hre, hv, rfl, rfl⟩ |
    ⟨hk, rfl, rfl⟩
  · obtain ⟨s1, g1, hL, hR, g2, g3, g4, g5, g6⟩ := long_look hs hl ht h1' h2 hk h
    have hre : s1.require = false := by
      cases hx : s1.require with
      | false => rfl
      | true => exact absurd (hL.require.1 hx) hnr
    have hend : s1.offset = s1.arg1.length := by rw [g4, g5, h1']; simp
    have hG : Goes c .longForm s .withoutArg s1 := goes (by simp [step, g1, longRest, hend, hre])
    have hai : s1.argIndex = i := g2.trans h7
    have ha1 : s1.arg1 = arg := g5.trans h1
    have hcond : s1.occ.argIndex = s1.argIndex ∧ argOf c.args s1.occ = some none ∧ c.args[s1.argIndex]? = some s1.arg1 ∧
        optForm s1.arg1 s1.occ = some (form (.long l)) := by
      refine ⟨by rw [g6, hai]; exact h3, by rw [g6]; simp [argOf, h4], by rw [hai, ha1]; exact harg, ?_⟩
      rw [ha1, g6]
      exact hform _ _
    rcases withoutArg_lemma hs hR hL (by rw [hai]; exact hlt) hcond further with
      ⟨a', s', h10, ⟨h11, h12, h13, h14⟩, h15, h16, h17⟩ | ⟨o, a', s', h10, h11, h12⟩
    · rw [hai, ha1] at h17
      have hG2 : Goes c .maybeShort s' .nextArg1 s' := goes (by simp [step, h12, h13, hend])
      refine Or.inl ⟨a', s', (hG.trans h10).trans hG2, by rw [h11, hai]; simp, ?_, h16, .next h17 .done⟩
      rw [h15, g3]
      simp
    · rw [hai, ha1] at h12
      exact Or.inr ⟨o, a', s', hG _ h10, h11, .stop h12⟩
  · obtain ⟨s1, g1, hL, hR, g2, g3, g4, g5, g6⟩ := long_look hs hl ht h1' h2 (known_of_allows _ hal) h
    have hal' := hL.allow.2 hal
    have hol : s1.offset < s1.arg1.length := by rw [g4, g5, h1']; simp
    have hat : s1.arg1[s1.offset]? = some equal := by rw [g4, g5, h1']; simp [equal]
    let s2 : St := { s1 with offset := s1.offset + 1, occ := { s1.occ with hasValue := true, valueBegin := s1.offset + 1 } }
    have hG : Goes c .longForm s .withArg s2 := by
      apply goes
      have : St.allow { s1 with offset := s1.offset + 1 } = true := hal'
      simp only [step, g1, longRest, if_pos hol, if_pos hat, if_pos this, s2]
    have hai : s1.argIndex = i := g2.trans h7
    have ha1 : s1.arg1 = arg := g5.trans h1
    have hocc : s2.occ = { s.occ with nameBegin := 2, nameEnd := l.length + 2, hasValue := true, valueBegin := l.length + 3 } := by
      simp only [s2, g6, g4]
    have hR2 : Rel D c m err errs invs s2 a := ⟨hR.1, hR.2, hR.3, hR.4, hR.5, hR.6⟩
    have hL2 : Looked D c (.long l) s2 := ⟨hL.1, hL.2, hL.3⟩
    obtain ⟨a', s', h10, h11, h12, h13⟩ := withArg_lemma hs hR2 hL2 hal (i := i) (v := v) (arg := arg) (by
      refine ⟨by rw [hocc]; exact h3, ?_, harg, ?_⟩
      · rw [hocc]
        have : l.length + 3 ≤ arg.length := by rw [harg']; simp
        simp only [argOf, Bool.not_true, Bool.false_eq_true, if_false, h3, hlt, if_true, harg, Option.bind_eq_bind, Option.bind_some, substr, this]
        rw [if_pos (by omega)]
        simp only [Option.some.injEq]
        rw [harg']
        have hd : (45 :: 45 :: (l ++ 61 :: v)).drop (l.length + 3) = v := by
          simp only [List.drop_succ_cons]
          rw [← List.drop_drop]
          simp
        rw [hd, List.take_of_length_le]
        simp; omega
      · rw [hocc]; exact hform _ _) further
    refine Or.inl ⟨a', s', hG.trans h10, by rw [h11.argIndex]; simp [s2, hai], ?_, h12, .next h13 .done⟩
    rw [h11.valuesOnly]
    simp only [s2, g3, List.mem_singleton, Item.option.injEq]
    constructor
    · exact Or.inl
    · rintro (h | ⟨n, v, ⟨rfl, rfl⟩, h⟩)
      · exact h
      · exact absurd h (hs.allows _ hal).2
  · obtain ⟨s1, g1, hL, hR, g2, g3, g4, g5, g6⟩ := long_look hs hl ht h1' h2 hk h
    have hal : s1.allow = false := by
      cases hx : s1.allow with
      | false => rfl
      | true => exact absurd (hL.allow.1 hx) hna
    have hol : s1.offset < s1.arg1.length := by rw [g4, g5, h1']; simp
    have hat : s1.arg1[s1.offset]? = some equal := by rw [g4, g5, h1']; simp [equal]
    let s2 : St := { s1 with offset := s1.offset + 1 }
    have hG : Goes c .longForm s .notAllowed s2 := by
      apply goes
      have : ¬ St.allow { s1 with offset := s1.offset + 1 } = true := by
        rw [show St.allow { s1 with offset := s1.offset + 1 } = s1.allow from rfl, hal]; simp
      simp only [step, g1, longRest, if_pos hol, if_pos hat, if_neg this, s2]
    have hai : s2.argIndex = i := g2.trans h7
    have ha1 : s2.arg1 = arg := g5.trans h1
    have hocc : s2.occ = { s.occ with nameBegin := 2, nameEnd := l.length + 2 } := g6
    have hR2 : Rel D c m err errs invs s2 a := ⟨hR.1, hR.2, hR.3, hR.4, hR.5, hR.6⟩
    obtain ⟨a', s', h10, ⟨h11, h12⟩, h13, h14⟩ := notAllowed_lemma (n := .long l) hR2 (by rw [ha1, hocc]; exact hform _ _) (v := v) (by
        have h8 : s2.offset = l.length + 3 := by simp only [s2, g4]
        have : l.length + 3 ≤ arg.length := by rw [harg']; simp
        rw [ha1, h8]
        simp only [substr, this, if_true]
        rw [harg']
        have hd : (45 :: 45 :: (l ++ 61 :: v)).drop (l.length + 3) = v := by
          simp only [List.drop_succ_cons]
          rw [← List.drop_drop]
          simp
        rw [hd, List.take_of_length_le]
        simp; omega) further
    rw [hai, ha1] at h14
    refine Or.inl ⟨a', s', hG.trans h10, by rw [h11, hai]; simp, ?_, h13, .next h14 .done⟩
    rw [h12, show s2.valuesOnly = s.valuesOnly from g3]
    simp
  · have hal := hs.requires _ hre
    obtain ⟨s1, g1, hL, hR, g2, g3, g4, g5, g6⟩ := long_look hs hl ht h1' h2 (known_of_allows _ hal) h
    have hre' := hL.require.2 hre
    have hend : s1.offset = s1.arg1.length := by rw [g4, g5, h1']; simp
    have hai : s1.argIndex = i := g2.trans h7
    have hlt2 : i + 1 < c.args.length := (List.getElem?_eq_some_iff.1 hv).1
    let s2 : St := { s1 with argIndex := s1.argIndex + 1, occ := { s1.occ with hasValue := true } }
    have hG : Goes c .longForm s .withArg s2 := by
      apply goes
      simp only [step, g1, longRest, hre', Bool.not_true, Bool.false_eq_true, if_false]
      rw [if_neg (by omega), if_pos (by omega)]
    have hocc : s2.occ = { s.occ with nameBegin := 2, nameEnd := l.length + 2, hasValue := true } := by
      simp only [s2, g6]
    have hR2 : Rel D c m err errs invs s2 a := ⟨hR.1, hR.2, hR.3, hR.4, hR.5, hR.6⟩
    have hL2 : Looked D c (.long l) s2 := ⟨hL.1, hL.2, hL.3⟩
    obtain ⟨a', s', h10, h11, h12, h13⟩ := withArg_lemma hs hR2 hL2 hal (i := i) (v := v) (arg := arg) (by
      refine ⟨by rw [hocc]; exact h3, ?_, harg, ?_⟩
      · rw [hocc]
        simp [argOf, h3, hlt, h6, hv]
      · rw [hocc]; exact hform _ _) further
    refine Or.inl ⟨a', s', hG.trans h10, by rw [h11.argIndex]; simp [s2, hai], ?_, h12, .next h13 .done⟩
    rw [h11.valuesOnly]
    simp only [s2, g3, List.mem_singleton, Item.option.injEq]
    constructor
    · exact Or.inl
    · rintro (h | ⟨n, v, ⟨rfl, rfl⟩, h⟩)
      · exact h
      · exact absurd h (hs.allows _ hal).2
  · have hal := hs.requires _ hre
    obtain ⟨s1, g1, hL, hR, g2, g3, g4, g5, g6⟩ := long_look hs hl ht h1' h2 (known_of_allows _ hal) h
    have hre' := hL.require.2 hre
    have hend : s1.offset = s1.arg1.length := by rw [g4, g5, h1']; simp
    have hai : s1.argIndex = i := g2.trans h7
    have ha1 : s1.arg1 = arg := g5.trans h1
    have hlt2 : ¬ i + 1 < c.args.length := by
      intro h
      simp [h] at hv
    have hG : Goes c .longForm s .missing s1 := by
      apply goes
      simp only [step, g1, longRest, hre', Bool.not_true, Bool.false_eq_true, if_false]
      rw [if_neg (by omega), if_neg (by omega)]
    obtain ⟨a', s', h10, ⟨h11, h12⟩, h13, h14⟩ := missing_lemma (n := .long l) hR (by rw [ha1, g6]; exact hform _ _) hend further
    rw [hai, ha1, show decide (s1.occ.nameBegin = s1.occ.leadEnd) = true by rw [g6]; simp [h5]] at h14
    refine Or.inl ⟨a', s', hG.trans h10, by rw [h11, hai]; simp, ?_, h13, .next h14 .done⟩
    rw [h12, g3]
    simp
  · have hf : c.reg.findLong l = none := by
      have := hs.known (.long l)
      cases hx : c.reg.findLong l with
      | none => rfl
      | some k => exact absurd (this.1 (by simp [protoNamed, hx])) hk
    have hG : Goes c .longForm s .unknown (longUpd s) := goes (by simp only [step, longForm_unknown hl ht h1' h2 hf])
    obtain ⟨g1, g2⟩ := longUpd_end hl ht h1' h2
    have hdec : decide ((longUpd s).occ.nameBegin = (longUpd s).occ.leadEnd) = true := by rw [g2]; simp [h5]
    have hR : Rel D c m err errs invs (longUpd s) a := ⟨h.1, h.2, h.3, h.4, h.5, h.6⟩
    rcases unknown_lemma hs (n := .long l) hR (by
      show optForm s.arg1 _ = _
      rw [h1, g2]; exact hform _ _) further with ⟨a', s', h10, ⟨h11, h12⟩, h13, h14⟩ | ⟨o, a', s', h10, h11, h12⟩
    · rw [hdec] at h14
      have h14' : ItemStep D i further arg a (.unknown (.long l) true) none a' := by
        rw [← h7, ← h1]; exact h14
      refine Or.inl ⟨a', s', hG.trans h10, by rw [h11]; simp [longUpd, h7], ?_, h13, .next h14' .done⟩
      rw [h12]
      simp [longUpd]
    · rw [hdec] at h12
      have h12' : ItemStep D i further arg a (.unknown (.long l) true) (some o) a' := by
        rw [← h7, ← h1]; exact h12
      exact Or.inr ⟨o, a', s', hG _ h10, h11, .stop h12'⟩

/-- When an argument is not an option. -/
theorem word_lemma {l : Label} {s0 s : St} (hst : step c s0 l = readWord c s) {i : Nat} (hi : i < c.args.length) (h1 : s.argIndex = i)
    (h2 : s0.valuesOnly = s.valuesOnly) {a : Progress} (h : Rel D c m err errs invs s a) :
    Out D c m err errs invs l s0 i s.valuesOnly a [.word s.arg1] false s.arg1 := by
  have hvo : ∀ s' : St, s'.valuesOnly = s.valuesOnly → (s'.valuesOnly = true ↔ s0.valuesOnly = true ∨ ∃ n v, Item.option n v ∈ [Item.word s.arg1] ∧ D.EndsOptions n) := by
    intro s' h3
    rw [h3, h2]
    simp
  cases ha : a.matching with
  | false =>
    refine Or.inl ⟨a, s, goes ?_, by simp [h1], hvo s rfl, h, .next (.skipped ha) .done⟩
    rw [hst]
    simp [readWord, h.matching, ha]
  | true =>
    have hm : s.hasMatchError = false := by rw [h.matching, ha]; rfl
    have hvalue : step c s0 l = readValue s → ¬ (s.valuesOnly = false ∧ D.Begins (a.word ++ [.keyword s.arg1])) →
        Out D c m err errs invs l s0 i s.valuesOnly a [.word s.arg1] false s.arg1 := by
      intro hst hT
      rcases hs.consume _ _ .value ⟨.valueSlot, 0⟩ i h.tracks hi rfl with ⟨h3, m', h4, h5⟩ | ⟨h3, h4⟩
      · refine Or.inl ⟨_, { s with matcher := m' }, goes (by rw [hst]; simp [readValue, h1, h4]), by simp [h1], hvo _ rfl, ?_,
          .next (.word ha (.value hT) (.take h3)) .done⟩
        exact ⟨h5, h.matching, h.errors, h.hasError, h.given, fun h' => by simp [ha] at h'⟩
      · let s1 : St := { s with offset := s.arg1.length }
        have hR : Rel D c m err errs invs s1 a := ⟨h.1, h.2, h.3, h.4, h.5, h.6⟩
        have hG : Goes c l s0 .rejected s1 := goes (by rw [hst]; simp [readValue, h1, h4, s1])
        rcases rejected_lemma hs hR ha (t := .value) h3 with ⟨a', s', h5, h6, h7, h8⟩ | ⟨a', s', h5, h7, h8⟩
        · have hG2 : Goes c .maybeShort s' .nextArg1 s' := by
            apply goes
            have : s'.offset = s'.arg1.length := by rw [h6.offset, h6.arg1]
            simp [step, this]
          rw [show s1.argIndex = i from h1] at h8
          exact Or.inl ⟨a', s', (hG.trans h5).trans hG2, by rw [h6.argIndex]; simp [s1, h1], hvo _ h6.valuesOnly, h7, .next (.word ha (.value hT) h8) .done⟩
        · rw [show s1.argIndex = i from h1] at h8
          exact Or.inr ⟨_, a', s', hG _ h5, h7, .stop (.word ha (.value hT) h8)⟩
    by_cases hv : s.valuesOnly = true
    · exact hvalue (by rw [hst]; simp [readWord, hm, hv]) (by simp [hv])
    · rw [Bool.not_eq_true] at hv
      cases hk : c.reg.findKeyword s.arg1 with
      | none => exact hvalue (by rw [hst]; simp [readWord, hm, hv, hk]) (fun hx => hs.keyword _ _ hx.2 hk)
      | some k =>
        rcases hs.consume _ _ (.keyword s.arg1) ⟨.keyword, k⟩ i h.tracks hi (by simp [symOf, hk]) with ⟨h3, m', h4, h5⟩ | ⟨h3, h4⟩
        · refine Or.inl ⟨_, { s with matcher := m' }, goes (by rw [hst]; simp [readWord, hm, hv, hk, h1, h4]), by simp [h1], hvo _ rfl, ?_,
            .next (.word ha (.keyword hv h3) (.take h3)) .done⟩
          exact ⟨h5, h.matching, h.errors, h.hasError, h.given, fun h' => by simp [ha] at h'⟩
        · exact hvalue (by rw [hst]; simp [readWord, hm, hv, hk, h1, h4]) (fun hx => h3 hx.2)

/-- What happens for an argument. -/
theorem reads_lemma {l : Label} {s0 s : St} (hst : step c s0 l = readArg c s) {i : Nat} {arg : Str} (harg : c.args[i]? = some arg) (h1 : s.argIndex = i)
    (h2 : s0.valuesOnly = s.valuesOnly) {a : Progress} (h : Rel D c m err errs invs s a) {items : List Item} {two : Bool}
    (hR : Reads D s.valuesOnly arg c.args[i + 1]? items two) : Out D c m err errs invs l s0 i s.valuesOnly a items two arg := by
  have hlt : i < c.args.length := (List.getElem?_eq_some_iff.1 harg).1
  have hword : (s.valuesOnly = true ∨ arg.length < 2 ∨ arg.head? ≠ some 45) → readArg c s = readWord c { s with arg1 := arg } := by
    intro hw
    have : (!s.valuesOnly && decide (2 ≤ arg.length) && (arg[0]? == some dash)) = false := by
      rw [← List.head?_eq_getElem?]
      rcases hw with hw | hw | hw
      · simp [hw]
      · have : ¬ 2 ≤ arg.length := by omega
        simp [this]
      · have : (arg.head? == some dash) = false := by simpa [dash] using hw
        simp [this]
    simp only [readArg, h1, harg, Option.bind_eq_bind, Option.bind_some, this, Bool.false_eq_true, if_false]
  have hshort : ∀ ch cs, s.valuesOnly = false → arg = 45 :: ch :: cs → ch ≠ 45 → Goes c l s0 .shortForm
      { s with arg1 := arg, occ := ⟨i, false, 1, 0, 0, 0⟩, offset := 1 } := by
    intro ch cs hv ha hc
    apply goes
    rw [hst]
    simp [readArg, h1, harg, hv, ha, dash, hc]
  have hlong : ∀ cs, s.valuesOnly = false → arg = 45 :: 45 :: cs → Goes c l s0 .longForm { s with arg1 := arg, occ := ⟨i, false, 2, 0, 0, 0⟩, offset := 2 } := by
    intro cs hv ha
    apply goes
    rw [hst]
    simp [readArg, h1, harg, hv, ha, dash]
  have through : ∀ {l' : Label} {s' : St}, Goes c l s0 l' s' → s'.valuesOnly = s.valuesOnly →
      Out D c m err errs invs l' s' i s.valuesOnly a items two arg → Out D c m err errs invs l s0 i s.valuesOnly a items two arg := by
    intro l' s' hG hv hO
    rcases hO with ⟨a', s'', h3, h4, h5, h6⟩ | ⟨o, a', s'', h3, h4⟩
    · exact Or.inl ⟨a', s'', hG.trans h3, h4, by rw [h5, hv, h2], h6⟩
    · exact Or.inr ⟨o, a', s'', hG _ h3, h4⟩
  have hRel : ∀ (occ : Occurrence) (k : Nat), Rel D c m err errs invs { s with arg1 := arg, occ := occ, offset := k } a :=
    fun occ k => ⟨h.1, h.2, h.3, h.4, h.5, h.6⟩
  have long : ∀ {n t : Str}, s.valuesOnly = false → 61 ∉ n → LongTail t → arg = 45 :: 45 :: (n ++ t) →
      ((t = [] ∧ D.Known (.long n) ∧ ¬ D.Requires (.long n) ∧ items = [.option (.long n) none] ∧ two = false) ∨
      (∃ v, t = 61 :: v ∧ D.Allows (.long n) ∧ items = [.option (.long n) (some v)] ∧ two = false) ∨
      (∃ v, t = 61 :: v ∧ D.Known (.long n) ∧ ¬ D.Allows (.long n) ∧ items = [.unexpected (.long n) v] ∧ two = false) ∨
      (∃ v, t = [] ∧ D.Requires (.long n) ∧ c.args[i + 1]? = some v ∧ items = [.option (.long n) (some v)] ∧ two = true) ∨
      (t = [] ∧ D.Requires (.long n) ∧ c.args[i + 1]? = none ∧ items = [.missing (.long n) true] ∧ two = false) ∨
      (¬ D.Known (.long n) ∧ items = [.unknown (.long n) true] ∧ two = false)) →
      Out D c m err errs invs l s0 i s.valuesOnly a items two arg := by
    intro n t hv hl ht ha hi
    exact through (hlong _ hv ha) rfl (long_lemma hs hl ht ha harg hi
      (s := { s with arg1 := arg, occ := ⟨i, false, 2, 0, 0, 0⟩, offset := 2 }) rfl rfl rfl rfl rfl rfl h1 (hRel _ _) _)
  generalize hnx : c.args[i + 1]? = next at hR
  cases hR with
  | word hw =>
    have := word_lemma hs (l := l) (s0 := s0) (s := { s with arg1 := arg }) (by rw [hst]; exact hword hw) hlt h1 h2 (a := a) (err := err) (errs := errs)
      (invs := invs) ⟨h.1, h.2, h.3, h.4, h.5, h.6⟩
    exact this
  | @short ch cs _ _ _ hv hc hC =>
    refine through (hshort ch cs hv rfl hc) rfl ?_
    have hC' := compound_lemma hs hC i s.valuesOnly (45 :: ch :: cs) hnx.symm harg (err := err) (errs := errs) (invs := invs) []
      { s with arg1 := 45 :: ch :: cs, occ := ⟨i, false, 1, 0, 0, 0⟩, offset := 1 } a rfl rfl rfl (by simp) rfl rfl rfl rfl h1 (hRel _ _)
    have hback : Goes c .shortForm { s with arg1 := 45 :: ch :: cs, occ := ⟨i, false, 1, 0, 0, 0⟩, offset := 1 } .maybeShort
        { s with arg1 := 45 :: ch :: cs, occ := ⟨i, false, 1, 0, 0, 0⟩, offset := 1 } := goes_back (by simp [step])
    rcases hC' with ⟨a', s'', h3, h4⟩ | ⟨o, a', s'', h3, h4⟩
    · exact Or.inl ⟨a', s'', hback.trans h3, h4⟩
    · exact Or.inr ⟨o, a', s'', hback _ h3, h4⟩
  | long hv hl hk hr => exact long hv hl .none (by simp) (Or.inl ⟨rfl, hk, hr, rfl, rfl⟩)
  | assigned hv hl hal => exact long hv hl (.some _) rfl (Or.inr (Or.inl ⟨_, rfl, hal, rfl, rfl⟩))
  | unexpected hv hl hk hal => exact long hv hl (.some _) rfl (Or.inr (Or.inr (Or.inl ⟨_, rfl, hk, hal, rfl, rfl⟩)))
  | separate hv hl hr => exact long hv hl .none (by simp) (Or.inr (Or.inr (Or.inr (Or.inl ⟨_, rfl, hr, hnx, rfl, rfl⟩))))
  | missing hv hl hr => exact long hv hl .none (by simp) (Or.inr (Or.inr (Or.inr (Or.inr (Or.inl ⟨rfl, hr, hnx, rfl, rfl⟩)))))
  | unknown hv hl hk => exact long hv hl .none (by simp) (Or.inr (Or.inr (Or.inr (Or.inr (Or.inr ⟨hk, rfl, rfl⟩)))))
  | unknownAssigned hv hl hk => exact long hv hl (.some _) rfl (Or.inr (Or.inr (Or.inr (Or.inr (Or.inr ⟨hk, rfl, rfl⟩)))))

end

end Verif.CliProc
