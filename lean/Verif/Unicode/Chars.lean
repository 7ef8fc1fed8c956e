import Verif.Unicode.Conv
/-! Lemmas that relate the loop bodies to the forms of single characters. -/
namespace Verif.Unicode
open Spec

set_option linter.unusedTactic false
set_option maxRecDepth 10000

/-- UTF-8 form of a code point as a function. -/
def enc8 (v : Nat) : List Nat :=
  if v < 0x80 then [v]
  else if v < 0x800 then [0xC0 + v / 0x40, 0x80 + v % 0x40]
  else if v < 0x10000 then [0xE0 + v / 0x1000, 0x80 + v / 0x40 % 0x40, 0x80 + v % 0x40]
  else [0xF0 + v / 0x40000, 0x80 + v / 0x1000 % 0x40, 0x80 + v / 0x40 % 0x40, 0x80 + v % 0x40]

/-- UTF-16 form of a code point as a function. -/
def enc16 (v : Nat) : List Nat :=
  if v < 0x10000 then [v] else [0xD800 + (v - 0x10000) / 0x400, 0xDC00 + (v - 0x10000) % 0x400]

theorem one16 {v : Nat} (h : v < 2 ^ 16) : Utf16Char v [v] := .one v h
theorem two16 {v a b x y : Nat} (ha : a < 2 ^ 10) (hb : b < 2 ^ 10) (hv : v = 2 ^ 16 + a * 2 ^ 10 + b)
    (hx : x = 0xD800 + a) (hy : y = 0xDC00 + b) : Utf16Char v [x, y] := by
  subst hv hx hy; exact .two a b ha hb
theorem two8 {v a b x y : Nat} (ha : a < 2 ^ 5) (hb : b < 2 ^ 6) (hv : v = a * 2 ^ 6 + b) (hm : 2 ^ 7 ≤ v)
    (hx : x = 0b11000000 + a) (hy : y = 0b10000000 + b) : Utf8Char v [x, y] := by
  subst hv hx hy; exact .two a b ha hb hm
theorem three8 {v a b c x y z : Nat} (ha : a < 2 ^ 4) (hb : b < 2 ^ 6) (hc : c < 2 ^ 6)
    (hv : v = a * 2 ^ 12 + b * 2 ^ 6 + c) (hm : 2 ^ 11 ≤ v)
    (hx : x = 0b11100000 + a) (hy : y = 0b10000000 + b) (hz : z = 0b10000000 + c) : Utf8Char v [x, y, z] := by
  subst hv hx hy hz; exact .three a b c ha hb hc hm
theorem four8 {v a b c d x y z w : Nat} (ha : a < 2 ^ 3) (hb : b < 2 ^ 6) (hc : c < 2 ^ 6) (hd : d < 2 ^ 6)
    (hv : v = a * 2 ^ 18 + b * 2 ^ 12 + c * 2 ^ 6 + d) (hm : 2 ^ 16 ≤ v)
    (hx : x = 0b11110000 + a) (hy : y = 0b10000000 + b) (hz : z = 0b10000000 + c) (hw : w = 0b10000000 + d) :
    Utf8Char v [x, y, z, w] := by
  subst hv hx hy hz hw; exact .four a b c d ha hb hc hd hm

theorem enc8_of {v : Nat} {bs : List Nat} (h : Utf8Char v bs) : bs = enc8 v := by
  cases h with
  | one ha => rw [enc8, if_pos (by omega)]
  | two a b ha hb h =>
    rw [enc8, if_neg (by omega), if_pos (by omega)]
    congr 1
    · omega
    · congr 1; omega
  | three a b c ha hb hc h =>
    rw [enc8, if_neg (by omega), if_neg (by omega), if_pos (by omega)]
    congr 1
    · omega
    · congr 1
      · omega
      · congr 1; omega
  | four a b c d ha hb hc hd h =>
    rw [enc8, if_neg (by omega), if_neg (by omega), if_neg (by omega)]
    congr 1
    · omega
    · congr 1
      · omega
      · congr 1
        · omega
        · congr 1; omega

theorem utf8Char_enc8 {v : Nat} (h : v < 0x200000) : Utf8Char v (enc8 v) := by
  unfold enc8
  split_ifs with h1 h2 h3
  · exact .one v h1
  · exact two8 (a := v / 0x40) (b := v % 0x40) (by omega) (by omega) (by omega) (by omega) (by omega) (by omega)
  · exact three8 (a := v / 0x1000) (b := v / 0x40 % 0x40) (c := v % 0x40) (by omega) (by omega) (by omega) (by omega)
      (by omega) (by omega) (by omega) (by omega)
  · exact four8 (a := v / 0x40000) (b := v / 0x1000 % 0x40) (c := v / 0x40 % 0x40) (d := v % 0x40) (by omega) (by omega)
      (by omega) (by omega) (by omega) (by omega) (by omega) (by omega) (by omega) (by omega)

theorem enc16_of {v : Nat} {us : List Nat} (h : Utf16Char v us) : us = enc16 v := by
  cases h with
  | one ha => rw [enc16, if_pos (by omega)]
  | two a b ha hb =>
    rw [enc16, if_neg (by omega)]
    exact List.cons_eq_cons.2 ⟨by omega, List.cons_eq_cons.2 ⟨by omega, rfl⟩⟩

theorem utf16Char_enc16 {v : Nat} (h : v < 0x110000) : Utf16Char v (enc16 v) := by
  unfold enc16
  split_ifs with h1
  · exact .one v h1
  · exact two16 (a := (v - 0x10000) / 0x400) (b := (v - 0x10000) % 0x400) (by omega) (by omega) (by omega) (by omega)
      (by omega)

theorem valid_lt {v : Nat} (h : Valid v) : v < 0x110000 := by unfold Valid at h; omega

theorem enc8_valid {v : Nat} {bs : List Nat} (h : Valid v) : Utf8Char v bs ↔ bs = enc8 v :=
  ⟨enc8_of, fun e => by rw [e]; exact utf8Char_enc8 (by have := valid_lt h; omega)⟩
theorem enc16_valid {v : Nat} {bs : List Nat} (h : Valid v) : Utf16Char v bs ↔ bs = enc16 v :=
  ⟨enc16_of, fun e => by rw [e]; exact utf16Char_enc16 (valid_lt h)⟩

/-- A loop body converts characters: it takes the form `form` of a character that satisfies `P`, and writes `e v`.
Input elements satisfy `B`. -/
structure Converts (step : List Nat → Nat → Step) (B : Nat → Prop) (form : Nat → List Nat → Prop) (P : Nat → Prop)
    (e : Nat → List Nat) : Prop where
  sound : ∀ rest us n, (∀ b ∈ rest, B b) → step rest 4 = .emit us n →
    ∃ v, P v ∧ form v (rest.take n) ∧ us = e v
  complete : ∀ v bs more, P v → form v bs → step (bs ++ more) 4 = .emit (e v) bs.length

theorem encodeUtf8_converts : Converts encodeUtf8Step (fun _ => True) (fun v us => us = [v]) Valid enc8 where
  sound rest us n _ h := by
    rcases rest with _ | ⟨v, t⟩
    · simp [encodeUtf8Step] at h
    · refine ⟨v, ?_⟩
      simp only [encodeUtf8Step, ge_iff_le, Nat.reduceLeDiff, if_true] at h
      unfold Valid enc8
      split_ifs at h ⊢ <;> first
        | (exfalso; omega)
        | (injection h with h1 h2; subst h1 h2; exact ⟨by omega, rfl, rfl⟩)
        | (injection h; done)
  complete v bs more hv hf := by
    subst hf
    simp only [encodeUtf8Step, List.cons_append, ge_iff_le, Nat.reduceLeDiff, if_true, List.nil_append, List.length_cons,
      List.length_nil, Nat.zero_add]
    unfold Valid at hv
    unfold enc8
    split_ifs <;> first | rfl | (exfalso; omega)

theorem encodeUtf16_converts : Converts encodeUtf16Step (fun _ => True) (fun v us => us = [v]) Valid enc16 where
  sound rest us n _ h := by
    rcases rest with _ | ⟨v, t⟩
    · simp [encodeUtf16Step] at h
    · refine ⟨v, ?_⟩
      simp only [encodeUtf16Step, ge_iff_le, Nat.reduceLeDiff, if_true] at h
      unfold Valid enc16
      split_ifs at h ⊢ <;> first
        | (exfalso; omega)
        | (injection h with h1 h2; subst h1 h2; exact ⟨by omega, rfl, rfl⟩)
        | (injection h; done)
  complete v bs more hv hf := by
    subst hf
    simp only [encodeUtf16Step, List.cons_append, ge_iff_le, Nat.reduceLeDiff, if_true, List.nil_append, List.length_cons,
      List.length_nil, Nat.zero_add]
    unfold Valid at hv
    unfold enc16
    split_ifs <;> first | rfl | (exfalso; omega)

theorem or_add {a b n : Nat} (h : b < 2 ^ n) : (a <<< n) ||| b = a * 2 ^ n + b := by
  rw [← Nat.shiftLeft_add_eq_or_of_lt h, Nat.shiftLeft_eq]

theorem pair_val {a b : Nat} (h1 : 0xDC00 ≤ b) (h2 : b < 0xE000) :
    ((a - 0xD800) <<< 10) ||| (b - 0xDC00) = (a - 0xD800) * 2 ^ 10 + (b - 0xDC00) := or_add (by omega)

/-- The characters that a decoder accepts. -/
def Dec (red : Bool) (v : Nat) : Prop := Valid v ∧ (red = true → v < 2 ^ 16)

theorem decodeUtf16_converts (red : Bool) :
    Converts (decodeUtf16Step red) (fun _ => True) Utf16Char (Dec red) (fun v => [v]) where
  sound rest us n _ h := by
    rcases rest with _ | ⟨v, _ | ⟨w, t⟩⟩
    · simp [decodeUtf16Step] at h
    · simp only [decodeUtf16Step, ge_iff_le, Nat.reduceLeDiff, if_true] at h
      split_ifs at h <;> first
        | (injection h with h1 h2; subst h1 h2
           exact ⟨v, ⟨by unfold Valid; omega, by omega⟩, .one v (by omega), rfl⟩)
        | (injection h; done)
    · simp only [decodeUtf16Step, ge_iff_le, Nat.reduceLeDiff, if_true] at h
      split_ifs at h with c1 c2 c3 c4 c5 c6 <;> first
        | (injection h with h1 h2; subst h1 h2
           exact ⟨v, ⟨by unfold Valid; omega, by omega⟩, .one v (by omega), rfl⟩)
        | (injection h with h1 h2; subst h1 h2
           rw [pair_val c5.1 c5.2]
           refine ⟨_, ⟨?_, ?_⟩, ?_, rfl⟩
           · unfold Valid; omega
           · intro h; rw [h] at c6; cases c6
           · exact two16 (a := v - 0xD800) (b := w - 0xDC00) (by omega) (by omega) (by omega) (by omega) (by omega))
        | (injection h; done)
  complete v bs more hv hf := by
    obtain ⟨hv, hr⟩ := hv
    unfold Valid at hv
    cases hf with
    | one ha =>
      simp only [decodeUtf16Step, List.cons_append, ge_iff_le, Nat.reduceLeDiff, if_true]
      rw [if_pos (by omega), if_pos (by omega), if_pos (by omega)]; rfl
    | two a b ha hb =>
      simp only [decodeUtf16Step, List.cons_append, ge_iff_le, Nat.reduceLeDiff, if_true]
      rw [if_pos (by omega), if_neg (by omega), if_pos (by omega), if_pos (by omega), pair_val (by omega) (by omega)]
      have hred : red = false := by
        cases red
        · rfl
        · exact absurd (hr rfl) (by omega)
      rw [if_pos hred, Nat.add_sub_cancel_left, Nat.add_sub_cancel_left, ← Nat.add_assoc]; rfl

theorem cont_iff : ∀ b < 256, (b &&& 0xC0 = 0x80 ↔ 0x80 ≤ b ∧ b < 0xC0) := by decide
theorem low6 (b : Nat) : b &&& 0x3F = b % 2 ^ 6 := Nat.and_two_pow_sub_one_eq_mod b 6
theorem low5 (b : Nat) : b &&& 0x1F = b % 2 ^ 5 := Nat.and_two_pow_sub_one_eq_mod b 5
theorem low4 (b : Nat) : b &&& 0x0F = b % 2 ^ 4 := Nat.and_two_pow_sub_one_eq_mod b 4
theorem low3 (b : Nat) : b &&& 0x07 = b % 2 ^ 3 := Nat.and_two_pow_sub_one_eq_mod b 3

theorem val2 (a b : Nat) : ((a &&& 0x1F) <<< 6) ||| (b &&& 0x3F) = a % 2 ^ 5 * 2 ^ 6 + b % 2 ^ 6 := by
  rw [low6, low5, or_add (by omega)]

theorem val3 (a b c : Nat) : ((a &&& 0x0F) <<< 12) ||| ((b &&& 0x3F) <<< 6) ||| (c &&& 0x3F) =
    a % 2 ^ 4 * 2 ^ 12 + b % 2 ^ 6 * 2 ^ 6 + c % 2 ^ 6 := by
  rw [Nat.or_assoc, low6, low6, low4, or_add (a := b % 2 ^ 6) (by omega), or_add (by omega)]; omega

theorem val4 (a b c d : Nat) :
    ((a &&& 0x07) <<< 18) ||| ((b &&& 0x3F) <<< 12) ||| ((c &&& 0x3F) <<< 6) ||| (d &&& 0x3F) =
    a % 2 ^ 3 * 2 ^ 18 + b % 2 ^ 6 * 2 ^ 12 + c % 2 ^ 6 * 2 ^ 6 + d % 2 ^ 6 := by
  rw [Nat.or_assoc, Nat.or_assoc, low6, low6, low6, low3, or_add (a := c % 2 ^ 6) (by omega),
    or_add (a := b % 2 ^ 6) (by omega), or_add (by omega)]; omega

theorem dec8_four {v1 v2 v3 v4 X : Nat} {t : List Nat} (h1 : 0xF0 ≤ v1) (h2 : v1 < 0xF8)
    (h3 : 0x80 ≤ v2) (h3' : v2 < 0xC0) (h4 : 0x80 ≤ v3) (h4' : v3 < 0xC0) (h5 : 0x80 ≤ v4) (h5' : v4 < 0xC0)
    (hX : v1 % 2 ^ 3 * 2 ^ 18 + v2 % 2 ^ 6 * 2 ^ 12 + v3 % 2 ^ 6 * 2 ^ 6 + v4 % 2 ^ 6 = X)
    (h6 : 0x10000 ≤ X) (h7 : X < 0x110000) :
    decodeUtf8Step false (v1 :: v2 :: v3 :: v4 :: t) 4 = .emit [X] 4 := by
  simp only [decodeUtf8Step, ge_iff_le, Nat.reduceLeDiff, if_true, val4]
  rw [hX, if_neg (by omega), if_pos (by omega), if_neg (by omega), if_neg (by omega), if_pos h2,
    if_pos ⟨(cont_iff _ (by omega)).2 ⟨h3, h3'⟩, (cont_iff _ (by omega)).2 ⟨h4, h4'⟩,
      (cont_iff _ (by omega)).2 ⟨h5, h5'⟩⟩, if_pos h6, if_pos h7]

set_option maxHeartbeats 4000000 in
theorem decodeUtf8_converts (red : Bool) :
    Converts (decodeUtf8Step red) (fun b => b < 256) Utf8Char (Dec red) (fun v => [v]) where
  sound rest us n hB h := by
    have key : ∀ v bs, bs = rest.take n → us = [v] → Valid v → (red = true → v < 2 ^ 16) → Utf8Char v bs →
        ∃ v, Dec red v ∧ Utf8Char v (rest.take n) ∧ us = [v] :=
      fun v bs h1 h2 h3 h4 h5 => ⟨v, ⟨h3, h4⟩, h1 ▸ h5, h2⟩
    have one : ∀ v t, rest = v :: t → v < 0x80 → n = 1 → us = [v] →
        ∃ v, Dec red v ∧ Utf8Char v (rest.take n) ∧ us = [v] := by
      intro v t e1 e2 e3 e4
      exact key v [v] (by rw [e1, e3]; rfl) e4 (by unfold Valid; omega) (by omega) (.one v (by omega))
    have two : ∀ v w t, rest = v :: w :: t → 0xC0 ≤ v → v < 0xE0 → w &&& 0xC0 = 0x80 →
        v % 2 ^ 5 * 2 ^ 6 + w % 2 ^ 6 ≥ 0x80 → n = 2 → us = [v % 2 ^ 5 * 2 ^ 6 + w % 2 ^ 6] →
        ∃ v, Dec red v ∧ Utf8Char v (rest.take n) ∧ us = [v] := by
      intro v w t e1 e2 e3 e4 e5 e6 e7
      have hw := (cont_iff w (hB w (by rw [e1]; simp))).1 e4
      refine key _ [v, w] (by rw [e1, e6]; rfl) e7 (by unfold Valid; omega) (by omega) ?_
      exact two8 (a := v % 2 ^ 5) (b := w % 2 ^ 6) (by omega) (by omega) rfl (by omega) (by omega) (by omega)
    have three : ∀ v w x t, rest = v :: w :: x :: t → 0xE0 ≤ v → v < 0xF0 → w &&& 0xC0 = 0x80 → x &&& 0xC0 = 0x80 →
        v % 2 ^ 4 * 2 ^ 12 + w % 2 ^ 6 * 2 ^ 6 + x % 2 ^ 6 ≥ 0x800 →
        (v % 2 ^ 4 * 2 ^ 12 + w % 2 ^ 6 * 2 ^ 6 + x % 2 ^ 6 < 0xD800 ∨
          v % 2 ^ 4 * 2 ^ 12 + w % 2 ^ 6 * 2 ^ 6 + x % 2 ^ 6 ≥ 0xE000) →
        v % 2 ^ 4 * 2 ^ 12 + w % 2 ^ 6 * 2 ^ 6 + x % 2 ^ 6 < 0xFFFE →
        n = 3 → us = [v % 2 ^ 4 * 2 ^ 12 + w % 2 ^ 6 * 2 ^ 6 + x % 2 ^ 6] →
        ∃ v, Dec red v ∧ Utf8Char v (rest.take n) ∧ us = [v] := by
      intro v w x t e1 e2 e3 e4 e4' e5 e5' e5'' e6 e7
      have hw := (cont_iff w (hB w (by rw [e1]; simp))).1 e4
      have hx := (cont_iff x (hB x (by rw [e1]; simp))).1 e4'
      refine key _ [v, w, x] (by rw [e1, e6]; rfl) e7 (by unfold Valid; omega) (by omega) ?_
      exact three8 (a := v % 2 ^ 4) (b := w % 2 ^ 6) (c := x % 2 ^ 6) (by omega) (by omega) (by omega) rfl (by omega)
        (by omega) (by omega) (by omega)
    have four : ∀ v w x y t, rest = v :: w :: x :: y :: t → 0xF0 ≤ v → v < 0xF8 → w &&& 0xC0 = 0x80 →
        x &&& 0xC0 = 0x80 → y &&& 0xC0 = 0x80 →
        v % 2 ^ 3 * 2 ^ 18 + w % 2 ^ 6 * 2 ^ 12 + x % 2 ^ 6 * 2 ^ 6 + y % 2 ^ 6 ≥ 0x10000 →
        v % 2 ^ 3 * 2 ^ 18 + w % 2 ^ 6 * 2 ^ 12 + x % 2 ^ 6 * 2 ^ 6 + y % 2 ^ 6 < 0x110000 → red = false →
        n = 4 → us = [v % 2 ^ 3 * 2 ^ 18 + w % 2 ^ 6 * 2 ^ 12 + x % 2 ^ 6 * 2 ^ 6 + y % 2 ^ 6] →
        ∃ v, Dec red v ∧ Utf8Char v (rest.take n) ∧ us = [v] := by
      intro v w x y t e1 e2 e3 e4 e4' e4'' e5 e5' hred e6 e7
      have hw := (cont_iff w (hB w (by rw [e1]; simp))).1 e4
      have hx := (cont_iff x (hB x (by rw [e1]; simp))).1 e4'
      have hy := (cont_iff y (hB y (by rw [e1]; simp))).1 e4''
      refine key _ [v, w, x, y] (by rw [e1, e6]; rfl) e7 (by unfold Valid; omega) (by rw [hred]; intro h; cases h) ?_
      exact four8 (a := v % 2 ^ 3) (b := w % 2 ^ 6) (c := x % 2 ^ 6) (d := y % 2 ^ 6) (by omega) (by omega) (by omega)
        (by omega) rfl (by omega) (by omega) (by omega) (by omega) (by omega)
    unfold decodeUtf8Step at h
    split at h
    · rename_i v1 r
      simp only [val2, val3, val4, ge_iff_le, Nat.reduceLeDiff, if_true] at h
      split_ifs at h with c1 c2 c3 c4 c5 c6
      · injection h with h1 h2; exact one v1 r rfl c1 h2.symm h1.symm
      · split at h
        · split_ifs at h with d1 d2
          injection h with h1 h2
          exact two _ _ _ rfl c2 c3 d1 d2 h2.symm h1.symm
        · cases h
      · split at h
        · split_ifs at h with d1 d2 d3 d4
          injection h with h1 h2
          exact three _ _ _ _ rfl (by omega) c4 d1.1 d1.2 d2 d3 d4 h2.symm h1.symm
        · cases h
      · split at h
        · split_ifs at h with d1 d2 d3
          injection h with h1 h2
          exact four _ _ _ _ _ rfl (by omega) c5 d1.1 d1.2.1 d1.2.2 d2 d3 c6 h2.symm h1.symm
        · cases h
      · split at h
        · split_ifs at h
        · cases h
    · cases h
  complete v bs more hv hf := by
    obtain ⟨hv, hr⟩ := hv
    unfold Valid at hv
    cases hf with
    | one ha =>
      simp only [decodeUtf8Step, List.cons_append, ge_iff_le, Nat.reduceLeDiff, if_true]
      rw [if_pos (by omega)]; rfl
    | two a b ha hb h =>
      simp only [decodeUtf8Step, List.cons_append, ge_iff_le, Nat.reduceLeDiff, if_true, val2]
      rw [if_neg (by omega), if_pos (by omega), if_pos (by omega), if_pos ((cont_iff _ (by omega)).2 (by omega)),
        if_pos (by omega)]
      exact congrArg (fun x => Step.emit [x] 2) (by omega)
    | three a b c ha hb hc h =>
      simp only [decodeUtf8Step, List.cons_append, ge_iff_le, Nat.reduceLeDiff, if_true, val3]
      rw [if_neg (by omega), if_pos (by omega), if_neg (by omega), if_pos (by omega),
        if_pos ⟨(cont_iff _ (by omega)).2 (by omega), (cont_iff _ (by omega)).2 (by omega)⟩,
        if_pos (by omega), if_pos (by omega), if_pos (by omega)]
      exact congrArg (fun x => Step.emit [x] 3) (by omega)
    | four a b c d ha hb hc hd h =>
      have hred : red = false := by
        cases red
        · rfl
        · exact absurd (hr rfl) (by omega)
      subst hred
      exact dec8_four (by omega) (by omega) (by omega) (by omega) (by omega) (by omega) (by omega) (by omega) (by omega) (by omega) (by omega)

/-- Replaces the decoded code point by its form. -/
def mapEmit (e : Nat → List Nat) : Step → Step
  | .emit (v :: _) n => .emit (e v) n
  | x => x

set_option maxHeartbeats 4000000 in
theorem utf8ToUtf16_eq (rest : List Nat) : utf8ToUtf16Step rest 4 = mapEmit enc16 (decodeUtf8Step false rest 4) := by
  have small : ∀ v, v < 0x10000 → enc16 v = [v] := fun v h => by rw [enc16, if_pos h]
  have large : ∀ v, 0x10000 ≤ v → enc16 v = [0xD800 + (v - 0x10000) / 0x400, 0xDC00 + (v - 0x10000) % 0x400] :=
    fun v h => by rw [enc16, if_neg (by omega)]
  rcases rest with _ | ⟨a, _ | ⟨b, _ | ⟨c, _ | ⟨d, t⟩⟩⟩⟩ <;>
    simp only [utf8ToUtf16Step, decodeUtf8Step, ge_iff_le, Nat.reduceLeDiff, if_true, val2, val3, val4] <;>
    (try split_ifs) <;>
    first
      | rfl
      | (simp only [mapEmit]; rw [small _ (by omega)])
      | (simp only [mapEmit]; rw [large _ (by assumption)])

set_option maxHeartbeats 4000000 in
theorem utf16ToUtf8_eq (rest : List Nat) : utf16ToUtf8Step rest 4 = mapEmit enc8 (decodeUtf16Step false rest 4) := by
  have one : ∀ v, v < 0x80 → enc8 v = [v] := fun v h => by rw [enc8, if_pos h]
  have two : ∀ v, ¬ v < 0x80 → v < 0x800 → enc8 v = [0xC0 + v / 0x40, 0x80 + v % 0x40] := fun v h h2 => by
    rw [enc8, if_neg h, if_pos h2]
  have three : ∀ v, ¬ v < 0x80 → ¬ v < 0x800 → v < 0x10000 →
      enc8 v = [0xE0 + v / 0x1000, 0x80 + v / 0x40 % 0x40, 0x80 + v % 0x40] := fun v h h2 h3 => by
    rw [enc8, if_neg h, if_neg h2, if_pos h3]
  have four : ∀ w, enc8 (0x10000 + w) = [0xF0 + (0x10000 + w) / 0x40000, 0x80 + (0x10000 + w) / 0x1000 % 0x40,
      0x80 + (0x10000 + w) / 0x40 % 0x40, 0x80 + (0x10000 + w) % 0x40] := fun w => by
    rw [enc8, if_neg (by omega), if_neg (by omega), if_neg (by omega)]
  rcases rest with _ | ⟨a, _ | ⟨b, t⟩⟩ <;>
    simp only [utf16ToUtf8Step, decodeUtf16Step, ge_iff_le, Nat.reduceLeDiff, if_true] <;>
    (try split_ifs) <;>
    first
      | rfl
      | (exfalso; omega)
      | (simp only [mapEmit]; rw [one _ (by assumption)])
      | (simp only [mapEmit]; rw [two _ (by assumption) (by assumption)])
      | (simp only [mapEmit]; rw [three _ (by assumption) (by assumption) (by assumption)])
      | (simp only [mapEmit]; rw [four])

theorem Converts.map {step step' : List Nat → Nat → Step} {B : Nat → Prop} {form : Nat → List Nat → Prop}
    {P : Nat → Prop} (e : Nat → List Nat) (h : Converts step B form P (fun v => [v]))
    (heq : ∀ rest, step' rest 4 = mapEmit e (step rest 4)) : Converts step' B form P e where
  sound rest us n hB h1 := by
    rw [heq] at h1
    cases h2 : step rest 4 with
    | emit us' n' =>
      obtain ⟨v, hP, hf, hu⟩ := h.sound rest us' n' hB h2
      rw [h2, hu] at h1
      simp only [mapEmit] at h1
      injection h1 with e1 e2
      exact ⟨v, hP, e2 ▸ hf, e1.symm⟩
    | full => rw [h2] at h1; cases h1
    | error => rw [h2] at h1; cases h1
    | exhausted => rw [h2] at h1; cases h1
  complete v bs more hP hf := by
    rw [heq, h.complete v bs more hP hf]; rfl

theorem utf8ToUtf16_converts : Converts utf8ToUtf16Step (fun b => b < 256) Utf8Char (Dec false) enc16 :=
  (decodeUtf8_converts false).map enc16 utf8ToUtf16_eq
theorem utf16ToUtf8_converts : Converts utf16ToUtf8Step (fun _ => True) Utf16Char (Dec false) enc8 :=
  (decodeUtf16_converts false).map enc8 utf16ToUtf8_eq

end Verif.Unicode
