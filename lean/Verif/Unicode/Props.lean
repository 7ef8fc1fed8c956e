import Verif.Unicode.Text
/-!
Properties C06 to C12 of /repo/src/archon/core/unicode.hpp.

`conv M c ts mem j` is a call of `encode_utf8()` (`c = encodeUtf8`), `decode_utf8()` (`c = decodeUtf8 red`) and so on,
with string `ts`, a buffer whose memory is `mem`, and buffer offset `j`. The largest value of `std::size_t` is `M`. In
`decodeUtf8 red` and `decodeUtf16 red`, `red` says whether the output character type has fewer than 21 bits.
-/
namespace Verif.Unicode
open Spec
open Verif.Buffer (Err Res bind_ok bind_err)

/-- A call that is successful, and appends `out` to the first `j` elements of the buffer. -/
def Appends (r : Res (Option (List Nat × Nat))) (mem : List Nat) (j : Nat) (out : List Nat) : Prop :=
  ∃ mem', r = .ok (some (mem', j + out.length)) ∧ mem'.take (j + out.length) = mem.take j ++ out

theorem conv_some {c : Codec} (G : Good c) {M : Nat} {ts mem : List Nat} {j : Nat} (hj : j ≤ mem.length)
    (hm : mem.length ≤ M) {m : List Nat} {j' : Nat} (h : conv M c ts mem j = .ok (some (m, j'))) :
    Appends (conv M c ts mem j) mem j ((m.take j').drop j) ∧ j' = j + ((m.take j').drop j).length := by
  obtain ⟨out, k, st, hr⟩ := Run.exists G.reg ts
  obtain ⟨h1, h2⟩ := tryConv_spec G (M := M) hj hm hr
  have h' := h
  rw [conv] at h'
  by_cases hM : j + out.length ≤ M
  · obtain ⟨mem2, x1, x2, x3, x4, x5⟩ := h1 hM
    by_cases hk : k = ts.length
    · rw [x4 hk, bind_ok] at h'
      dsimp only at h'
      rw [if_pos rfl] at h'
      injection h' with h'
      injection h' with h'
      injection h' with e1 e2
      subst e1 e2
      rw [x3, List.drop_left' (by rw [List.length_take, Nat.min_eq_left hj])]
      exact ⟨⟨mem2, h, x3⟩, rfl⟩
    · rw [x5 hk, bind_ok] at h'
      dsimp only at h'
      rw [if_neg (by simp)] at h'
      injection h' with h'; cases h'
  · rw [h2 (by omega), bind_err] at h'; cases h'

theorem text_chars {P : Nat → Prop} {vs ts : List Nat} :
    Text (fun v us => us = [v]) P vs ts ↔ ts = vs ∧ ∀ v ∈ vs, P v := by
  constructor
  · intro h
    induction h with
    | nil => simp
    | @cons v us vs ts hP hf _ ih =>
      subst hf
      refine ⟨by rw [ih.1]; rfl, ?_⟩
      intro w hw
      rcases List.mem_cons.1 hw with rfl | hw
      · exact hP
      · exact ih.2 w hw
  · rintro ⟨rfl, h⟩
    induction ts with
    | nil => exact .nil
    | cons v vs ih =>
      exact .cons (us := [v]) (h v (by simp)) rfl (ih fun w hw => h w (by simp [hw]))

theorem text_enc {form : Nat → List Nat → Prop} {P : Nat → Prop} {e : Nat → List Nat}
    (he : ∀ v bs, P v → (form v bs ↔ bs = e v)) {vs ts : List Nat} :
    Text form P vs ts ↔ (∀ v ∈ vs, P v) ∧ ts = vs.flatMap e := by
  constructor
  · intro h
    induction h with
    | nil => simp
    | @cons v us vs ts hP hf _ ih =>
      refine ⟨?_, by rw [List.flatMap_cons, ← ih.2, (he v us hP).1 hf]⟩
      intro w hw
      rcases List.mem_cons.1 hw with rfl | hw
      · exact hP
      · exact ih.1 w hw
  · rintro ⟨h, rfl⟩
    induction vs with
    | nil => exact .nil
    | cons v vs ih =>
      rw [List.flatMap_cons]
      exact .cons (h v (by simp)) ((he v _ (h v (by simp))).2 rfl) (ih fun w hw => h w (by simp [hw]))

theorem utf8_iff {vs bs : List Nat} : Utf8 vs bs ↔ (∀ v ∈ vs, Valid v) ∧ bs = vs.flatMap enc8 :=
  text_enc (e := enc8) fun _ _ h => enc8_valid h
theorem utf16_iff {vs us : List Nat} : Utf16 vs us ↔ (∀ v ∈ vs, Valid v) ∧ us = vs.flatMap enc16 :=
  text_enc (e := enc16) fun _ _ h => enc16_valid h

theorem flatMap_singleton' (vs : List Nat) : vs.flatMap (fun v => [v]) = vs := by
  induction vs with
  | nil => rfl
  | cons v vs ih => rw [List.flatMap_cons, ih]; rfl

theorem text_congr {form : Nat → List Nat → Prop} {P Q : Nat → Prop} (h : ∀ v, P v ↔ Q v) {vs ts : List Nat} :
    Text form P vs ts ↔ Text form Q vs ts := by
  have : P = Q := funext fun v => propext (h v)
  rw [this]

theorem dec_false (v : Nat) : Dec false v ↔ Valid v := ⟨fun h => h.1, fun h => ⟨h, by simp⟩⟩
theorem dec_true (v : Nat) : Dec true v ↔ ValidBmp v := ⟨fun h => ⟨h.1, h.2 rfl⟩, fun h => ⟨h.1, fun _ => h.2⟩⟩

theorem utf8_bytes {P : Nat → Prop} {vs bs : List Nat} (h : Text Utf8Char P vs bs) : ∀ b ∈ bs, b < 256 := by
  induction h with
  | nil => simp
  | cons _ hf _ ih =>
    intro b hb
    rcases List.mem_append.1 hb with hb | hb
    · cases hf <;> simp at hb <;> omega
    · exact ih b hb

/-! ### C06, C07: UTF-8 -/

/-- C06: a sequence is accepted by the encoder if, and only if it consists of valid code points, and then its UTF-8
form is appended to the buffer. (The result must fit in a buffer.) -/
theorem C06_encode_exact (M : Nat) (vs mem : List Nat) (j : Nat) (hj : j ≤ mem.length) (hm : mem.length ≤ M)
    (bs : List Nat) :
    Appends (conv M encodeUtf8 vs mem j) mem j bs ↔ Utf8 vs bs ∧ j + bs.length ≤ M := by
  refine (conv_exact encodeUtf8_good encodeUtf8_converts (by simp) hj hm bs).trans (and_congr_left fun _ => ?_)
  rw [utf8_iff]
  simp only [text_chars]
  exact ⟨by rintro ⟨ws, ⟨rfl, h⟩, h2⟩; exact ⟨h, h2⟩, fun ⟨h, h2⟩ => ⟨vs, ⟨rfl, h⟩, h2⟩⟩

/-- C06: an invalid code point makes the encoder throw. -/
theorem C06_encode_reject (M : Nat) (vs mem : List Nat) (j : Nat) (hj : j ≤ mem.length) (hm : mem.length ≤ M)
    (h : ∃ v ∈ vs, ¬ Valid v) (hl : conv M encodeUtf8 vs mem j ≠ .error .lengthError) :
    conv M encodeUtf8 vs mem j = .ok none := by
  refine conv_reject encodeUtf8_good encodeUtf8_converts (by simp) hj hm ?_ hl
  rintro ⟨ws, hw⟩
  obtain ⟨rfl, hw⟩ := text_chars.1 hw
  obtain ⟨v, h1, h2⟩ := h
  exact h2 (hw v h1)

/-- C07: a byte string is accepted by the decoder if, and only if it is the UTF-8 form of a sequence of valid code
points, and then that sequence is the result. -/
theorem C07_exact (M : Nat) (bs mem : List Nat) (j : Nat) (hB : ∀ b ∈ bs, b < 256) (hj : j ≤ mem.length)
    (hm : mem.length ≤ M) (vs : List Nat) :
    Appends (conv M (decodeUtf8 false) bs mem j) mem j vs ↔ Utf8 vs bs ∧ j + vs.length ≤ M := by
  refine (conv_exact (decodeUtf8_good false) (decodeUtf8_converts false) hB hj hm vs).trans (and_congr_left fun _ => ?_)
  simp only [flatMap_singleton']
  simp only [text_congr dec_false]
  exact ⟨by rintro ⟨ws, h, rfl⟩; exact h, fun h => ⟨vs, h, rfl⟩⟩

/-- C07: with an output character type of fewer than 21 bits, code points above U+FFFF are not accepted. -/
theorem C07_exact_narrow (M : Nat) (bs mem : List Nat) (j : Nat) (hB : ∀ b ∈ bs, b < 256) (hj : j ≤ mem.length)
    (hm : mem.length ≤ M) (vs : List Nat) :
    Appends (conv M (decodeUtf8 true) bs mem j) mem j vs ↔ Text Utf8Char ValidBmp vs bs ∧ j + vs.length ≤ M := by
  refine (conv_exact (decodeUtf8_good true) (decodeUtf8_converts true) hB hj hm vs).trans (and_congr_left fun _ => ?_)
  simp only [flatMap_singleton']
  simp only [text_congr dec_true]
  exact ⟨by rintro ⟨ws, h, rfl⟩; exact h, fun h => ⟨vs, h, rfl⟩⟩

/-- C07: every other byte string is rejected. -/
theorem C07_reject (M : Nat) (bs mem : List Nat) (j : Nat) (hB : ∀ b ∈ bs, b < 256) (hj : j ≤ mem.length)
    (hm : mem.length ≤ M) (h : ¬ ∃ vs, Utf8 vs bs) (hl : conv M (decodeUtf8 false) bs mem j ≠ .error .lengthError) :
    conv M (decodeUtf8 false) bs mem j = .ok none := by
  refine conv_reject (decodeUtf8_good false) (decodeUtf8_converts false) hB hj hm ?_ hl
  rintro ⟨vs, hv⟩
  exact h ⟨vs, (text_congr dec_false).1 hv⟩

/-- C07: the UTF-8 forms of valid code points are the well-formed byte sequences of Table 3-7 of the Unicode Standard,
without those for U+FFFE and U+FFFF. -/
theorem C07_table (bs : List Nat) :
    (∃ v, Valid v ∧ Utf8Char v bs) ↔ Table37 bs ∧ bs ≠ [0xEF, 0xBF, 0xBE] ∧ bs ≠ [0xEF, 0xBF, 0xBF] := by
  constructor
  · rintro ⟨v, hv, h⟩
    unfold Valid at hv
    cases h with
    | one ha => exact ⟨.r1 v (by omega), by simp, by simp⟩
    | two a b ha hb hm => exact ⟨.r2 _ _ (by omega) (by omega) (by omega) (by omega), by simp, by simp⟩
    | three a b c ha hb hc hm =>
      refine ⟨?_, ?_, ?_⟩
      · by_cases h0 : a = 0
        · subst h0; exact .r3 _ _ (by omega) (by omega) (by omega) (by omega)
        by_cases h1 : a = 13
        · subst h1; exact .r5 _ _ (by omega) (by omega) (by omega) (by omega)
        by_cases h2 : a < 13
        · exact .r4 _ _ _ (by omega) (by omega) (by omega) (by omega) (by omega) (by omega)
        · exact .r6 _ _ _ (by omega) (by omega) (by omega) (by omega) (by omega) (by omega)
      · intro h; simp only [List.cons.injEq, and_true] at h; omega
      · intro h; simp only [List.cons.injEq, and_true] at h; omega
    | four a b c d ha hb hc hd hm =>
      refine ⟨?_, by simp, by simp⟩
      by_cases h0 : a = 0
      · subst h0; exact .r7 _ _ _ (by omega) (by omega) (by omega) (by omega) (by omega) (by omega)
      by_cases h1 : a = 4
      · subst h1; exact .r9 _ _ _ (by omega) (by omega) (by omega) (by omega) (by omega) (by omega)
      · exact .r8 _ _ _ _ (by omega) (by omega) (by omega) (by omega) (by omega) (by omega) (by omega) (by omega)
  · rintro ⟨h, n1, n2⟩
    cases h with
    | r1 a h => exact ⟨a, by unfold Valid; omega, .one a (by omega)⟩
    | r2 a b h1 h2 h3 h4 =>
      exact ⟨_, by unfold Valid; omega, two8 (a := a - 0xC0) (b := b - 0x80) (by omega) (by omega) rfl (by omega)
        (by omega) (by omega)⟩
    | r3 b c h1 h2 h3 h4 =>
      exact ⟨_, by unfold Valid; omega, three8 (a := 0) (b := b - 0x80) (c := c - 0x80) (by omega) (by omega) (by omega)
        rfl (by omega) (by omega) (by omega) (by omega)⟩
    | r4 a b c h1 h2 h3 h4 h5 h6 =>
      exact ⟨_, by unfold Valid; omega, three8 (a := a - 0xE0) (b := b - 0x80) (c := c - 0x80) (by omega) (by omega)
        (by omega) rfl (by omega) (by omega) (by omega) (by omega)⟩
    | r5 b c h1 h2 h3 h4 =>
      exact ⟨_, by unfold Valid; omega, three8 (a := 13) (b := b - 0x80) (c := c - 0x80) (by omega) (by omega) (by omega)
        rfl (by omega) (by omega) (by omega) (by omega)⟩
    | r6 a b c h1 h2 h3 h4 h5 h6 =>
      have m1 : ¬ (a = 0xEF ∧ b = 0xBF ∧ c = 0xBE) := fun h => n1 (by rw [h.1, h.2.1, h.2.2])
      have m2 : ¬ (a = 0xEF ∧ b = 0xBF ∧ c = 0xBF) := fun h => n2 (by rw [h.1, h.2.1, h.2.2])
      exact ⟨_, by unfold Valid; omega, three8 (a := a - 0xE0) (b := b - 0x80) (c := c - 0x80) (by omega) (by omega)
        (by omega) rfl (by omega) (by omega) (by omega) (by omega)⟩
    | r7 b c d h1 h2 h3 h4 h5 h6 =>
      exact ⟨_, by unfold Valid; omega, four8 (a := 0) (b := b - 0x80) (c := c - 0x80) (d := d - 0x80) (by omega)
        (by omega) (by omega) (by omega) rfl (by omega) (by omega) (by omega) (by omega) (by omega)⟩
    | r8 a b c d h1 h2 h3 h4 h5 h6 h7 h8 =>
      exact ⟨_, by unfold Valid; omega, four8 (a := a - 0xF0) (b := b - 0x80) (c := c - 0x80) (d := d - 0x80) (by omega)
        (by omega) (by omega) (by omega) rfl (by omega) (by omega) (by omega) (by omega) (by omega)⟩
    | r9 b c d h1 h2 h3 h4 h5 h6 =>
      exact ⟨_, by unfold Valid; omega, four8 (a := 4) (b := b - 0x80) (c := c - 0x80) (d := d - 0x80) (by omega)
        (by omega) (by omega) (by omega) rfl (by omega) (by omega) (by omega) (by omega) (by omega)⟩

/-- C06: decoding what the encoder has appended gives back the original code points. -/
theorem C06_round_trip (M : Nat) (vs mem : List Nat) (j : Nat) (hj : j ≤ mem.length) (hm : mem.length ≤ M)
    (m : List Nat) (j' : Nat) (h : conv M encodeUtf8 vs mem j = .ok (some (m, j')))
    (M2 : Nat) (mem2 : List Nat) (j2 : Nat) (hj2 : j2 ≤ mem2.length) (hm2 : mem2.length ≤ M2)
    (hfit : j2 + vs.length ≤ M2) :
    Appends (conv M2 (decodeUtf8 false) ((m.take j').drop j) mem2 j2) mem2 j2 vs := by
  obtain ⟨ha, -⟩ := conv_some encodeUtf8_good hj hm h
  obtain ⟨hu, -⟩ := (C06_encode_exact M vs mem j hj hm _).1 ha
  exact (C07_exact M2 _ mem2 j2 (utf8_bytes hu) hj2 hm2 vs).2 ⟨hu, hfit⟩

/-- C06, C07: a sequence of code points has at most one UTF-8 form, and a byte string is the form of at most one
sequence. -/
theorem C07_unique (vs vs' bs bs' : List Nat) (h : Utf8 vs bs) (h' : Utf8 vs' bs') : vs = vs' ↔ bs = bs' := by
  obtain ⟨h1, h2⟩ := utf8_iff.1 h
  obtain ⟨h1', h2'⟩ := utf8_iff.1 h'
  constructor
  · rintro rfl; rw [h2, h2']
  · intro e
    have a := (C07_exact (vs.length + vs'.length) bs [] 0 (utf8_bytes h) (Nat.le_refl _) (Nat.zero_le _) vs).2
      ⟨h, by omega⟩
    have b := (C07_exact (vs.length + vs'.length) bs [] 0 (utf8_bytes h) (Nat.le_refl _) (Nat.zero_le _) vs').2
      ⟨e ▸ h', by omega⟩
    obtain ⟨m, a1, a2⟩ := a
    obtain ⟨m', b1, b2⟩ := b
    rw [a1] at b1
    injection b1 with b1; injection b1 with b1; injection b1 with b1 b3
    subst b1
    rw [← b3, a2] at b2
    exact List.append_cancel_left b2

example : conv 100 encodeUtf8 [0x61, 0xE5, 0x20AC, 0x1F600] [7, 7] 1 =
    .ok (some ([7, 0x61, 0xC3, 0xA5, 0xE2, 0x82, 0xAC, 0xF0, 0x9F, 0x98, 0x80, 0, 0], 11)) := by decide +kernel
example : conv 100 (decodeUtf8 false) [0x61, 0xC3, 0xA5, 0xE2, 0x82, 0xAC, 0xF0, 0x9F, 0x98, 0x80] [] 0 =
    .ok (some ([0x61, 0xE5, 0x20AC, 0x1F600], 4)) := by decide +kernel
example : conv 100 (decodeUtf8 false) [0xC0, 0x80] [] 0 = .ok none := by decide +kernel
example : conv 100 (decodeUtf8 false) [0xED, 0xA0, 0x80] [] 0 = .ok none := by decide +kernel
example : conv 100 encodeUtf8 [0x61, 0xD800] [] 0 = .ok none := by decide +kernel

/-- Remark on C07: when the type of the UTF-8 code units is wider than 8 bits, values that are not bytes are accepted as
continuation bytes (only the bits `0xC0` are checked), although out-of-range values are otherwise invalid. -/
theorem C07_wide_defect : conv 100 (decodeUtf8 false) [0xC3, 0x1A5] [] 0 = .ok (some ([0xE5], 1)) := by decide +kernel

/-! ### C08: UTF-16 -/

/-- C08: a sequence is accepted by the encoder if, and only if it consists of valid code points, and then its UTF-16
form is appended to the buffer. -/
theorem C08_encode_exact (M : Nat) (vs mem : List Nat) (j : Nat) (hj : j ≤ mem.length) (hm : mem.length ≤ M)
    (us : List Nat) :
    Appends (conv M encodeUtf16 vs mem j) mem j us ↔ Utf16 vs us ∧ j + us.length ≤ M := by
  refine (conv_exact encodeUtf16_good encodeUtf16_converts (by simp) hj hm us).trans (and_congr_left fun _ => ?_)
  rw [utf16_iff]
  simp only [text_chars]
  exact ⟨by rintro ⟨ws, ⟨rfl, h⟩, h2⟩; exact ⟨h, h2⟩, fun ⟨h, h2⟩ => ⟨vs, ⟨rfl, h⟩, h2⟩⟩

/-- C08: a sequence of code units (of any size) is accepted by the decoder if, and only if it is the UTF-16 form of a
sequence of valid code points, and then that sequence is the result. -/
theorem C08_decode_exact (M : Nat) (us mem : List Nat) (j : Nat) (hj : j ≤ mem.length) (hm : mem.length ≤ M)
    (vs : List Nat) :
    Appends (conv M (decodeUtf16 false) us mem j) mem j vs ↔ Utf16 vs us ∧ j + vs.length ≤ M := by
  refine (conv_exact (decodeUtf16_good false) (decodeUtf16_converts false) (by simp) hj hm vs).trans
    (and_congr_left fun _ => ?_)
  simp only [flatMap_singleton']
  simp only [text_congr dec_false]
  exact ⟨by rintro ⟨ws, h, rfl⟩; exact h, fun h => ⟨vs, h, rfl⟩⟩

/-- C08: with an output character type of fewer than 21 bits, surrogate pairs are not accepted. -/
theorem C08_decode_exact_narrow (M : Nat) (us mem : List Nat) (j : Nat) (hj : j ≤ mem.length) (hm : mem.length ≤ M)
    (vs : List Nat) :
    Appends (conv M (decodeUtf16 true) us mem j) mem j vs ↔ Text Utf16Char ValidBmp vs us ∧ j + vs.length ≤ M := by
  refine (conv_exact (decodeUtf16_good true) (decodeUtf16_converts true) (by simp) hj hm vs).trans
    (and_congr_left fun _ => ?_)
  simp only [flatMap_singleton']
  simp only [text_congr dec_true]
  exact ⟨by rintro ⟨ws, h, rfl⟩; exact h, fun h => ⟨vs, h, rfl⟩⟩

/-- C08: everything else is rejected. -/
theorem C08_reject (M : Nat) (us mem : List Nat) (j : Nat) (hj : j ≤ mem.length) (hm : mem.length ≤ M) :
    ((∃ v ∈ us, ¬ Valid v) → conv M encodeUtf16 us mem j ≠ .error .lengthError →
      conv M encodeUtf16 us mem j = .ok none) ∧
    ((¬ ∃ vs, Utf16 vs us) → conv M (decodeUtf16 false) us mem j ≠ .error .lengthError →
      conv M (decodeUtf16 false) us mem j = .ok none) := by
  constructor
  · intro h hl
    refine conv_reject encodeUtf16_good encodeUtf16_converts (by simp) hj hm ?_ hl
    rintro ⟨ws, hw⟩
    obtain ⟨rfl, hw⟩ := text_chars.1 hw
    obtain ⟨v, h1, h2⟩ := h
    exact h2 (hw v h1)
  · intro h hl
    refine conv_reject (decodeUtf16_good false) (decodeUtf16_converts false) (by simp) hj hm ?_ hl
    rintro ⟨vs, hv⟩
    exact h ⟨vs, (text_congr dec_false).1 hv⟩

/-- C08: decoding what the encoder has appended gives back the original code points. -/
theorem C08_round_trip (M : Nat) (vs mem : List Nat) (j : Nat) (hj : j ≤ mem.length) (hm : mem.length ≤ M)
    (m : List Nat) (j' : Nat) (h : conv M encodeUtf16 vs mem j = .ok (some (m, j')))
    (M2 : Nat) (mem2 : List Nat) (j2 : Nat) (hj2 : j2 ≤ mem2.length) (hm2 : mem2.length ≤ M2)
    (hfit : j2 + vs.length ≤ M2) :
    Appends (conv M2 (decodeUtf16 false) ((m.take j').drop j) mem2 j2) mem2 j2 vs := by
  obtain ⟨ha, -⟩ := conv_some encodeUtf16_good hj hm h
  obtain ⟨hu, -⟩ := (C08_encode_exact M vs mem j hj hm _).1 ha
  exact (C08_decode_exact M2 _ mem2 j2 hj2 hm2 vs).2 ⟨hu, hfit⟩

example : conv 100 encodeUtf16 [0x61, 0x20AC, 0x1F600] [] 0 = .ok (some ([0x61, 0x20AC, 0xD83D, 0xDE00], 4)) := by
  decide +kernel
example : conv 100 (decodeUtf16 false) [0x61, 0xD83D, 0xDE00] [] 0 = .ok (some ([0x61, 0x1F600], 2)) := by
  decide +kernel
example : conv 100 (decodeUtf16 false) [0x61, 0xDE00, 0xD83D] [] 0 = .ok none := by decide +kernel
example : conv 100 (decodeUtf16 true) [0x61, 0xD83D, 0xDE00] [] 0 = .ok none := by decide +kernel

/-! ### C09: transcoding -/

/-- C09: transcoding from UTF-8 accepts exactly well-formed UTF-8, and appends the UTF-16 form of the same code
points. -/
theorem C09_utf8_to_utf16 (M : Nat) (bs mem : List Nat) (j : Nat) (hB : ∀ b ∈ bs, b < 256) (hj : j ≤ mem.length)
    (hm : mem.length ≤ M) (us : List Nat) :
    Appends (conv M utf8ToUtf16 bs mem j) mem j us ↔ (∃ vs, Utf8 vs bs ∧ Utf16 vs us) ∧ j + us.length ≤ M := by
  refine (conv_exact utf8ToUtf16_good utf8ToUtf16_converts hB hj hm us).trans (and_congr_left fun _ => ?_)
  refine exists_congr fun vs => ?_
  rw [text_congr dec_false, utf16_iff]
  exact ⟨fun ⟨h1, h2⟩ => ⟨h1, (utf8_iff.1 h1).1, h2⟩, fun ⟨h1, h2⟩ => ⟨h1, h2.2⟩⟩

/-- C09: transcoding from UTF-16 accepts exactly well-formed UTF-16, and appends the UTF-8 form of the same code
points. -/
theorem C09_utf16_to_utf8 (M : Nat) (us mem : List Nat) (j : Nat) (hj : j ≤ mem.length)
    (hm : mem.length ≤ M) (bs : List Nat) :
    Appends (conv M utf16ToUtf8 us mem j) mem j bs ↔ (∃ vs, Utf16 vs us ∧ Utf8 vs bs) ∧ j + bs.length ≤ M := by
  refine (conv_exact utf16ToUtf8_good utf16ToUtf8_converts (by simp) hj hm bs).trans (and_congr_left fun _ => ?_)
  refine exists_congr fun vs => ?_
  rw [text_congr dec_false, utf8_iff]
  exact ⟨fun ⟨h1, h2⟩ => ⟨h1, (utf16_iff.1 h1).1, h2⟩, fun ⟨h1, h2⟩ => ⟨h1, h2.2⟩⟩

/-- C09: ill-formed input is rejected by the transcoders. -/
theorem C09_reject (M : Nat) (ts mem : List Nat) (j : Nat) (hj : j ≤ mem.length) (hm : mem.length ≤ M) :
    ((∀ b ∈ ts, b < 256) → (¬ ∃ vs, Utf8 vs ts) → conv M utf8ToUtf16 ts mem j ≠ .error .lengthError →
      conv M utf8ToUtf16 ts mem j = .ok none) ∧
    ((¬ ∃ vs, Utf16 vs ts) → conv M utf16ToUtf8 ts mem j ≠ .error .lengthError →
      conv M utf16ToUtf8 ts mem j = .ok none) := by
  constructor
  · intro hB h hl
    refine conv_reject utf8ToUtf16_good utf8ToUtf16_converts hB hj hm ?_ hl
    rintro ⟨vs, hv⟩
    exact h ⟨vs, (text_congr dec_false).1 hv⟩
  · intro h hl
    refine conv_reject utf16ToUtf8_good utf16ToUtf8_converts (by simp) hj hm ?_ hl
    rintro ⟨vs, hv⟩
    exact h ⟨vs, (text_congr dec_false).1 hv⟩

/-- C09: from UTF-8 to UTF-16 and back. -/
theorem C09_round_trip_8 (M : Nat) (bs mem : List Nat) (j : Nat) (hB : ∀ b ∈ bs, b < 256) (hj : j ≤ mem.length)
    (hm : mem.length ≤ M) (m : List Nat) (j' : Nat) (h : conv M utf8ToUtf16 bs mem j = .ok (some (m, j')))
    (M2 : Nat) (mem2 : List Nat) (j2 : Nat) (hj2 : j2 ≤ mem2.length) (hm2 : mem2.length ≤ M2)
    (hfit : j2 + bs.length ≤ M2) :
    Appends (conv M2 utf16ToUtf8 ((m.take j').drop j) mem2 j2) mem2 j2 bs := by
  obtain ⟨ha, -⟩ := conv_some utf8ToUtf16_good hj hm h
  obtain ⟨⟨vs, h1, h2⟩, -⟩ := (C09_utf8_to_utf16 M bs mem j hB hj hm _).1 ha
  exact (C09_utf16_to_utf8 M2 _ mem2 j2 hj2 hm2 bs).2 ⟨⟨vs, h2, h1⟩, hfit⟩

/-- C09: from UTF-16 to UTF-8 and back. -/
theorem C09_round_trip_16 (M : Nat) (us mem : List Nat) (j : Nat) (hj : j ≤ mem.length)
    (hm : mem.length ≤ M) (m : List Nat) (j' : Nat) (h : conv M utf16ToUtf8 us mem j = .ok (some (m, j')))
    (M2 : Nat) (mem2 : List Nat) (j2 : Nat) (hj2 : j2 ≤ mem2.length) (hm2 : mem2.length ≤ M2)
    (hfit : j2 + us.length ≤ M2) :
    Appends (conv M2 utf8ToUtf16 ((m.take j').drop j) mem2 j2) mem2 j2 us := by
  obtain ⟨ha, -⟩ := conv_some utf16ToUtf8_good hj hm h
  obtain ⟨⟨vs, h1, h2⟩, -⟩ := (C09_utf16_to_utf8 M us mem j hj hm _).1 ha
  exact (C09_utf8_to_utf16 M2 _ mem2 j2 (utf8_bytes h2) hj2 hm2 us).2 ⟨⟨vs, h2, h1⟩, hfit⟩

example : conv 100 utf8ToUtf16 [0x61, 0xE2, 0x82, 0xAC, 0xF0, 0x9F, 0x98, 0x80] [] 0 =
    .ok (some ([0x61, 0x20AC, 0xD83D, 0xDE00], 4)) := by decide +kernel
example : conv 100 utf16ToUtf8 [0x61, 0x20AC, 0xD83D, 0xDE00] [] 0 =
    .ok (some ([0x61, 0xE2, 0x82, 0xAC, 0xF0, 0x9F, 0x98, 0x80, 0], 8)) := by decide +kernel

/-! ### C10: buffering -/

/-- The six codecs, and the two narrow variants. -/
def codecs : List Codec :=
  [encodeUtf8, decodeUtf8 false, decodeUtf8 true, encodeUtf16, decodeUtf16 false, decodeUtf16 true, utf8ToUtf16,
    utf16ToUtf8]

theorem codecs_good {c : Codec} (h : c ∈ codecs) : Good c := by
  simp only [codecs, List.mem_cons, List.not_mem_nil, or_false] at h
  rcases h with rfl | rfl | rfl | rfl | rfl | rfl | rfl | rfl
  · exact encodeUtf8_good
  · exact decodeUtf8_good _
  · exact decodeUtf8_good _
  · exact encodeUtf16_good
  · exact decodeUtf16_good _
  · exact decodeUtf16_good _
  · exact utf8ToUtf16_good
  · exact utf16ToUtf8_good

/-- A client of an incremental function. It has been given the input `fed` so far, holds `inp` in its input buffer with
input offset `i`, and has received the output `got`. It can add any piece of input at the end of its input buffer, drop
any amount of consumed input from the beginning of it, and call the function with any output buffer and any output
offset. -/
inductive Client (c : Codec) : (fed inp : List Nat) → (i : Nat) → (got : List Nat) → Prop
  | start : Client c [] [] 0 []
  | feed {fed inp i got} (piece : List Nat) : Client c fed inp i got → Client c (fed ++ piece) (inp ++ piece) i got
  | drop {fed inp i got} (d : Nat) : d ≤ i → Client c fed inp i got → Client c fed (inp.drop d) (i - d) got
  | call {fed inp i got} (mem : List Nat) (j : Nat) (s : State) : Client c fed inp i got →
      incr c.step inp mem i j false false = .ok s →
      Client c fed inp s.i (got ++ (s.out.take s.j).drop j)

theorem incr_inv {c : Codec} (G : Good c) {inp mem : List Nat} {i j : Nat} {s : State}
    (h : incr c.step inp mem i j false false = .ok s) :
    i ≤ inp.length ∧ j ≤ mem.length ∧ ∃ out k st out2 k1 k2, Run c.step (inp.drop i) out k st ∧
      Part c.step inp ⟨i, mem, j, false, false⟩ s out k st ((s.out.take s.j).drop j) out2 k1 k2 := by
  have hi : i ≤ inp.length := by
    by_contra hc; rw [incr, if_pos hc] at h; cases h
  have hj : j ≤ mem.length := by
    by_contra hc; rw [incr, if_neg (by omega), if_pos hc] at h; cases h
  refine ⟨hi, hj, ?_⟩
  obtain ⟨out, k, st, hr⟩ := Run.exists G.reg (inp.drop i)
  obtain ⟨t, o1, o2, k1, k2, h1, P⟩ := incr_part G.reg hi hj false false hr
  rw [h] at h1
  injection h1 with h1
  subst h1
  have : (s.out.take s.j).drop j = o1 := by
    rw [P.tout, P.tj]
    simp only
    rw [List.take_left' (by simp; omega), List.drop_left' (by simp; omega)]
  rw [this]
  exact ⟨out, k, st, o2, k1, k2, hr, P⟩

theorem client_inv {c : Codec} (G : Good c) {fed inp got : List Nat} {i : Nat} (h : Client c fed inp i got) :
    i ≤ inp.length ∧ ∃ n, n ≤ fed.length ∧ inp.drop i = fed.drop n ∧ Pre c.step fed got n := by
  induction h with
  | start => exact ⟨Nat.le_refl _, 0, Nat.le_refl _, rfl, .nil⟩
  | @feed fed inp i got piece _ ih =>
    obtain ⟨h1, n, h2, h3, h4⟩ := ih
    refine ⟨by rw [List.length_append]; omega, n, by rw [List.length_append]; omega, ?_, h4.ext G.reg piece⟩
    rw [List.drop_append_of_le_length h1, List.drop_append_of_le_length h2, h3]
  | @drop fed inp i got d hd _ ih =>
    obtain ⟨h1, n, h2, h3, h4⟩ := ih
    refine ⟨by rw [List.length_drop]; omega, n, h2, ?_, h4⟩
    rw [List.drop_drop, show d + (i - d) = i by omega, h3]
  | @call fed inp i got mem j s _ hc ih =>
    obtain ⟨h1, n, h2, h3, h4⟩ := ih
    obtain ⟨_, _, out, k, st, o2, k1, k2, hr, P⟩ := incr_inv G hc
    have hk := hr.le G.reg
    rw [List.length_drop] at hk
    have e1 := P.hk
    have e2 := P.ti
    simp only at e2
    have hl : inp.length - i = fed.length - n := by
      have := congrArg List.length h3
      simpa using this
    refine ⟨by omega, n + k1, by omega, ?_, ?_⟩
    · rw [e2, ← List.drop_drop, h3, List.drop_drop]
    · have hp := P.pre
      simp only at hp
      rw [h3] at hp
      clear * - h4 hp
      induction h4 with
      | nil => simpa using hp
      | cons e _ ih =>
        rw [List.append_assoc, Nat.add_assoc]
        exact .cons e (ih (by rw [List.drop_drop]; exact hp))

/-- C10: whatever the client does, once a call reports that the input is exhausted, or that it is invalid, the client
has received the output of a single call that is given all of the input and enough space for the output, and the report
and the amount of unconsumed input are also those of the single call. -/
theorem C10_buffering (c : Codec) (hc : c ∈ codecs) (fed inp got : List Nat) (i : Nat) (h : Client c fed inp i got)
    (mem : List Nat) (j : Nat) (s : State) (hs : incr c.step inp mem i j false false = .ok s)
    (hend : s.exhausted = true ∨ s.error = true)
    (mem2 : List Nat) (j2 : Nat) (t : State) (ht : incr c.step fed mem2 0 j2 false false = .ok t)
    (hend2 : t.exhausted = true ∨ t.error = true) :
    got ++ (s.out.take s.j).drop j = (t.out.take t.j).drop j2 ∧ s.exhausted = t.exhausted ∧ s.error = t.error ∧
    inp.drop s.i = fed.drop t.i := by
  have G := codecs_good hc
  obtain ⟨h1, n, h2, h3, h4⟩ := client_inv G h
  obtain ⟨_, _, out, k, st, o2, k1, k2, hr, P⟩ := incr_inv G hs
  obtain ⟨_, _, out', k', st', o2', k1', k2', hr', P'⟩ := incr_inv G ht
  have f1 : o2 = [] ∧ k2 = 0 ∧ (s.exhausted, s.error) = flags st false false := by
    rcases P.why with h | ⟨a, b, -⟩
    · exact h
    · simp only at a b; rw [a, b] at hend; simp at hend
  have f2 : o2' = [] ∧ k2' = 0 ∧ (t.exhausted, t.error) = flags st' false false := by
    rcases P'.why with h | ⟨a, b, -⟩
    · exact h
    · simp only at a b; rw [a, b] at hend2; simp at hend2
  have e1 := P.hout
  have e2 := P.hk
  have e3 := P.ti
  have e1' := P'.hout
  have e2' := P'.hk
  have e3' := P'.ti
  rw [f1.1, List.append_nil] at e1
  rw [f2.1, List.append_nil] at e1'
  simp only at e3 e3'
  rw [h3] at hr
  rw [List.drop_zero] at hr'
  obtain ⟨u1, u2, u3⟩ := (h4.run hr).unique hr'
  subst u3
  have hf := f1.2.2.trans f2.2.2.symm
  injection hf with hf1 hf2
  refine ⟨by rw [← e1, ← e1', u1], hf1, hf2, ?_⟩
  rw [e3, e3', ← List.drop_drop, h3, List.drop_drop]
  congr 1
  omega

/-- C10: a call always succeeds when the offsets are valid. It writes only to the space that it was given, and reports
how much of it was written. When there is space for 4 elements, it makes progress unless it reports that the input is
exhausted or invalid. -/
theorem C10_call (c : Codec) (hc : c ∈ codecs) (inp mem : List Nat) (i j : Nat) (hi : i ≤ inp.length)
    (hj : j ≤ mem.length) :
    ∃ s, incr c.step inp mem i j false false = .ok s ∧ i ≤ s.i ∧ s.i ≤ inp.length ∧ j ≤ s.j ∧ s.j ≤ mem.length ∧
      s.out.length = mem.length ∧ s.out.take j = mem.take j ∧ s.out.drop s.j = mem.drop s.j ∧
      (4 ≤ mem.length - j → s.exhausted = true ∨ s.error = true ∨ i < s.i) := by
  have G := codecs_good hc
  obtain ⟨out, k, st, hr⟩ := Run.exists G.reg (inp.drop i)
  obtain ⟨s, o1, o2, k1, k2, h1, P⟩ := incr_part G.reg hi hj false false hr
  have hk := hr.le G.reg
  rw [List.length_drop] at hk
  obtain ⟨a1, a2, a3, ap, a4, a5, a6, a7, a8, a9⟩ := P
  simp only at a3 ap a4 a5 a6 a7 a8 a9
  have hlt : (mem.take j).length = j := by simp; omega
  refine ⟨s, h1, by omega, by omega, by omega, by omega, a6, ?_, ?_, ?_⟩
  · rw [a8, List.append_assoc]
    exact List.take_left' hlt
  · rw [a8, a5]
    exact List.drop_left' (by rw [List.length_append, hlt])
  · intro h4
    rcases a9 with ⟨-, -, b⟩ | ⟨-, -, us, n, o3, b1, b2, b3⟩
    · obtain ⟨-, hst | hst⟩ := hr.final
      · subst hst; injection b with _ b; exact .inr (.inl b)
      · subst hst; injection b with b _; exact .inl b
    · right; right
      by_contra hcon
      have hk1 : k1 = 0 := by omega
      subst hk1
      have ho1 : o1 = [] := by
        generalize hz : (0 : Nat) = z at ap
        cases ap with
        | nil => rfl
        | cons e _ => have := (G.reg.pos _ _ _ e).1; omega
      subst ho1
      have hcap := G.reg.cap (inp.drop (i + 0)) 4
      rw [b1] at hcap
      dsimp only at hcap
      by_cases hu : us.length ≤ 4
      · simp only [List.length_nil] at a5
        omega
      · rw [if_neg hu] at hcap; cases hcap

example : ∃ got, Client (decodeUtf8 false) [0xE2, 0x82, 0xAC, 0x61] [0x82, 0xAC, 0x61].tail.tail.tail 0 got ∧
    got = [0x20AC, 0x61] := by
  refine ⟨_, ?_, rfl⟩
  have h1 : Client (decodeUtf8 false) [0xE2, 0x82] [0xE2, 0x82] 0 [] := .feed [0xE2, 0x82] .start
  have h2 := Client.call [0] 0 ⟨0, [0], 0, true, false⟩ h1 (by decide +kernel)
  have h3 := Client.feed [0xAC, 0x61] h2
  have h4 := Client.call [0] 0 ⟨3, [0x20AC], 1, false, false⟩ h3 (by decide +kernel)
  have h5 := Client.drop 3 (by decide) h4
  have h6 := Client.call [5, 0] 1 ⟨1, [5, 0x61], 2, true, false⟩ h5 (by decide +kernel)
  exact Client.drop 1 (by decide) h6

/-! ### C11: lenient conversion -/

/-- The lenient functions, as the code points or forms that they read and write. -/
theorem lenient_length {B : Nat → Prop} {form : Nat → List Nat → Prop} {P : Nat → Prop} {e : Nat → List Nat} {c : Codec}
    (G : Good c) (C : Converts c.step B form P e) (F : PrefixFree form P) (hne : ∀ v us, P v → form v us → us ≠ [])
    (S : Resync form P c.resync) (hr : c.replacement.length ≤ 3)
    {M : Nat} {ts mem : List Nat} {j : Nat} (hB : ∀ b ∈ ts, B b) (hj : j ≤ mem.length) (hm : mem.length ≤ M)
    {os : List (Option Nat)} (hos : Lenient form P ts os) (hM : j + 3 * ts.length ≤ M)
    (hM2 : j + ((os.filterMap id).flatMap e).length ≤ M) :
    ∃ mem', convL M c ts mem j = .ok (mem', j + ((os.filterMap id).flatMap e).length) ∧ mem'.length ≤ M := by
  obtain ⟨mem', h1, h2, h3⟩ := lLoop_spec G C F hne S hB 3 hr (ts.length + 1) 0 mem j j (os.filterMap id)
    (Nat.zero_le _) (by omega) hj hj hm (by simpa using hM) hM2 (by simpa using Verif.Unicode.Lenient.scan hos)
  exact ⟨mem', h1, h3⟩

theorem lenientOutput_length {e : Nat → List Nat} {replacement : List Nat} (os : List (Option Nat)) :
    (lenientOutput e replacement os).length =
      ((os.filterMap id).flatMap e).length + os.count none * replacement.length := by
  induction os with
  | nil => simp [lenientOutput]
  | cons o os ih =>
    unfold lenientOutput at ih ⊢
    rw [List.flatMap_cons, List.length_append, ih]
    cases o with
    | none => simp; ring
    | some v => simp; omega

theorem utf8Char_ne {v : Nat} {us : List Nat} (h : Utf8Char v us) : us ≠ [] := by cases h <;> simp
theorem utf16Char_ne {v : Nat} {us : List Nat} (h : Utf16Char v us) : us ≠ [] := by cases h <;> simp

theorem chars_prefixFree {P : Nat → Prop} : PrefixFree (fun v us => us = [v]) P := by
  intro v w us us' ts ts' _ _ h1 h2 h
  subst h1 h2
  injection h with h _
  exact ⟨h, by rw [h]⟩

/-- C11, partial: on well-formed text, the lenient functions do the same as the other ones. What is missing: text with
ill-formed parts (see `C11_defect` and `C11_length_partial`). -/
theorem C11_wellformed_partial (c : Codec) (hc : c ∈ codecs) (M : Nat) (ts mem : List Nat) (j : Nat)
    (hj : j ≤ mem.length) (hm : mem.length ≤ M) (mem' : List Nat) (j' : Nat)
    (h : conv M c ts mem j = .ok (some (mem', j'))) : convL M c ts mem j = .ok (mem', j') := by
  have G := codecs_good hc
  obtain ⟨out, k, st, hr⟩ := Run.exists G.reg ts
  obtain ⟨h1, h2⟩ := convA_spec G (M := M) (i := 0) (Nat.zero_le _) hj hm (by simpa using hr)
  rw [conv, tryConv] at h
  rw [convL, lLoop]
  by_cases hM : j + out.length ≤ M
  · obtain ⟨mem2, x1, -⟩ := h1 hM
    rw [x1, bind_ok] at h ⊢
    dsimp only at h ⊢
    by_cases hk : 0 + k = ts.length
    · rw [if_pos hk, bind_ok] at h
      rw [if_pos hk]
      dsimp only at h
      rw [if_pos rfl] at h
      injection h with h; injection h with h
      rw [h]
    · rw [if_neg hk] at h
      split_ifs at h
      · rw [bind_ok] at h
        dsimp only at h
        rw [if_neg (by simp)] at h
        injection h with h; cases h
      · cases h
  · rw [h2 (by omega), bind_err, bind_err] at h; cases h

/-- C11, partial: for each lenient function, and whatever the input, the number of elements in the output is the number
of elements in the output for the well-formed characters alone: there is never room for the replacements. -/
theorem C11_length_partial (M : Nat) (ts mem : List Nat) (j : Nat) (hj : j ≤ mem.length) (hm : mem.length ≤ M)
    (hM : j + 3 * ts.length ≤ M) (os : List (Option Nat)) :
    ((∀ b ∈ ts, b < 256) → Lenient Utf8Char Valid ts os → j + (os.filterMap id).length ≤ M →
      ∃ mem', convL M (decodeUtf8 false) ts mem j = .ok (mem', j + (os.filterMap id).length)) ∧
    (Lenient Utf16Char Valid ts os → j + (os.filterMap id).length ≤ M →
      ∃ mem', convL M (decodeUtf16 false) ts mem j = .ok (mem', j + (os.filterMap id).length)) ∧
    ((∀ b ∈ ts, b < 256) → Lenient Utf8Char Valid ts os → j + ((os.filterMap id).flatMap enc16).length ≤ M →
      ∃ mem', convL M utf8ToUtf16 ts mem j = .ok (mem', j + ((os.filterMap id).flatMap enc16).length)) ∧
    (Lenient Utf16Char Valid ts os → j + ((os.filterMap id).flatMap enc8).length ≤ M →
      ∃ mem', convL M utf16ToUtf8 ts mem j = .ok (mem', j + ((os.filterMap id).flatMap enc8).length)) ∧
    (Lenient (fun v us => us = [v]) Valid ts os → j + ((os.filterMap id).flatMap enc8).length ≤ M →
      ∃ mem', convL M encodeUtf8 ts mem j = .ok (mem', j + ((os.filterMap id).flatMap enc8).length)) ∧
    (Lenient (fun v us => us = [v]) Valid ts os → j + ((os.filterMap id).flatMap enc16).length ≤ M →
      ∃ mem', convL M encodeUtf16 ts mem j = .ok (mem', j + ((os.filterMap id).flatMap enc16).length)) := by
  have hV : Dec false = Valid := funext fun v => propext (dec_false v)
  have c8 := decodeUtf8_converts false
  have c16 := decodeUtf16_converts false
  have t8 := utf8ToUtf16_converts
  have t16 := utf16ToUtf8_converts
  have s16 := resyncUtf16_ok false
  rw [hV] at c8 c16 t8 t16 s16
  refine ⟨fun hB h hM2 => ?_, fun h hM2 => ?_, fun hB h hM2 => ?_, fun h hM2 => ?_, fun h hM2 => ?_, fun h hM2 => ?_⟩
  · obtain ⟨m, h1, _⟩ := lenient_length (decodeUtf8_good false) c8 c8.prefixFree
      (fun _ _ _ => utf8Char_ne) resyncUtf8_ok (by decide) hB hj hm h hM (by rw [flatMap_singleton']; exact hM2)
    rw [flatMap_singleton'] at h1
    exact ⟨m, h1⟩
  · obtain ⟨m, h1, _⟩ := lenient_length (decodeUtf16_good false) c16 c16.prefixFree
      (fun _ _ _ => utf16Char_ne) s16 (by decide) (by simp) hj hm h hM (by rw [flatMap_singleton']; exact hM2)
    rw [flatMap_singleton'] at h1
    exact ⟨m, h1⟩
  · obtain ⟨m, h1, _⟩ := lenient_length utf8ToUtf16_good t8 c8.prefixFree
      (fun _ _ _ => utf8Char_ne) resyncUtf8_ok (by decide) hB hj hm h hM hM2
    exact ⟨m, h1⟩
  · obtain ⟨m, h1, _⟩ := lenient_length utf16ToUtf8_good t16 c16.prefixFree
      (fun _ _ _ => utf16Char_ne) s16 (by decide) (by simp) hj hm h hM hM2
    exact ⟨m, h1⟩
  · obtain ⟨m, h1, _⟩ := lenient_length encodeUtf8_good encodeUtf8_converts chars_prefixFree
      (fun _ _ _ h => by rw [h]; simp) noResync_ok (by decide) (by simp) hj hm h hM hM2
    exact ⟨m, h1⟩
  · obtain ⟨m, h1, _⟩ := lenient_length encodeUtf16_good encodeUtf16_converts chars_prefixFree
      (fun _ _ _ h => by rw [h]; simp) noResync_ok (by decide) (by simp) hj hm h hM hM2
    exact ⟨m, h1⟩

/-- The claim of C11 fails on every byte string that is not well-formed UTF-8: lenient decoding never gives the
characters with replacements in place of the ill-formed parts. -/
theorem C11_defect (M : Nat) (bs mem : List Nat) (j : Nat) (hB : ∀ b ∈ bs, b < 256) (hj : j ≤ mem.length)
    (hm : mem.length ≤ M) (hM : j + 3 * bs.length ≤ M) (os : List (Option Nat)) (h : Lenient Utf8Char Valid bs os)
    (hill : none ∈ os) (hlen : os.length ≤ bs.length) :
    ¬ ∃ mem', convL M (decodeUtf8 false) bs mem j = .ok (mem', j + (lenientOutput (fun v => [v]) [0xFFFD] os).length) := by
  rintro ⟨mem', hc⟩
  have hle : (os.filterMap id).length ≤ os.length := List.length_filterMap_le _ _
  obtain ⟨m, h1⟩ := (C11_length_partial M bs mem j hj hm hM os).1 hB h (by omega)
  rw [h1] at hc
  injection hc with hc; injection hc with _ hc
  have := lenientOutput_length (e := fun v => [v]) (replacement := [0xFFFD]) os
  rw [flatMap_singleton'] at this
  have hp : 0 < os.count none := List.count_pos_iff.2 hill
  simp only [List.length_cons, List.length_nil] at this
  omega

/-- A concrete case of the defect: `"a\xFFb"` becomes U+FFFD followed by `b`, so `a` is lost. -/
theorem C11_defect_decode : convL 100 (decodeUtf8 false) [0x61, 0xFF, 0x62] [] 0 = .ok ([0xFFFD, 0x62], 2) ∧
    Lenient Utf8Char Valid [0x61, 0xFF, 0x62] [some 0x61, none, some 0x62] ∧
    lenientOutput (fun v => [v]) [0xFFFD] [some 0x61, none, some 0x62] = [0x61, 0xFFFD, 0x62] := by
  refine ⟨by decide +kernel, ?_, rfl⟩
  refine .char (us := [0x61]) (by decide) (.one 0x61 (by decide)) ?_
  refine .bad (junk := [0xFF]) (by simp) ?_ (.char (us := [0x62]) (by decide) (.one 0x62 (by decide)) .nil)
  intro i hi
  have : i = 0 := by simpa using hi
  subst this
  intro v us more _ hf hc
  obtain ⟨b, t, e, hb⟩ := utf8Char_head hf
  rw [e] at hc
  simp only [List.drop_zero, List.cons_append, List.cons.injEq] at hc
  omega

/-- A replacement of an initial ill-formed part is overwritten by the next character. -/
theorem C11_defect_initial : convL 100 (decodeUtf8 false) [0xFF, 0x62] [] 0 = .ok ([0x62], 1) := by decide +kernel

/-- When the buffer is reallocated while appending a replacement, decoded characters are lost (and replaced by zeros). -/
theorem C11_defect_realloc : convL 100 encodeUtf8 [0x61, 0x62, 0xD800, 0x63] [0, 0] 0 =
    .ok ([0xEF, 0xBF, 0x63], 3) := by decide +kernel

example : convL 100 (decodeUtf8 false) [0x61, 0xC3, 0xA5] [] 0 = .ok ([0x61, 0xE5], 2) := by decide +kernel

/-! ### C12: exhausted input -/

theorem exhausted8 {red : Bool} {a : Nat} {t : List Nat} (h : decodeUtf8Step red (a :: t) 4 = .exhausted) :
    (0xC0 ≤ a ∧ a < 0xE0 ∧ t.length = 0) ∨ (0xE0 ≤ a ∧ a < 0xF0 ∧ t.length ≤ 1) ∨
      (0xF0 ≤ a ∧ a < 0xF8 ∧ t.length ≤ 2) := by
  unfold decodeUtf8Step at h
  dsimp only at h
  by_cases h1 : a < 0x80
  · rw [if_pos h1] at h; split_ifs at h
  rw [if_neg h1] at h
  by_cases h2 : a ≥ 0xC0
  · rw [if_pos h2] at h
    by_cases h3 : a < 0xE0
    · rw [if_pos h3] at h
      rcases t with _ | ⟨b, t⟩
      · exact .inl ⟨h2, h3, rfl⟩
      · dsimp only at h; split_ifs at h
    rw [if_neg h3] at h
    by_cases h4 : a < 0xF0
    · rw [if_pos h4] at h
      rcases t with _ | ⟨b, _ | ⟨c, t⟩⟩
      · exact .inr (.inl ⟨by omega, h4, by simp⟩)
      · exact .inr (.inl ⟨by omega, h4, by simp⟩)
      · dsimp only at h; split_ifs at h
    rw [if_neg h4] at h
    by_cases h5 : a < 0xF8
    · rw [if_pos h5] at h
      rcases t with _ | ⟨b, _ | ⟨c, _ | ⟨d, t⟩⟩⟩
      · exact .inr (.inr ⟨by omega, h5, by simp⟩)
      · exact .inr (.inr ⟨by omega, h5, by simp⟩)
      · exact .inr (.inr ⟨by omega, h5, by simp⟩)
      · dsimp only at h; split_ifs at h
    rw [if_neg h5] at h; cases h
  · rw [if_neg h2] at h; cases h

/-- C12, partial: what it means when a call of the incremental UTF-8 decoder reports that the input is exhausted: the
unconsumed input is empty, or it begins with a byte in the range 0xC0 to 0xF7 and is shorter than that byte calls for.
What is missing: the unconsumed input is not necessarily a proper prefix of the form of a valid character (see
`C12_defect`). -/
theorem C12_exhausted_partial (red : Bool) (inp mem : List Nat) (i j : Nat) (s : State)
    (h : incr (decodeUtf8Step red) inp mem i j false false = .ok s) :
    (s.exhausted = true → s.error = false ∧ (inp.drop s.i = [] ∨ ∃ b t, inp.drop s.i = b :: t ∧
      ((0xC0 ≤ b ∧ b < 0xE0 ∧ t.length = 0) ∨ (0xE0 ≤ b ∧ b < 0xF0 ∧ t.length ≤ 1) ∨
        (0xF0 ≤ b ∧ b < 0xF8 ∧ t.length ≤ 2)))) ∧
    (s.error = true → s.exhausted = false ∧ ∀ more, ¬ ∃ v us rest, Dec red v ∧ Utf8Char v us ∧
      inp.drop s.i ++ more = us ++ rest) := by
  obtain ⟨_, _, out, k, st, o2, k1, k2, hr, P⟩ := incr_inv (decodeUtf8_good red) h
  have hfin : (s.exhausted = true ∨ s.error = true) → decodeUtf8Step red (inp.drop s.i) 4 = st ∧
      (s.exhausted, s.error) = flags st false false ∧ (st = .error ∨ st = .exhausted) := by
    intro hend
    have hti := P.ti
    simp only at hti
    rcases P.why with ⟨a, b, d⟩ | ⟨a, b, -⟩
    · obtain ⟨f1, f2⟩ := P.rest.final
      rw [b, List.drop_zero] at f1
      simp only at f1
      rw [hti]
      exact ⟨f1, d, f2⟩
    · simp only at a b; rw [a, b] at hend; simp at hend
  constructor
  · intro hex
    obtain ⟨h1, h2, h3 | h3⟩ := hfin (.inl hex)
    · subst h3; injection h2 with h2 _; rw [h2] at hex; cases hex
    · subst h3
      injection h2 with _ h2
      refine ⟨h2, ?_⟩
      generalize hR : inp.drop s.i = rest at h1
      rcases rest with _ | ⟨a, t⟩
      · exact .inl rfl
      · right
        refine ⟨a, t, rfl, ?_⟩
        exact exhausted8 h1
  · intro her
    obtain ⟨h1, h2, h3 | h3⟩ := hfin (.inr her)
    · subst h3
      injection h2 with h2 _
      refine ⟨h2, ?_⟩
      rintro more ⟨v, us, rest, hv, hf, heq⟩
      have := (decodeUtf8_converts red).complete v us rest hv hf
      rw [← heq, (decodeUtf8_regular red).ext _ _ (by rw [h1]; simp), h1] at this
      cases this
    · subst h3; injection h2 with _ h2; rw [h2] at her; cases her

/-- C12, partial: when the input is a proper prefix of the form of a valid character, the decoder reports that the
input is exhausted, and consumes nothing. -/
theorem C12_incomplete_partial (red : Bool) (inp mem : List Nat) (i j : Nat) (hi : i ≤ inp.length) (hj : j ≤ mem.length)
    (v : Nat) (more : List Nat) (hv : Dec red v) (hf : Utf8Char v (inp.drop i ++ more)) (hne : more ≠ []) :
    ∃ s, incr (decodeUtf8Step red) inp mem i j false false = .ok s ∧ s.exhausted = true ∧ s.error = false ∧
      s.i = i ∧ s.j = j ∧ s.out = mem := by
  have hstep : decodeUtf8Step red (inp.drop i) 4 = .exhausted := by
    by_contra hc
    have h1 := (decodeUtf8_regular red).ext (inp.drop i) more hc
    have h2 := (decodeUtf8_converts red).complete v _ [] hv hf
    rw [List.append_nil, h1] at h2
    have h3 := ((decodeUtf8_regular red).pos _ _ _ h2).2.1
    rw [List.length_append] at h3
    have := List.length_pos_iff.2 hne
    omega
  obtain ⟨s, o1, o2, k1, k2, h1, P⟩ := incr_part (decodeUtf8_regular red) hi hj false false (.exhausted hstep)
  obtain ⟨e1, e2⟩ := List.append_eq_nil_iff.1 P.hout.symm
  have hk := P.hk
  have hk1 : k1 = 0 := by omega
  subst e1 e2 hk1
  refine ⟨s, h1, ?_⟩
  rcases P.why with ⟨-, -, d⟩ | ⟨-, -, us, n, o3, d, -⟩
  · injection d with d1 d2
    refine ⟨d1, d2, P.ti, P.tj, ?_⟩
    rw [P.tout]
    simp
  · simp only [Nat.add_zero] at d
    rw [hstep] at d
    cases d

/-- C12 fails: the decoder reports that input is exhausted, although no further input can make the unconsumed input
valid: for the byte 0xC0, for a first byte of three followed by a letter, for an overlong form, and for a value above
U+10FFFF. -/
theorem C12_defect : ∀ bs ∈ [[0xC0], [0xE2, 0x41], [0xE0, 0x80], [0xF5]],
    (∃ s, incr (decodeUtf8Step false) bs [0] 0 0 false false = .ok s ∧ s.exhausted = true ∧ s.i = 0) ∧
    ∀ more, ¬ ∃ v us rest, Valid v ∧ Utf8Char v us ∧ bs ++ more = us ++ rest := by
  intro bs hbs
  simp only [List.mem_cons, List.not_mem_nil, or_false] at hbs
  constructor
  · rcases hbs with rfl | rfl | rfl | rfl <;> exact ⟨⟨0, [0], 0, true, false⟩, by decide +kernel, rfl, rfl⟩
  · rintro more ⟨v, us, rest, hv, hf, heq⟩
    unfold Valid at hv
    rcases hbs with rfl | rfl | rfl | rfl <;> cases hf <;>
      simp only [List.cons_append, List.cons.injEq, List.nil_append] at heq <;> omega

/-- C12 does hold for UTF-16: when the decoder reports that input is exhausted, the unconsumed input is empty, or it is
the first half of a surrogate pair. -/
theorem C12_utf16 (inp mem : List Nat) (i j : Nat) (s : State)
    (h : incr (decodeUtf16Step false) inp mem i j false false = .ok s) (hex : s.exhausted = true) :
    inp.drop s.i = [] ∨ ∃ v us x, Valid v ∧ Utf16Char v us ∧ us = inp.drop s.i ++ [x] := by
  obtain ⟨_, _, out, k, st, o2, k1, k2, hr, P⟩ := incr_inv (decodeUtf16_good false) h
  have hti := P.ti
  simp only at hti
  rcases P.why with ⟨a, b, d⟩ | ⟨a, b, -⟩
  · obtain ⟨f1, f2 | f2⟩ := P.rest.final
    · subst f2; injection d with d _; rw [d] at hex; cases hex
    · subst f2
      rw [b, List.drop_zero] at f1
      simp only at f1
      rw [← hti] at f1
      generalize hR : inp.drop s.i = rest at f1
      rcases rest with _ | ⟨a, _ | ⟨b, t⟩⟩
      · exact .inl rfl
      · right
        have hc : 0xD800 ≤ a ∧ a < 0xDC00 := by
          simp only [decodeUtf16Step, decodeUtf16, ge_iff_le, Nat.reduceLeDiff, if_true] at f1
          split_ifs at f1
          omega
        exact ⟨2 ^ 16 + (a - 0xD800) * 2 ^ 10 + 0, [a, 0xDC00], 0xDC00, by unfold Valid; omega,
          two16 (a := a - 0xD800) (b := 0) (by omega) (by omega) rfl (by omega) (by omega), rfl⟩
      · exfalso
        simp only [decodeUtf16Step, decodeUtf16, ge_iff_le, Nat.reduceLeDiff, if_true] at f1
        split_ifs at f1
  · simp only at a b; rw [a] at hex; cases hex

example : incr (decodeUtf8Step false) [0x61, 0xE2, 0x82] [0, 0] 0 0 false false = .ok ⟨1, [0x61, 0], 1, true, false⟩ := by
  decide +kernel

end Verif.Unicode
