import Verif.Newline.Lemmas

/-
Property theorems about the newline codec (claims C29, C30, C31, C53).
-/
namespace Verif.Newline
open Spec

/-! ### C29: round trip -/

/-- C29. Encode any text into a sufficiently large buffer, then decode the result (whole text
available, `end_of_data`) into a buffer at least as large as the text: the original text comes
out, and all input is consumed in both calls. -/
theorem C29_decode_encode (text buf1 buf2 : List Char)
    (h1 : 2 * text.length ≤ buf1.length) (h2 : text.length ≤ buf2.length) :
    ∃ e d, encode text 0 buf1 0 = some e ∧ e.i = text.length ∧
      decode e.out 0 true buf2 0 0 0 = some d ∧ d.i = e.out.length ∧ d.out = text := by
  have hw : ∀ t : List Char, (toWindows t).length ≤ 2 * t.length := by
    intro t
    induction t with
    | nil => simp [toWindows]
    | cons c t ih =>
      unfold toWindows at ih ⊢
      rw [List.flatMap_cons, List.length_append, List.length_cons]
      split <;> simp only [List.length_cons, List.length_nil] <;> omega
  obtain ⟨m, e1, e2, e3, e4, e5⟩ := encodeLoop_spec buf1.length text { i := 0, out := [] } (by simp)
  have hm : m = text.length := by
    rcases Nat.lt_or_ge m text.length with hlt | hge
    · have := e5 text[m] (text.drop (m+1)) (by simp)
      rw [e3] at this
      have h := hw (text.take m)
      have h' := hw [text[m]]
      simp at this h h'
      omega
    · omega
  subst hm
  have e3' : (encodeLoop buf1.length text { i := 0, out := [] }).out = toWindows text := by
    rw [e3]; simp
  refine ⟨encodeLoop buf1.length text { i := 0, out := [] }, _, by simp [encode], by simpa using e1,
    rfl, ?_⟩
  rw [e3']
  obtain ⟨w, k, d1, d2, d3, d4, d5, d6, d7⟩ :=
    decodeLoop_spec buf2.length true 0 (toWindows text) { i := 0, out := [], clear := 0 } (by simp)
  rw [fromWindows_toWindows] at d5
  simp only [List.drop_zero, List.take_zero]
  rw [d1, d2]
  simp only [List.nil_append, List.length_nil, Nat.zero_add] at d4 d7 ⊢
  have hd : (toWindows text).drop k = [] := by
    rcases d7 with h | h | h
    · have := congrArg List.length d5
      simp only [List.length_append] at this
      have hz : (fromWindows ((toWindows text).drop k)).length = 0 := by omega
      cases hk : (toWindows text).drop k with
      | nil => rfl
      | cons a l =>
        rw [hk] at hz
        exfalso
        cases l with
        | nil => simp [fromWindows] at hz
        | cons b l =>
          unfold fromWindows at hz
          split at hz <;> simp at hz
    · exact h
    · simp at h
  refine ⟨?_, ?_⟩
  · have := congrArg List.length hd
    simp at this
    omega
  · rw [hd] at d5; simpa [fromWindows] using d5.symm

example : ∃ e d, encode ['a', '\r', '\n', '\n', '\r'] 0 (List.replicate 10 ' ') 0 = some e ∧ e.i = 5 ∧
    decode e.out 0 true (List.replicate 5 ' ') 0 0 0 = some d ∧ d.i = e.out.length ∧
    d.out = ['a', '\r', '\n', '\n', '\r'] :=
  C29_decode_encode _ _ _ (by decide) (by decide)

/-! ### C30: independence of buffering -/

/-- One call of the incremental protocol: a further piece of input arrives and an output buffer of
size `cap` is offered. -/
structure Call where
  piece : List Char
  cap : Nat

/-- The usual driver loop: unconsumed input is kept and prepended to the next piece. The state is
(unconsumed input, all output so far). -/
def decodeSession : List Call → List Char × List Char → Option (List Char × List Char)
  | [], st => some st
  | c :: cs, (pending, out) => do
    let data := pending ++ c.piece
    let r ← decode data 0 false (List.replicate c.cap ' ') 0 0 0
    decodeSession cs (data.drop r.i, out ++ r.out)

/-- Same driver loop for encoding. -/
def encodeSession : List Call → List Char × List Char → Option (List Char × List Char)
  | [], st => some st
  | c :: cs, (pending, out) => do
    let data := pending ++ c.piece
    let r ← encode data 0 (List.replicate c.cap ' ') 0
    encodeSession cs (data.drop r.i, out ++ r.out)

theorem decodeSession_spec (calls : List Call) (pending out : List Char) :
    ∃ p o, decodeSession calls (pending, out) = some (p, o) ∧
      ∀ rest, o ++ fromWindows (p ++ rest) =
        out ++ fromWindows (pending ++ (calls.map Call.piece).flatten ++ rest) := by
  induction calls generalizing pending out with
  | nil => exact ⟨pending, out, rfl, by simp⟩
  | cons c cs ih =>
    obtain ⟨w, m, d1, d2, d3, d4, d5, d6, d7⟩ :=
      decodeLoop_spec c.cap false 0 (pending ++ c.piece) { i := 0, out := [], clear := 0 } (by simp)
    obtain ⟨p, o, h1, h2⟩ := ih ((pending ++ c.piece).drop m) (out ++ w)
    refine ⟨p, o, ?_, ?_⟩
    · unfold decodeSession
      simp [decode, d1, d2] at h1 ⊢
      exact h1
    · intro rest
      have hd := d6 rfl ((cs.map Call.piece).flatten ++ rest)
      rw [h2 rest]
      simp only [List.map_cons, List.flatten_cons, List.append_assoc] at hd ⊢
      rw [hd]

/-- C30 (decoding). Deliver the text in arbitrary pieces, into buffers of arbitrary sizes, and
conclude with a call with `end_of_data` whose buffer is large enough for what remains. Then the
total output is the decoding of the whole text, and nothing remains unconsumed. -/
theorem C30_decode_incremental (calls : List Call) (lastPiece : List Char) (buf : List Char)
    (hbuf : (calls.map Call.piece).flatten.length + lastPiece.length ≤ buf.length) :
    ∃ p o r, decodeSession calls ([], []) = some (p, o) ∧
      decode (p ++ lastPiece) 0 true buf 0 0 0 = some r ∧
      r.i = (p ++ lastPiece).length ∧
      o ++ r.out = fromWindows ((calls.map Call.piece).flatten ++ lastPiece) := by
  obtain ⟨p, o, h1, h2⟩ := decodeSession_spec calls [] []
  have hlen : ∀ l : List Char, (fromWindows l).length ≤ l.length := by
    intro l
    induction l using fromWindows.induct with
    | case1 => simp [fromWindows]
    | case2 => simp [fromWindows]
    | case3 c d t h ih => simp [fromWindows, h]; omega
    | case4 c d t h ih => simp only [fromWindows, h, if_false, List.length_cons] at ih ⊢; omega
  obtain ⟨w, m, d1, d2, d3, d4, d5, d6, d7⟩ :=
    decodeLoop_spec buf.length true 0 (p ++ lastPiece) { i := 0, out := [], clear := 0 } (by simp)
  have h3 := h2 lastPiece
  simp only [List.nil_append] at h3
  have hl := hlen ((calls.map Call.piece).flatten ++ lastPiece)
  rw [← h3] at hl
  simp only [List.nil_append, List.length_nil, Nat.zero_add] at d1 d2 d4 d7
  refine ⟨p, o, _, h1, by simp [decode]; rfl, ?_⟩
  have hd : (p ++ lastPiece).drop m = [] := by
    rcases d7 with h | h | h
    · have := congrArg List.length d5
      simp only [List.length_append] at this hl
      have hz : (fromWindows ((p ++ lastPiece).drop m)).length = 0 := by omega
      cases hk : (p ++ lastPiece).drop m with
      | nil => rfl
      | cons a l =>
        rw [hk] at hz
        exfalso
        cases l with
        | nil => simp [fromWindows] at hz
        | cons b l => unfold fromWindows at hz; split at hz <;> simp at hz
    · exact h
    · simp at h
  rw [d1, d2]
  refine ⟨?_, ?_⟩
  · have := congrArg List.length hd
    simp at this ⊢
    simp at d3
    omega
  · rw [hd] at d5
    rw [← h3, d5]; simp [fromWindows]

/-- C30, progress: a call without `end_of_data` either fills the offered buffer or consumes all
input except possibly a final CR, whose interpretation depends on the next character. -/
theorem C30_decode_progress (data buf : List Char) (r : DecState)
    (h : decode data 0 false buf 0 0 0 = some r) :
    r.out.length = buf.length ∨ data.drop r.i = [] ∨ data.drop r.i = ['\r'] := by
  obtain ⟨w, m, d1, d2, d3, d4, d5, d6, d7⟩ :=
    decodeLoop_spec buf.length false 0 data { i := 0, out := [], clear := 0 } (by simp)
  simp [decode] at h
  subst h
  rw [d1, d2]
  simp at d7 ⊢
  exact d7

example : ∃ p o r, decodeSession [⟨['a', '\r'], 1⟩, ⟨['\n', 'b'], 1⟩, ⟨[], 0⟩] ([], []) = some (p, o) ∧
      decode (p ++ ['\r']) 0 true (List.replicate 5 ' ') 0 0 0 = some r ∧
      r.i = (p ++ ['\r']).length ∧
      o ++ r.out = fromWindows (['a', '\r', '\n', 'b'] ++ ['\r']) :=
  C30_decode_incremental [⟨['a', '\r'], 1⟩, ⟨['\n', 'b'], 1⟩, ⟨[], 0⟩] ['\r'] _ (by decide)

/-- C30 (encoding). Deliver the text in arbitrary pieces, into buffers of arbitrary sizes: the
output so far followed by the encoding of the unconsumed input is always the encoding of the text
delivered so far; when nothing is left unconsumed, the output is exactly the encoding. -/
theorem C30_encode_incremental (calls : List Call) :
    ∃ p o, encodeSession calls ([], []) = some (p, o) ∧
      o ++ toWindows p = toWindows (calls.map Call.piece).flatten := by
  suffices H : ∀ pending out, ∃ p o, encodeSession calls (pending, out) = some (p, o) ∧
      o ++ toWindows p = out ++ toWindows (pending ++ (calls.map Call.piece).flatten) by
    simpa using H [] []
  induction calls with
  | nil => exact fun pending out => ⟨pending, out, rfl, by simp⟩
  | cons c cs ih =>
    intro pending out
    obtain ⟨m, e1, e2, e3, e4, e5⟩ :=
      encodeLoop_spec c.cap (pending ++ c.piece) { i := 0, out := [] } (by simp)
    obtain ⟨p, o, h1, h2⟩ := ih ((pending ++ c.piece).drop m)
      (out ++ toWindows ((pending ++ c.piece).take m))
    refine ⟨p, o, ?_, ?_⟩
    · unfold encodeSession
      simp only [List.nil_append, Nat.zero_add] at e1 e3
      simp only [encode, Nat.zero_le, and_self, if_true, List.length_replicate, List.drop_zero,
        List.take_zero, Option.bind_eq_bind, Option.bind_some, e1, e3]
      exact h1
    · rw [h2]
      simp only [toWindows, List.append_assoc, ← List.flatMap_append]
      rw [← List.append_assoc (List.take m _), List.take_append_drop]
      simp

/-- C30, progress: an encoding call consumes input until the next character's encoding does not fit
in the offered buffer. -/
theorem C30_encode_progress (data buf : List Char) (r : EncState)
    (h : encode data 0 buf 0 = some r) (c : Char) (t : List Char) (hd : data.drop r.i = c :: t) :
    buf.length < r.out.length + (toWindows [c]).length := by
  obtain ⟨m, e1, e2, e3, e4, e5⟩ := encodeLoop_spec buf.length data { i := 0, out := [] } (by simp)
  simp [encode] at h
  subst h
  simp at e1
  rw [e1] at hd
  exact e5 c t hd

example : ∃ r, encode ['a', '\n'] 0 [' ', ' '] 0 = some r ∧ (['a', '\n'] : List Char).drop r.i = ['\n'] :=
  ⟨_, rfl, by decide⟩

/-! ### C31: simulated decoding -/

/-- C31. Let `r` be the outcome of actually decoding the same data (`end_of_data`) into an empty
buffer of the requested size. Then `simul_decode` reports failure exactly if fewer characters were
decoded than requested, and otherwise advances to exactly the same input position. -/
theorem C31_simul_decode (data buf : List Char) (off : Nat) (hoff : off ≤ data.length) :
    ∃ r, decode data off true buf 0 0 0 = some r ∧
      simulDecode data off buf.length = some (if r.out.length = buf.length then some r.i else none) ∧
      (r.out.length = buf.length ↔ buf.length ≤ (fromWindows (data.drop off)).length) ∧
      r.out = (fromWindows (data.drop off)).take buf.length := by
  obtain ⟨w, m, d1, d2, d3, d4, d5, d6, d7⟩ :=
    decodeLoop_spec buf.length true 0 (data.drop off) { i := off, out := [], clear := 0 } (by simp)
  simp only [List.nil_append, List.length_nil, Nat.zero_add] at d1 d4 d7
  have hw : w = (fromWindows (data.drop off)).take buf.length := by
    rcases d7 with h | h | h
    · rw [d5, ← h]; simp
    · rw [d5, h]; simp only [fromWindows, List.append_nil]; rw [List.take_of_length_le d4]
    · simp at h
  refine ⟨_, by simp [decode, hoff]; rfl, ?_, ?_, ?_⟩
  · simp only [simulDecode, hoff, if_true]
    have := simulLoop_eq buf.length 0 (data.drop off) { i := off, out := [], clear := 0 } (by simp)
    simp only [List.length_nil] at this
    rw [this]
  · rw [d1, hw, List.length_take]; omega
  · rw [d1, hw]

example : simulDecode ['a', '\r', '\n', 'b', '\r'] 0 3 = some (some 4) ∧
    simulDecode ['a', '\r', '\n', 'b', '\r'] 1 4 = some none := by decide

/-! ### C53: the clear position -/

/-- C53. Either no newline is decoded: then `clear` is untouched and the consumed input was copied
verbatim; or `clear` becomes `clear_offset` plus the buffer position just after the last decoded
newline, everything after that position being a verbatim copy of the tail of the consumed input. -/
theorem C53_clear (data buf : List Char) (off boff co c : Nat) (e : Bool) (r : DecState)
    (h : decode data off e buf boff co c = some r) :
    (r.clear = c ∧ r.out = buf.take boff ++ (data.take r.i).drop off) ∨
    ∃ pre verb : List Char, (data.take r.i).drop off = pre ++ ['\r', '\n'] ++ verb ∧
      r.out = buf.take boff ++ fromWindows pre ++ ['\n'] ++ verb ∧
      r.clear + verb.length = co + r.out.length := by
  unfold decode at h
  split at h
  · rename_i hb
    obtain ⟨m, h1, h2⟩ := decodeLoop_clear buf.length e co (data.drop off)
      { i := off, out := buf.take boff, clear := c }
    simp only [Option.some.injEq] at h
    subst h
    simp only at h1
    rw [h1, List.drop_take, Nat.add_sub_cancel_left]
    rcases h2 with h2 | ⟨pre, verb, h2, h3, h4⟩
    · exact .inl h2
    · refine .inr ⟨pre, verb, by simp [h2], by simp [h3], ?_⟩
      rw [h3, h4]; simp; omega
  · simp at h

example : decode ['a', '\r', '\n', 'b', '\r'] 0 false (List.replicate 9 ' ') 0 100 7 =
    some { i := 4, out := ['a', '\n', 'b'], clear := 102 } := by decide

end Verif.Newline
