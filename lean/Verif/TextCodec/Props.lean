import Verif.TextCodec.Lemmas
/-!
Properties C192 - C195: text codecs.
-/
namespace Verif.TextCodec
open Verif.Newline Verif.Newline.Spec Spec

variable {σ α β : Type}

/-! ### Encodings for examples -/

/-- Each number is encoded as a number of `a` characters followed by `b`, except that 0 is encoded as a newline character, and that numbers above 9 are
invalid. -/
def toy : Coding Unit Nat Char
  | _, [] => .stop
  | _, 0 :: _ => .advance ['\n'] 1 ()
  | _, n :: _ => if 9 < n then .invalid else .advance (List.replicate n 'a' ++ ['b']) 1 ()

theorem toy_progress : Progress toy := by
  intro s i out n s1 h
  rcases i with _ | ⟨_ | a, t⟩
  · cases h
  · cases h; simp
  · simp only [toy] at h
    split at h
    · cases h
    · cases h; simp

/-- A character is encoded as itself, but `%` is an escape character, which must not be the last character, and `x` is invalid. -/
def toyDecode : Bool → Coding Unit Char Char
  | _, _, [] => .stop
  | e, _, [c] => if c = '%' then (if e then .invalid else .stop) else if c = 'x' then .invalid else .advance [c] 1 ()
  | _, _, c :: d :: _ => if c = '%' then .advance ['<', d, '>'] 2 () else if c = 'x' then .invalid else .advance [c] 1 ()

theorem toyDecode_stable : Stable toyDecode := by
  constructor
  · intro e s i j out n s1 h
    rcases i with _ | ⟨c, _ | ⟨d, t⟩⟩
    · cases h
    · by_cases h1 : c = '%'
      · simp [toyDecode, h1] at h
      · by_cases h2 : c = 'x'
        · simp [toyDecode, h2] at h
        · cases j <;> simpa [toyDecode, h1, h2] using ⟨by simp [toyDecode, h1, h2] at h; omega, by simpa [toyDecode, h1, h2] using h⟩
    · by_cases h1 : c = '%'
      · simp [toyDecode, h1] at h ⊢
        exact ⟨by omega, h⟩
      · by_cases h2 : c = 'x'
        · simp [toyDecode, h2] at h
        · simp [toyDecode, h1, h2] at h ⊢
          exact ⟨by omega, h⟩
  · intro e s i j h
    rcases i with _ | ⟨c, _ | ⟨d, t⟩⟩
    · cases h
    · by_cases h1 : c = '%'
      · simp [toyDecode, h1] at h
      · by_cases h2 : c = 'x'
        · cases j <;> simp [toyDecode, h2]
        · simp [toyDecode, h1, h2] at h
    · by_cases h1 : c = '%'
      · simp [toyDecode, h1] at h
      · by_cases h2 : c = 'x'
        · simp [toyDecode, h2]
        · simp [toyDecode, h1, h2] at h

theorem toyDecode_progress (e : Bool) : Progress (toyDecode e) := by
  intro s i out n s1 h
  rcases i with _ | ⟨c, _ | ⟨d, t⟩⟩
  · cases h
  · simp only [toyDecode] at h
    split at h
    · split at h <;> cases h
    · split at h <;> cases h
      simp
  · simp only [toyDecode] at h
    split at h
    · cases h; simp
    · split at h <;> cases h
      simp

/-! ### C192 -/

/-- Every encoding that makes progress has an operation. -/
theorem C192_operation_exists (next : Coding σ α β) (hp : Progress next) :
    Conforms (fun s data avail => greedy next avail (data.length + 1) s data [] 0) next := by
  intro s data avail
  obtain ⟨m, h1, h2, h3⟩ := greedy_run hp avail (data.length + 1) s data [] 0 (by omega)
  rw [Nat.zero_add] at h2
  refine ⟨by rw [h2]; exact h1, ?_⟩
  simp only [h2]; exact h3

/-- Processing in full always has a result, which is unique. -/
theorem C192_full_exists_unique (next : Coding σ α β) (hp : Progress next) (s : σ) (data : List α) :
    ∃ s' rest w ok, Full next s data [] s' rest w ok ∧
      ∀ s2 rest2 w2 ok2, Full next s data [] s2 rest2 w2 ok2 → s2 = s' ∧ rest2 = rest ∧ w2 = w ∧ ok2 = ok := by
  obtain ⟨s', rest, w, ok, h⟩ := full_total hp data.length s data [] (Nat.le_refl _)
  exact ⟨s', rest, w, ok, h, fun _ _ _ _ h2 => full_unique h2 h⟩

/-- Encoding, and decoding without translation of newlines: what is added to the buffer is all that follows from the data, whatever the buffer
contains, and however large it is, and the shift state, the remaining data, and the returned value do not depend on that either. -/
theorem C192_loop (op : Op σ α β) (next : Coding σ α β) (hc : Conforms op next) (grow : Nat → Nat) (hg : ∀ n, n < grow n) (s : σ) (data : List α)
    (buf : List β) (size : Nat) (hb : buf.length ≤ size) (s' : σ) (rest : List α) (w : List β) (ok : Bool) (hf : Full next s data [] s' rest w ok) :
    ∃ size', (buf ++ w).length ≤ size' ∧ ∀ fuel, buf.length + w.length + 1 < fuel →
      loop op grow fuel ⟨s, data, buf, size⟩ = some (ok, ⟨s', rest, buf ++ w, size'⟩) := by
  obtain ⟨size', l, h⟩ := loop_full hc hg (buf.length + w.length + 1 - size) buf size (Nat.le_refl _) hf hb
  exact ⟨size', l, fun fuel hfuel => h fuel (by omega)⟩

/-- Return to the initial shift state. -/
theorem C192_unshift (op : σ → Nat → UnshiftResult σ β) (seq : σ → List β) (hc : ConformsUnshift op seq) (grow : Nat → Nat) (hg : ∀ n, n < grow n)
    (s : σ) (data : List α) (buf : List β) (size : Nat) (hb : buf.length ≤ size) :
    ∃ s' size', seq s' = [] ∧ (buf ++ seq s).length ≤ size' ∧ ∀ fuel, buf.length + (seq s).length < fuel →
      unshiftLoop op grow fuel ⟨s, data, buf, size⟩ = some ⟨s', data, buf ++ seq s, size'⟩ := by
  obtain ⟨s', size', e, l, h⟩ := unshiftLoop_full hc hg (buf.length + (seq s).length - size) s data buf size (Nat.le_refl _) hb
  exact ⟨s', size', e, l, fun fuel hfuel => h fuel (by omega)⟩

/-- With a degenerate character codec on POSIX, everything is copied. -/
theorem C192_copy (reserve : Nat → Nat) (hr : ∀ n, n ≤ reserve n) (s : State Unit α α) :
    (copy reserve s).buffer = s.buffer ++ s.data ∧ (copy reserve s).data = [] ∧ (s.buffer ++ s.data).length ≤ (copy reserve s).size := by
  refine ⟨by simp [copy], by simp [copy], ?_⟩
  simp only [copy, List.length_append]
  by_cases h : s.buffer.length + s.data.length ≤ s.size
  · rw [if_pos h]; exact h
  · rw [if_neg h]; exact hr _

example : loop (fun s data avail => greedy toy avail (data.length + 1) s data [] 0) (fun n => n + 1) 20 ⟨(), [2, 0, 1], ['?'], 1⟩ =
    some (true, ⟨(), [], ['?', 'a', 'a', 'b', '\n', 'a', 'b'], 7⟩) := by decide

example : loop (fun s data avail => greedy toy avail (data.length + 1) s data [] 0) (fun n => n + 5) 20 ⟨(), [2, 10, 1], [], 0⟩ =
    some (false, ⟨(), [10, 1], ['a', 'a', 'b'], 5⟩) := by decide

example : (copy (fun n => n + 3) ⟨(), [1, 2, 3], [7], 2⟩) = ⟨(), [], [7, 1, 2, 3], 7⟩ := by decide

/-! ### C193 -/

/-- Encoding with a degenerate character codec on Windows: the data with CR+LF for each newline character. -/
theorem C193_encode (grow : Nat → Nat) (hg : ∀ n, n < grow n) (data buf : List Char) (size : Nat) (hb : buf.length ≤ size) :
    ∃ size', (buf ++ toWindows data).length ≤ size' ∧ ∀ fuel, buf.length + 2 * data.length < fuel →
      windowsEncode grow fuel data buf size = some (buf ++ toWindows data, size') := by
  have hl := toWindows_length data
  obtain ⟨size', l, h⟩ := windowsEncode_eq hg (buf.length + (toWindows data).length - size) data buf size (Nat.le_refl _) hb
  exact ⟨size', l, fun fuel hfuel => h fuel (by omega)⟩

/-- Decoding with a degenerate character codec on Windows: a newline character for each CR+LF. A final CR remains in the data if there is more
data. -/
theorem C193_decode (grow : Nat → Nat) (hg : ∀ n, n < grow n) (e : Bool) (data buf : List Char) (size : Nat) (hb : buf.length ≤ size) :
    ∃ size', (buf ++ fromWindows (body e data)).length ≤ size' ∧ ∀ fuel, buf.length + (fromWindows (body e data)).length + 1 < fuel →
      windowsDecode grow e fuel data buf size = some (held e data, buf ++ fromWindows (body e data), size') := by
  obtain ⟨size', l, h⟩ := windowsDecode_eq hg e (buf.length + (fromWindows (body e data)).length + 1 - size) data buf size (Nat.le_refl _) hb
  exact ⟨size', l, fun fuel hfuel => h fuel (by omega)⟩

/-- What is translated and what waits make up the data, and when there is no more data, nothing waits. When there is more data, it makes no difference
that the data is decoded in steps. -/
theorem C193_steps (data more : List Char) : data = body false data ++ held false data ∧ body true data = data ∧ held true data = [] ∧
    fromWindows (data ++ more) = fromWindows (body false data) ++ fromWindows (held false data ++ more) := by
  refine ⟨body_append_held false data, by simp [body], by simp [held], fromWindows_steps data more⟩

/-- Decoding undoes encoding. -/
theorem C193_round_trip (grow : Nat → Nat) (hg : ∀ n, n < grow n) (data : List Char) (size size2 : Nat) :
    ∃ enc size' size2' fuel0, ∀ fuel, fuel0 ≤ fuel → windowsEncode grow fuel data [] size = some (enc, size') ∧
      windowsDecode grow true fuel enc [] size2 = some ([], data, size2') := by
  obtain ⟨size', -, h⟩ := C193_encode grow hg data [] size (by simp)
  obtain ⟨size2', -, h2⟩ := C193_decode grow hg true (toWindows data) [] size2 (by simp)
  rw [(C193_steps (toWindows data) []).2.1, (C193_steps (toWindows data) []).2.2.1, fromWindows_toWindows] at h2
  simp only [List.nil_append, List.length_nil, Nat.zero_add] at h h2
  refine ⟨_, size', size2', 2 * data.length + 2, fun fuel hfuel => ⟨h fuel (by omega), h2 fuel (by omega)⟩⟩

example : windowsEncode (fun n => n + 1) 20 "a\nb\n".toList ['?'] 1 = some ("?a\r\nb\r\n".toList, 7) := by decide

example : windowsDecode (fun n => n + 1) false 20 "a\r\nb\rc\r".toList ['?'] 1 = some (['\r'], "?a\nb\rc".toList, 7) := by decide +kernel

example : windowsDecode (fun n => n + 1) true 20 "a\r\nb\rc\r".toList ['?'] 1 = some ([], "?a\nb\rc\r".toList, 7) := by decide +kernel

/-! ### C194 -/

/-- Encoding on Windows with other character codecs: the character encoding of the data, with CR+LF for each newline character. -/
theorem C194_encode (op : Op σ α Char) (next : Coding σ α Char) (hc : Conforms op next) (grow : Nat → Nat) (hg : ∀ n, n < grow n) (s : σ)
    (data : List α) (buf : List Char) (size inner : Nat) (hb : buf.length ≤ size) (s' : σ) (rest : List α) (w : List Char) (ok : Bool)
    (hf : Full next s data [] s' rest w ok) :
    ∃ size' inner', (buf ++ toWindows w).length ≤ size' ∧ ∀ fuel, 2 * w.length + 1 < fuel →
      compoundEncode op grow fuel ⟨s, data, buf, size, inner⟩ = some (ok, ⟨s', rest, buf ++ toWindows w, size', inner'⟩) := by
  obtain ⟨size', inner', l, h⟩ := compoundEncode_full hc hg (w.length + (w.length + 1 - inner)) buf size inner (Nat.le_refl _) hf hb
  exact ⟨size', inner', l, fun fuel hfuel => h fuel (by omega)⟩

/-- Return to the initial shift state. -/
theorem C194_unshift (op : σ → Nat → UnshiftResult σ Char) (seq : σ → List Char) (hc : ConformsUnshift op seq) (grow : Nat → Nat)
    (hg : ∀ n, n < grow n) (s : σ) (data : List α) (buf : List Char) (size inner : Nat) (hb : buf.length ≤ size) :
    ∃ s' size' inner', seq s' = [] ∧ (buf ++ toWindows (seq s)).length ≤ size' ∧ ∀ fuel, 2 * (seq s).length < fuel →
      compoundUnshift op grow fuel ⟨s, data, buf, size, inner⟩ = some ⟨s', data, buf ++ toWindows (seq s), size', inner'⟩ := by
  obtain ⟨s', size', inner', e, l, h⟩ := compoundUnshift_full hc hg ((seq s).length + ((seq s).length - inner)) s data buf size inner (Nat.le_refl _) hb
  exact ⟨s', size', inner', e, l, fun fuel hfuel => h fuel (by omega)⟩

example : compoundEncode (fun s data avail => greedy toy avail (data.length + 1) s data [] 0) (fun n => n + 1) 20 ⟨(), [2, 0, 1], ['?'], 1, 1⟩ =
    some (true, ⟨(), [], "?aab\r\nab".toList, 8, 3⟩) := by decide

/-- An `unshift()` that produces as many of the `n` remaining characters as there is room for. -/
example : ConformsUnshift (fun (n : Nat) avail => ⟨n - min n avail, List.replicate (min n avail) '\n', decide (n ≤ avail)⟩)
    (fun n => List.replicate n '\n') := by
  intro s avail
  refine ⟨by simp; omega, ?_, ?_, ?_⟩
  · simp only [List.replicate_append_replicate]; congr 1; omega
  · intro h; simp only [decide_eq_true_eq] at h; simp only [List.replicate_eq_nil_iff]; omega
  · intro h; simp only [decide_eq_false_iff_not] at h; simp only [List.length_replicate]; omega

example : compoundUnshift (fun (n : Nat) avail => ⟨n - min n avail, List.replicate (min n avail) '\n', decide (n ≤ avail)⟩) (fun n => n + 1) 20
    ⟨3, [5], ['?'], 1, 0⟩ = some ⟨0, [5], "?\r\n\r\n\r\n".toList, 7, 1⟩ := by decide

/-! ### C195 -/

/-- Decoding on Windows with other character codecs: what is decoded is what remained from earlier calls followed by the data with a newline character
for each CR+LF. What is left for later calls is a final CR, if there is more data, and what remains of an incomplete sequence. -/
theorem C195_decode (op : Bool → Op σ Char β) (next : Bool → Coding σ Char β) (hc : ∀ e, Conforms (op e) (next e)) (hs : Stable next)
    (grow reserve : Nat → Nat) (hg : ∀ n, n < grow n) (hr : ∀ n, n ≤ reserve n) (e : Bool) (s : σ) (data pending : List Char) (inner : Nat)
    (hp : pending.length ≤ inner) (buf : List β) (size : Nat) (hb : buf.length ≤ size) (s' : σ) (rest : List Char) (w : List β) (ok : Bool)
    (hf : Full (next e) s (pending ++ fromWindows (body e data)) [] s' rest w ok) :
    ∃ d fuel0, (∀ fuel, fuel0 ≤ fuel → compoundDecode op grow reserve e fuel ⟨s, data, pending, inner, buf, size⟩ = some (ok, d)) ∧
      d.state = s' ∧ d.buffer = buf ++ w ∧ d.buffer.length ≤ d.size ∧ d.pending.length ≤ d.inner ∧
      (ok = true → d.data = held e data ∧ d.pending = rest) := by
  obtain ⟨d, fuel0, h1, h2, h3, h4, h5, h6⟩ := compoundDecode_full hc hs hg hr e _ inner buf size (Nat.le_refl _) hp hb hf
  exact ⟨d, fuel0, h1, h2, h3, h4, h6, h5⟩

/-- A call of `decode()` with the specified data. -/
def decodeCall (op : Bool → Op σ Char β) (grow reserve : Nat → Nat) (fuel : Nat) (e : Bool) (data : List Char) (d : CompoundDecState σ β) :
    Option (Bool × List Char × CompoundDecState σ β) :=
  match compoundDecode op grow reserve e fuel { d with data := data } with
  | none => none
  | some (ok, d2) => some (ok, d2.data, d2)

/-- Decoding of data that arrives in pieces: the result is the one of decoding all of the data with a newline character for each CR+LF, no matter how the
data is divided, and the divisions may separate CR from LF, or separate the characters of a sequence. -/
theorem C195_pieces (op : Bool → Op σ Char β) (next : Bool → Coding σ Char β) (hc : ∀ e, Conforms (op e) (next e)) (hs : Stable next)
    (grow reserve : Nat → Nat) (hg : ∀ n, n < grow n) (hr : ∀ n, n ≤ reserve n) (pieces : List (List Char)) :
    ∀ (rest0 : List Char) (d : CompoundDecState σ β), d.pending.length ≤ d.inner → d.buffer.length ≤ d.size →
      ∀ (s' : σ) (rest : List Char) (w : List β) (ok : Bool),
      Full (next true) d.state (d.pending ++ fromWindows (rest0 ++ pieces.flatten)) [] s' rest w ok →
      ∃ d2 fuel0, (∀ fuel, fuel0 ≤ fuel → session (decodeCall op grow reserve fuel) pieces rest0 d = some (ok, d2)) ∧
        d2.state = s' ∧ d2.buffer = d.buffer ++ w := by
  induction pieces with
  | nil =>
    intro rest0 d hp hb s' rest w ok hf
    rw [List.flatten_nil, List.append_nil] at hf
    obtain ⟨d2, fuel0, h1, h2, h3, -, -, -⟩ := C195_decode op next hc hs grow reserve hg hr true d.state rest0 d.pending d.inner hp d.buffer d.size hb
      s' rest w ok (by rw [(C193_steps rest0 []).2.1]; exact hf)
    refine ⟨d2, fuel0, fun fuel hfuel => ?_, h2, h3⟩
    simp only [session, decodeCall, h1 fuel hfuel]
  | cons piece pieces ih =>
    intro rest0 d hp hb s' rest w ok hf
    rw [List.flatten_cons, ← List.append_assoc, fromWindows_steps (rest0 ++ piece), ← List.append_assoc] at hf
    obtain ⟨s1, i1, o1, ok1, f1, f2, f3⟩ := full_prefix hs true _ hf _ rfl
    obtain ⟨d2, fuel0, h1, h2, h3, h4, h5, h6⟩ := C195_decode op next hc hs grow reserve hg hr false d.state (rest0 ++ piece) d.pending d.inner hp
      d.buffer d.size hb s1 i1 o1 ok1 f1
    cases ok1 with
    | false =>
      obtain ⟨rfl, rfl, rfl⟩ := f3 rfl
      refine ⟨d2, fuel0, fun fuel hfuel => ?_, h2, h3⟩
      simp only [session, decodeCall, h1 fuel hfuel]
    | true =>
      obtain ⟨h7, h8⟩ := h6 rfl
      obtain ⟨w2, ew, g⟩ := full_base (f2 rfl)
      obtain ⟨d3, fuel1, k1, k2, k3⟩ := ih d2.data d2 h5 h4 s' rest w2 ok (by rw [h2, h7, h8]; exact g)
      refine ⟨d3, max fuel0 fuel1, fun fuel hfuel => ?_, k2, by rw [k3, h3, ew, List.append_assoc]⟩
      simp only [session, decodeCall, h1 fuel (by omega)]
      exact k1 fuel (by omega)

example : session (decodeCall (fun e s data avail => greedy (toyDecode e) avail (data.length + 1) s data [] 0) (fun n => n + 1) (fun n => n + 1) 30)
    ["a\r".toList, "\nb%".toList, "c\r\n".toList] [] ⟨(), [], [], 1, [], 0⟩ = some (true, ⟨(), [], [], 3, "a\nb<c>\n".toList, 7⟩) := by
  decide +kernel

example : session (decodeCall (fun e s data avail => greedy (toyDecode e) avail (data.length + 1) s data [] 0) (fun n => n + 1) (fun n => n + 1) 30)
    ["a\r".toList, "\nbx".toList, "c\r\n".toList] [] ⟨(), [], [], 1, [], 0⟩ = some (false, ⟨(), [], ['x'], 1, "a\nb".toList, 3⟩) := by
  decide +kernel

end Verif.TextCodec
