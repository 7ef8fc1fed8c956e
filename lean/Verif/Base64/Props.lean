import Verif.Base64.DecSpec

/-
Property theorems about the Base64 codec (claims C01-C05).

`hold` is the indeterminate initial contents of the 4-element hold buffer. Bytes and characters are
numbers below 256 (`IsBytes`).
-/
namespace Verif.Base64
open Spec

/-! ### Helpers -/

theorem sextets_length (x : List Nat) : (sextets x).length = (4 * x.length + 2) / 3 := by
  induction x using sextets.induct with
  | case1 => simp [sextets]
  | case2 a => simp [sextets]
  | case3 a b => simp [sextets]
  | case4 a b c t ih => simp [sextets, ih]; omega

theorem encode_length (u p : Bool) (n : Nat) (x : List Nat) :
    (encode u p n x).length =
      let size := (4 * x.length + 2) / 3 + (if p then (3 - x.length % 3) % 3 else 0)
      if n = 0 then size else size + (size + n - 1) / n := by
  have hs : (encodeText u p x).length = (4 * x.length + 2) / 3 + (if p then (3 - x.length % 3) % 3 else 0) := by
    cases p <;> simp [encodeText, sextets_length]
  unfold encode
  by_cases hn : n = 0
  · subst hn
    unfold breakLines
    simp only [true_or, dif_pos, if_true]
    exact hs
  · rw [breakLines_length n _ hn, hs]
    simp only [hn, if_false]

theorem ceil_div (m n : Nat) (hn : n ≠ 0) :
    (m + n - 1) / n = if m - m / n * n > 0 then m / n + 1 else m / n := by
  have h1 := Nat.div_add_mod m n
  have h2 := Nat.mod_lt m (Nat.pos_of_ne_zero hn)
  have h3 : n * (m / n) = m / n * n := Nat.mul_comm _ _
  split
  · have : (m + n - 1) = (m % n - 1) + n * (m / n + 1) := by rw [Nat.mul_add]; omega
    rw [this, Nat.add_mul_div_left _ _ (Nat.pos_of_ne_zero hn), Nat.div_eq_of_lt (by omega)]
    omega
  · have : (m + n - 1) = (n - 1) + n * (m / n) := by omega
    rw [this, Nat.add_mul_div_left _ _ (Nat.pos_of_ne_zero hn), Nat.div_eq_of_lt (by omega)]
    omega

theorem encodeBufferSize_eq (maxSize : Nat) (cfg : EncCfg) (x : List Nat) :
    encodeBufferSize maxSize cfg x.length =
      if (encode cfg.urlSafe cfg.usePadding cfg.lineSize x).length ≤ maxSize then
        some (encode cfg.urlSafe cfg.usePadding cfg.lineSize x).length
      else none := by
  rw [encode_length]
  unfold encodeBufferSize
  simp only
  have e : x.length + (if x.length - x.length / 3 * 3 > 0 then
      (if cfg.usePadding = true then x.length / 3 + 1 + (3 - (x.length - x.length / 3 * 3)) else x.length / 3 + 1)
      else x.length / 3) =
      (4 * x.length + 2) / 3 + (if cfg.usePadding = true then (3 - x.length % 3) % 3 else 0) := by
    by_cases hp : cfg.usePadding = true
    · simp only [hp, if_true]; split <;> omega
    · simp only [if_neg hp]; split <;> omega
  rw [e]
  generalize (4 * x.length + 2) / 3 + (if cfg.usePadding = true then (3 - x.length % 3) % 3 else 0) = size
  by_cases hn : cfg.lineSize = 0
  · simp only [if_pos hn]
  · simp only [if_neg hn]
    rw [ceil_div size _ hn]
    split
    · rfl
    · rw [if_neg (by omega)]

theorem encRem_init (cfg : EncCfg) (hold x : List Nat) :
    encRem cfg (EncSt.init hold) x = encode cfg.urlSafe cfg.usePadding cfg.lineSize x := by
  simp [encRem, EncSt.init, EncSt.P, encode, ls_breakLines]

theorem decRem_init (cfg : DecCfg) (hold x : List Nat) :
    decRem cfg (DecSt.init hold) x = dref cfg [] x := by
  simp [decRem, DecSt.init, DecSt.P]

theorem DecInv_init (cfg : DecCfg) (hold rest : List Nat) (h : hold.length = 4) :
    DecInv cfg (DecSt.init hold) rest :=
  .inl ⟨rfl, rfl, by simp [DecSt.init], h, by simp [DecSt.P, DecSt.init]⟩

/-- One encoder call with the whole input and enough space. -/
theorem encode_whole (cfg : EncCfg) (hold x : List Nat) (cap : Nat) (hh : hold.length = 4) (hx : IsBytes x)
    (hc : (encode cfg.urlSafe cfg.usePadding cfg.lineSize x).length ≤ cap) :
    ∃ r, encodeCall cfg (EncSt.init hold) x true cap = some r ∧ r.done = true ∧ r.rest = [] ∧
      r.out = encode cfg.urlSafe cfg.usePadding cfg.lineSize x := by
  obtain ⟨r, e, post⟩ := encodeCall_spec cfg (EncSt.init hold) x true cap (.inl (EncInv_init cfg hold hh)) hx
  refine ⟨r, e, ?_⟩
  cases hd : r.done with
  | true =>
    have := post.fin rfl hd
    simp only [List.append_nil] at this
    rw [encRem_init] at this
    exact ⟨rfl, this.1, this.2.symm⟩
  | false =>
    have := post.cont rfl hd
    simp only [List.append_nil] at this
    rw [encRem_init] at this
    obtain ⟨h1, h2, h3⟩ := this
    have hl := congrArg List.length h2
    have := List.length_pos_iff.mpr h3
    simp at hl; omega

theorem dref_init_length (cfg : DecCfg) (s : List Nat) :
    (dref cfg [] s).1.length ≤ decodeBufferSize s.length := by
  have := dref_length cfg [] s (by simp)
  rw [decodeBufferSize_eq]
  simp at this; omega

/-- One decoder call with the whole input and enough space. -/
theorem decode_whole (cfg : DecCfg) (hold s : List Nat) (cap : Nat) (hh : hold.length = 4)
    (hc : decodeBufferSize s.length ≤ cap) :
    ∃ r, decodeCall cfg (DecSt.init hold) s true cap = some r ∧ r.out = (dref cfg [] s).1 ∧
      (r.why = .done ↔ (dref cfg [] s).2 = .done) ∧ r.why ≠ .full ∧ r.why ≠ .needInput := by
  obtain ⟨r, e, post⟩ := decodeCall_spec cfg true s cap (DecSt.init hold) (DecInv_init cfg hold s hh)
  refine ⟨r, e, ?_⟩
  have ht := post.tot [] (by simp)
  simp only [List.append_nil] at ht
  rw [decRem_init] at ht
  have hlen := dref_init_length cfg s
  have hrest : ∀ P : Prop, (r.why = .full → P) → (r.why = .needInput → P) →
      ((decRem cfg r.st r.rest = ([], .done) ∧ r.why = .done) → P) →
      ((decRem cfg r.st r.rest = ([], .bad) ∧ r.why = .bad) → P) →
      ((decRem cfg r.st r.rest = ([], .premature) ∧ r.why = .premature) → P) → P := by
    intro P h1 h2 h3 h4 h5
    cases hw : r.why with
    | full => exact h1 hw
    | needInput => exact h2 hw
    | done =>
      obtain ⟨_, h, h'⟩ := post.done hw
      exact h3 ⟨by rw [h]; exact h', hw⟩
    | bad =>
      obtain ⟨_, h⟩ := post.bad hw
      exact h4 ⟨by simpa using h [], hw⟩
    | premature =>
      obtain ⟨_, h, h'⟩ := post.prem hw
      exact h5 ⟨by rw [h]; exact h', hw⟩
  apply hrest
  · intro hw
    exfalso
    obtain ⟨h1, h2⟩ := post.full hw
    have h3 := h2 []
    simp only [List.append_nil] at h3
    have := List.length_pos_iff.mpr h3
    rw [ht] at hlen
    simp [pre] at hlen; omega
  · intro hw; have := post.need hw; simp at this
  · rintro ⟨h, hw⟩
    rw [h] at ht; rw [ht, hw]; simp [pre]
  · rintro ⟨h, hw⟩
    rw [h] at ht; rw [ht, hw]; simp [pre]
  · rintro ⟨h, hw⟩
    rw [h] at ht; rw [ht, hw]; simp [pre]

theorem decodeOneShot_eq (cfg : DecCfg) (hold s : List Nat) (bufSize : Nat) (hh : hold.length = 4) :
    decodeOneShot cfg hold s bufSize =
      if (dref cfg [] s).2 = .done then .ok (dref cfg [] s).1
      else if (dref cfg [] s).1.length = max (decodeBufferSize s.length) bufSize then .abort
      else .throws := by
  obtain ⟨r, e, ho, hw, _, _⟩ := decode_whole cfg hold s (max (decodeBufferSize s.length) bufSize) hh
    (Nat.le_max_left _ _)
  unfold decodeOneShot decodeSpan
  simp only [e]
  by_cases h : r.why = .done
  · simp only [h, if_true, hw.mp h, ho]
  · have h' : ¬ (dref cfg [] s).2 = .done := fun h2 => h (hw.mpr h2)
    simp only [h, if_false, h', ho]
    simp

theorem mem_breakLines (n : Nat) (s : List Nat) : ∀ c ∈ breakLines n s, c ∈ s ∨ c = 10 := by
  induction s using breakLines.induct n with
  | case1 s h => unfold breakLines; rw [dif_pos h]; intro c hc; exact .inl hc
  | case2 s h ih =>
    unfold breakLines; rw [dif_neg h]
    intro c hc
    rw [List.mem_append, List.mem_append] at hc
    rcases hc with (hc | hc) | hc
    · exact .inl (List.mem_of_mem_take hc)
    · right; simpa using hc
    · rcases ih c hc with h | h
      · exact .inl (List.mem_of_mem_drop h)
      · exact .inr h

theorem strip_breakLines (n : Nat) (s : List Nat) (hs : ∀ c ∈ s, isSpace c = false) :
    stripSpace (breakLines n s) = s := by
  have hid : ∀ t : List Nat, (∀ c ∈ t, isSpace c = false) → stripSpace t = t := by
    intro t ht
    unfold stripSpace
    rw [List.filter_eq_self]
    intro c hc; simp [ht c hc]
  induction s using breakLines.induct n with
  | case1 s h => unfold breakLines; rw [dif_pos h]; exact hid s hs
  | case2 s h ih =>
    unfold breakLines; rw [dif_neg h]
    have ih := ih (fun c hc => hs c (List.mem_of_mem_drop hc))
    have h1 := hid (s.take n) (fun c hc => hs c (List.mem_of_mem_take hc))
    unfold stripSpace at ih h1 ⊢
    rw [List.filter_append, List.filter_append, ih, h1]
    have : [Char.toNat '\n'].filter (fun c => !isSpace c) = [] := by decide
    rw [this]; simp

theorem alphabet_props (u : Bool) (v : Nat) (h : v < 64) :
    isSpace (alphabet u v) = false ∧ alphabet u v < 256 ∧ alphabet u v ≠ 61 := by
  have : ∀ u : Bool, ∀ v : Fin 64, isSpace (alphabet u v.val) = false ∧ alphabet u v.val < 256 ∧
    alphabet u v.val ≠ 61 := by decide +kernel
  exact this u ⟨v, h⟩

theorem encodeText_chars (u : Bool) (x : List Nat) (hx : IsBytes x) :
    ∀ c ∈ encodeText u false x, isSpace c = false ∧ c < 256 ∧ c ≠ 61 := by
  intro c hc
  simp only [encodeText, Bool.false_eq_true, if_false, List.append_nil, List.mem_map] at hc
  obtain ⟨v, hv, rfl⟩ := hc
  exact alphabet_props u v (sextets_lt x hx v hv)

/-! ### C01: round trip

Full statement (false of the code, see `C01_padding_counterexample`): for every byte string, every
encode configuration and every decode configuration that accepts the same alphabet, white space if
line breaks are produced, and padding if padding is produced, decoding the encoding yields the
original bytes. -/

/-- C01 (partial): round trip whenever the encoding contains no padding characters. Missing: texts
that contain padding, which the decoder never accepts. -/
theorem C01_roundtrip_partial (maxSize : Nat) (ecfg : EncCfg) (dcfg : DecCfg) (hold1 hold2 x : List Nat)
    (buf1 buf2 : Nat) (h1 : hold1.length = 4) (h2 : hold2.length = 4) (hx : IsBytes x)
    (hsize : (encode ecfg.urlSafe ecfg.usePadding ecfg.lineSize x).length ≤ maxSize)
    (hurl : dcfg.urlSafe = ecfg.urlSafe) (hws : ecfg.lineSize ≠ 0 → dcfg.allowWs = true)
    (hpad : ecfg.usePadding = false ∨ x.length % 3 = 0) (hreq : dcfg.padding = .require → x.length % 3 = 0) :
    ∃ text, encodeOneShot maxSize ecfg hold1 x buf1 = .ok text ∧
      decodeOneShot dcfg hold2 text buf2 = .ok x := by
  refine ⟨encode ecfg.urlSafe ecfg.usePadding ecfg.lineSize x, ?_, ?_⟩
  · unfold encodeOneShot
    rw [encodeBufferSize_eq, if_pos hsize]
    obtain ⟨r, e, hd, _, ho⟩ := encode_whole ecfg hold1 x _ h1 hx (Nat.le_max_left _ buf1)
    simp only [e, hd, if_true, ho]
  · have hnp : encodeText ecfg.urlSafe ecfg.usePadding x = encodeText ecfg.urlSafe false x := by
      rcases hpad with h | h
      · rw [h]
      · unfold encodeText; rw [h]; simp
    have hch := encodeText_chars ecfg.urlSafe x hx
    have hb : IsBytes (encode ecfg.urlSafe ecfg.usePadding ecfg.lineSize x) := by
      intro c hc
      rw [encode, hnp] at hc
      rcases mem_breakLines _ _ c hc with h | h
      · exact (hch c h).2.1
      · omega
    have key := (dref_accept dcfg (encode ecfg.urlSafe ecfg.usePadding ecfg.lineSize x) x hb).mpr
      ⟨hx, by rw [encode, hnp, strip_breakLines _ _ (fun c hc => (hch c hc).1), hurl], by
        intro hw c hc
        have h0 : ecfg.lineSize = 0 := by
          apply Classical.byContradiction
          intro h; rw [hws h] at hw; simp at hw
        rw [encode, hnp, h0] at hc
        unfold breakLines at hc
        rw [dif_pos (.inl rfl)] at hc
        exact (hch c hc).1, hreq⟩
    rw [decodeOneShot_eq _ _ _ _ h2, key]
    simp

/-- The hypotheses of `C01_roundtrip_partial` hold for a five byte string with line breaking. -/
example : ∃ text, encodeOneShot 1000 ⟨true, false, 3⟩ [9, 9, 9, 9] [1, 255, 3, 251, 0] 0 = .ok text ∧
    decodeOneShot ⟨true, .reject, true⟩ [7, 7, 7, 7] text 0 = .ok [1, 255, 3, 251, 0] := by
  refine C01_roundtrip_partial _ _ _ _ _ _ _ _ rfl rfl ?_ ?_ rfl (by simp) (.inl rfl) (by simp)
  · unfold IsBytes; decide
  · rw [encode_length]; decide

/-- C01: the full statement is false. The byte 0 is encoded with padding as "AA==", and a decoder
that allows padding rejects that. -/
theorem C01_padding_counterexample :
    encodeOneShot 1000 ⟨false, true, 0⟩ [0, 0, 0, 0] [0] 0 = .ok ("AA==".toList.map Char.toNat) ∧
    decodeOneShot ⟨false, .allow, false⟩ [0, 0, 0, 0] ("AA==".toList.map Char.toNat) 0 = .throws ∧
    decodeOneShot ⟨false, .require, false⟩ [0, 0, 0, 0] ("AA==".toList.map Char.toNat) 0 = .throws := by
  decide +kernel

/-- C01: more generally, no text that contains a padding character is ever accepted. -/
theorem C01_padding_never_accepted (cfg : DecCfg) (hold s x : List Nat) (bufSize : Nat)
    (hh : hold.length = 4) (hs : IsBytes s) (hp : '='.toNat ∈ s) :
    decodeOneShot cfg hold s bufSize ≠ .ok x := by
  rw [decodeOneShot_eq _ _ _ _ hh]
  intro h
  split at h
  · rename_i hd
    simp only [Outcome.ok.injEq] at h
    have := (dref_accept cfg s x hs).mp (by rw [← h, ← hd])
    have hm : 61 ∈ stripSpace s := by
      unfold stripSpace
      rw [List.mem_filter]
      exact ⟨hp, by decide⟩
    rw [this.2.1] at hm
    exact (encodeText_chars cfg.urlSafe x this.1 61 hm).2.2 rfl
  · split at h <;> simp at h

/-! ### C02: buffer sizes -/

/-- C02 (encoder). The size function reports exactly the length of the encoding (and an error
exactly when that does not fit in the size type); encoding into a buffer of that size succeeds and
fills it exactly. -/
theorem C02_encode_buffer_size (maxSize : Nat) (cfg : EncCfg) (hold x : List Nat) (hh : hold.length = 4)
    (hx : IsBytes x) :
    (encodeBufferSize maxSize cfg x.length = none ↔
      maxSize < (encode cfg.urlSafe cfg.usePadding cfg.lineSize x).length) ∧
    ∀ n, encodeBufferSize maxSize cfg x.length = some n →
      ∃ r, encodeCall cfg (EncSt.init hold) x true n = some r ∧ r.done = true ∧ r.out.length = n ∧
        r.out = encode cfg.urlSafe cfg.usePadding cfg.lineSize x := by
  rw [encodeBufferSize_eq]
  refine ⟨?_, ?_⟩
  · split
    · simp; omega
    · simp; omega
  · intro n hn
    split at hn
    · simp only [Option.some.injEq] at hn
      subst hn
      obtain ⟨r, e, hd, _, ho⟩ := encode_whole cfg hold x _ hh hx (Nat.le_refl _)
      exact ⟨r, e, hd, by rw [ho], ho⟩
    · simp at hn

example : encodeBufferSize 1000 ⟨false, true, 4⟩ 7 = some 15 ∧ encodeBufferSize 14 ⟨false, true, 4⟩ 7 = none := by
  decide

/-- C02 (encoder, one smaller is not enough). A buffer smaller than the reported size is never
enough, i.e., the bound is exact. -/
theorem C02_encode_buffer_size_exact (maxSize : Nat) (cfg : EncCfg) (hold x : List Nat) (n cap : Nat)
    (hh : hold.length = 4) (hx : IsBytes x) (hn : encodeBufferSize maxSize cfg x.length = some n)
    (hc : cap < n) :
    ∃ r, encodeCall cfg (EncSt.init hold) x true cap = some r ∧ r.done = false ∧ r.out.length = cap := by
  rw [encodeBufferSize_eq] at hn
  split at hn
  · simp only [Option.some.injEq] at hn
    obtain ⟨r, e, post⟩ := encodeCall_spec cfg (EncSt.init hold) x true cap (.inl (EncInv_init cfg hold hh)) hx
    refine ⟨r, e, ?_⟩
    cases hd : r.done with
    | true =>
      have := post.fin rfl hd
      simp only [List.append_nil] at this
      rw [encRem_init] at this
      have hl := post.len
      rw [← this.2] at hl
      omega
    | false => exact ⟨rfl, (post.cont rfl hd).1⟩
  · simp at hn

/-- C02 (decoder, partial). A buffer of the reported size is always enough: success and the produced
bytes are the same as with any larger buffer, and a larger buffer never gets more bytes. Missing: the
one-shot function nevertheless *reports* lack of space in some failure cases, see
`C04_counterexample`. -/
theorem C02_decode_buffer_size_partial (cfg : DecCfg) (hold s : List Nat) (cap : Nat) (hh : hold.length = 4)
    (hc : decodeBufferSize s.length ≤ cap) :
    ∃ r r', decodeCall cfg (DecSt.init hold) s true (decodeBufferSize s.length) = some r ∧
      decodeCall cfg (DecSt.init hold) s true cap = some r' ∧
      r.out = r'.out ∧ (r.why = .done ↔ r'.why = .done) ∧ r.why ≠ .full := by
  obtain ⟨r, e, h1, h2, h3, _⟩ := decode_whole cfg hold s _ hh (Nat.le_refl _)
  obtain ⟨r', e', h1', h2', _, _⟩ := decode_whole cfg hold s cap hh hc
  exact ⟨r, r', e, e', by rw [h1, h1'], by rw [h2, h2'], h3⟩

example : decodeBufferSize 7 = 5 := by decide

/-- C02 (decoder). The reported size never exceeds what the longest acceptable text of that length
needs: for every length that is possible without white space, some text of that length produces
exactly that many bytes. -/
theorem C02_decode_buffer_size_tight (cfg : DecCfg) (hold : List Nat) (n : Nat) (hh : hold.length = 4)
    (hn : n % 4 ≠ 1) (hreq : cfg.padding = .require → n % 4 = 0) :
    ∃ s, s.length = n ∧ ∃ r, decodeCall cfg (DecSt.init hold) s true (decodeBufferSize n) = some r ∧
      r.why = .done ∧ r.out.length = decodeBufferSize n := by
  let x := List.replicate (3 * n / 4) 0
  have hx : IsBytes x := by intro b hb; simp [x] at hb; omega
  have hch := encodeText_chars cfg.urlSafe x hx
  have hlen : (encodeText cfg.urlSafe false x).length = n := by
    have : (encodeText cfg.urlSafe false x).length = (4 * (3 * n / 4) + 2) / 3 := by
      simp [encodeText, sextets_length, x]
    rw [this]
    have h4 := Nat.div_add_mod n 4
    have h5 : 3 * n / 4 = 3 * (n / 4) + 3 * (n % 4) / 4 := by omega
    have h6 : n % 4 = 0 ∨ n % 4 = 2 ∨ n % 4 = 3 := by omega
    rcases h6 with h6 | h6 | h6 <;> rw [h5, h6] <;> omega
  refine ⟨encodeText cfg.urlSafe false x, hlen, ?_⟩
  have key := (dref_accept cfg (encodeText cfg.urlSafe false x) x (fun c hc => (hch c hc).2.1)).mpr
    ⟨hx, by
      unfold stripSpace
      rw [List.filter_eq_self]
      intro c hc; simp [(hch c hc).1], fun _ c hc => (hch c hc).1, by
        intro h; have := hreq h; simp [x]; omega⟩
  obtain ⟨r, e, h1, h2, _, _⟩ := decode_whole cfg hold (encodeText cfg.urlSafe false x)
    (decodeBufferSize n) hh (by rw [hlen]; exact Nat.le_refl _)
  refine ⟨r, e, h2.mpr (by rw [key]), ?_⟩
  rw [h1, key, decodeBufferSize_eq]
  simp [x]

/-! ### C03: incremental operation -/

/-- One call during the input phase: a further piece of input and a buffer size. -/
structure Call where
  piece : List Nat
  cap : Nat

/-- Driver of the incremental encoder. Unconsumed input is kept and prepended to the next piece; when
there are no more pieces, calls are made with `end_of_input` and the buffer sizes `fin`. Result:
whether completion was reported, and all output. -/
def encSession (cfg : EncCfg) : List Call → List Nat → EncSt → List Nat → List Nat → Option (Bool × List Nat)
  | c :: cs, fin, s, pending, out => do
    let r ← encodeCall cfg s (pending ++ c.piece) false c.cap
    encSession cfg cs fin r.st r.rest (out ++ r.out)
  | [], fin, s, pending, out => finish fin s pending out
where
  finish : List Nat → EncSt → List Nat → List Nat → Option (Bool × List Nat)
    | cap :: fin, s, pending, out => do
      let r ← encodeCall cfg s pending true cap
      if r.done then some (true, out ++ r.out)
      else finish fin r.st r.rest (out ++ r.out)
    | [], _, _, out => some (false, out)

theorem encSession_spec (cfg : EncCfg) (calls : List Call) (fin : List Nat) (s : EncSt)
    (pending out : List Nat) (inv : EncInv cfg s) (hb : IsBytes pending)
    (hbs : ∀ c ∈ calls, IsBytes c.piece) :
    ∃ b o, encSession cfg calls fin s pending out = some (b, out ++ o) ∧
      (b = true → o = encRem cfg s (pending ++ (calls.map Call.piece).flatten)) ∧
      (b = false → o <+: encRem cfg s (pending ++ (calls.map Call.piece).flatten) ∧
        fin.sum ≤ o.length ∧ (fin ≠ [] → o.length < (encRem cfg s (pending ++ (calls.map Call.piece).flatten)).length)) := by
  induction calls generalizing s pending out with
  | cons c cs ih =>
    obtain ⟨r, e, post⟩ := encodeCall_spec cfg s (pending ++ c.piece) false c.cap inv
      (isBytes_append.mpr ⟨hb, hbs c (by simp)⟩)
    obtain ⟨hd, hm, _⟩ := post.more rfl
    obtain ⟨b, o, h1, h2, h3⟩ := ih r.st r.rest (out ++ r.out) (post.inv hd) post.restBytes
      (fun c' hc' => hbs c' (by simp [hc']))
    have hfl : IsBytes (cs.map Call.piece).flatten := by
      intro y hy
      rw [List.mem_flatten] at hy
      obtain ⟨l, hl, hy⟩ := hy
      rw [List.mem_map] at hl
      obtain ⟨c', hc', rfl⟩ := hl
      exact hbs c' (by simp [hc']) y hy
    have heq := hm _ hfl
    simp only [List.append_assoc] at heq
    refine ⟨b, r.out ++ o, ?_, ?_, ?_⟩
    · unfold encSession
      simp only [e, Option.bind_eq_bind, Option.bind_some, h1, List.append_assoc]
    · intro hb
      simp only [List.map_cons, List.flatten_cons]
      rw [heq, h2 hb]
    · intro hb
      obtain ⟨p1, p2, p3⟩ := h3 hb
      simp only [List.map_cons, List.flatten_cons]
      rw [heq]
      refine ⟨(List.prefix_append_right_inj r.out).mpr p1, by simp; omega, ?_⟩
      intro hf
      have := p3 hf
      simp only [List.length_append]; omega
  | nil =>
    simp only [List.map_nil, List.flatten_nil, List.append_nil]
    clear hbs
    unfold encSession
    induction fin generalizing s pending out with
    | nil => exact ⟨false, [], by simp [encSession.finish], by simp, by simp⟩
    | cons cap fin ih =>
      obtain ⟨r, e, post⟩ := encodeCall_spec cfg s pending true cap inv hb
      unfold encSession.finish
      simp only [e, Option.bind_eq_bind, Option.bind_some]
      cases hd : r.done with
      | true =>
        obtain ⟨h1, h2⟩ := post.fin rfl hd
        simp only [List.append_nil] at h2
        exact ⟨true, r.out, by simp, fun _ => h2.symm, by simp⟩
      | false =>
        obtain ⟨h1, h2, h3⟩ := post.cont rfl hd
        simp only [List.append_nil] at h2
        obtain ⟨b, o, i1, i2, i3⟩ := ih r.st r.rest (out ++ r.out) (post.inv hd) post.restBytes
        refine ⟨b, r.out ++ o, by simpa using i1, ?_, ?_⟩
        · intro hb; rw [h2, i2 hb]
        · intro hb
          obtain ⟨p1, p2, p3⟩ := i3 hb
          rw [h2]
          refine ⟨(List.prefix_append_right_inj r.out).mpr p1, by simp; omega, ?_⟩
          intro _
          by_cases hf : fin = []
          · subst hf
            simp only [encSession.finish, Option.some.injEq, Prod.mk.injEq] at i1
            have ho : o = [] := by
              have := congrArg List.length i1.2
              simp at this; exact this
            subst ho
            have := List.length_pos_iff.mpr h3
            simp only [List.length_append, List.length_nil]; omega
          · have := p3 hf
            simp only [List.length_append]; omega

/-- C03 (encoder). However the input is split and whatever buffer sizes are offered: if completion is
reported, then the collected output is the encoding of the whole input (the output of the one-shot
encoder, see `C02_encode_buffer_size`); otherwise it is a prefix of it. Completion is reported as soon
as the buffers offered after the end of input can hold the whole encoding. No assertion fails. -/
theorem C03_encode_incremental (cfg : EncCfg) (hold : List Nat) (calls : List Call) (fin : List Nat)
    (hh : hold.length = 4) (hbs : ∀ c ∈ calls, IsBytes c.piece) :
    ∃ b o, encSession cfg calls fin (EncSt.init hold) [] [] = some (b, o) ∧
      (b = true → o = encode cfg.urlSafe cfg.usePadding cfg.lineSize (calls.map Call.piece).flatten) ∧
      (b = false → o <+: encode cfg.urlSafe cfg.usePadding cfg.lineSize (calls.map Call.piece).flatten) ∧
      (fin ≠ [] → (encode cfg.urlSafe cfg.usePadding cfg.lineSize (calls.map Call.piece).flatten).length ≤ fin.sum →
        b = true) := by
  obtain ⟨b, o, h1, h2, h3⟩ := encSession_spec cfg calls fin (EncSt.init hold) [] []
    (.inl (EncInv_init cfg hold hh)) (by simp [IsBytes]) hbs
  rw [encRem_init] at h2 h3
  simp only [List.nil_append] at h1 h2 h3
  refine ⟨b, o, h1, h2, fun hb => (h3 hb).1, ?_⟩
  intro hf hl
  cases b with
  | true => rfl
  | false =>
    obtain ⟨_, p2, p3⟩ := h3 rfl
    have := p3 hf
    omega

example : encSession ⟨false, true, 5⟩ [⟨[1, 2], 1⟩, ⟨[3, 4], 0⟩, ⟨[5, 6, 7], 3⟩] [4, 1, 20] (EncSt.init [0, 0, 0, 0]) [] [] =
    some (true, "AQIDB\nAUGBw\n==\n".toList.map Char.toNat) := by decide +kernel

/-- What a driver of the incremental decoder has found out. -/
inductive DecStatus where
  | unfinished | ok | failed
deriving DecidableEq, Repr

/-- Driver of the incremental decoder; as `encSession`. The caller only looks at the return value, at
whether the buffer was filled, and at whether there is unconsumed input: a return value of `false`
with space left in the buffer is a failure, except when all input was consumed and the end of input
has not been announced. -/
def decSession (cfg : DecCfg) : List Call → List Nat → DecSt → List Nat → List Nat → Option (DecStatus × List Nat)
  | c :: cs, fin, s, pending, out => do
    let r ← decodeCall cfg s (pending ++ c.piece) false c.cap
    if r.out.length < c.cap ∧ r.rest ≠ [] then some (.failed, out ++ r.out)
    else decSession cfg cs fin r.st r.rest (out ++ r.out)
  | [], fin, s, pending, out => finish fin s pending out
where
  finish : List Nat → DecSt → List Nat → List Nat → Option (DecStatus × List Nat)
    | cap :: fin, s, pending, out => do
      let r ← decodeCall cfg s pending true cap
      if r.why = .done then some (.ok, out ++ r.out)
      else if r.out.length < cap then some (.failed, out ++ r.out)
      else finish fin r.st r.rest (out ++ r.out)
    | [], _, _, out => some (.unfinished, out)

theorem decSession_spec (cfg : DecCfg) (calls : List Call) (fin : List Nat) (s : DecSt)
    (pending out : List Nat) (inv : ∀ more, DecInv cfg s (pending ++ more)) :
    ∃ b o, decSession cfg calls fin s pending out = some (b, out ++ o) ∧
      (b = .ok → decRem cfg s (pending ++ (calls.map Call.piece).flatten) = (o, .done)) ∧
      (b = .failed → ∃ v, v ≠ .done ∧ decRem cfg s (pending ++ (calls.map Call.piece).flatten) = (o, v)) ∧
      (b = .unfinished → o <+: (decRem cfg s (pending ++ (calls.map Call.piece).flatten)).1 ∧
        fin.sum ≤ o.length) := by
  have invMore : ∀ (s : DecSt) (rest : List Nat), DecInv cfg s rest → ∀ more, DecInv cfg s (rest ++ more) := by
    intro s rest h more
    rcases h with h | ⟨h, h'⟩ | ⟨⟨h, t, ht⟩, hp⟩
    · exact .inl h
    · refine .inr (.inl ⟨h, fun hp => ?_⟩)
      obtain ⟨h1, t, ht⟩ := h' hp
      exact ⟨h1, t ++ more, by rw [ht]; rfl⟩
    · exact .inr (.inr ⟨⟨h, t ++ more, by rw [ht]; rfl⟩, hp⟩)
  induction calls generalizing s pending out with
  | cons c cs ih =>
    obtain ⟨r, e, post⟩ := decodeCall_spec cfg false (pending ++ c.piece) c.cap s (inv _)
    have heq := post.tot (cs.map Call.piece).flatten (by simp)
    unfold decSession
    simp only [e, Option.bind_eq_bind, Option.bind_some]
    simp only [List.append_assoc] at heq
    simp only [List.map_cons, List.flatten_cons]
    by_cases hf : r.out.length < c.cap ∧ r.rest ≠ []
    · rw [if_pos hf]
      have hbad : r.why = .bad := by
        cases hw : r.why with
        | bad => rfl
        | full => have := (post.full hw).1; omega
        | needInput => exact absurd (post.need hw).2 hf.2
        | done => have := (post.done hw).1; simp at this
        | premature => have := (post.prem hw).1; simp at this
      have hb := (post.bad hbad).2 (cs.map Call.piece).flatten
      refine ⟨_, r.out, rfl, by simp, ?_, by simp⟩
      intro _
      exact ⟨.bad, by simp, by rw [heq, hb]; simp [pre]⟩
    · rw [if_neg hf]
      obtain ⟨b, o, h1, h2, h3, h4⟩ := ih r.st r.rest (out ++ r.out) (invMore _ _ post.inv)
      refine ⟨b, r.out ++ o, by simpa using h1, ?_, ?_, ?_⟩
      · intro hb; rw [heq, h2 hb]; rfl
      · intro hb
        obtain ⟨v, hv, h⟩ := h3 hb
        exact ⟨v, hv, by rw [heq, h]; rfl⟩
      · intro hb
        obtain ⟨p1, p2⟩ := h4 hb
        rw [heq]
        exact ⟨(List.prefix_append_right_inj r.out).mpr p1, by simp; omega⟩
  | nil =>
    simp only [List.map_nil, List.flatten_nil, List.append_nil]
    unfold decSession
    induction fin generalizing s pending out with
    | nil => exact ⟨.unfinished, [], by simp [decSession.finish], by simp, by simp, by simp⟩
    | cons cap fin ih =>
      obtain ⟨r, e, post⟩ := decodeCall_spec cfg true pending cap s (by simpa using inv [])
      have heq := post.tot [] (by simp)
      simp only [List.append_nil] at heq
      unfold decSession.finish
      simp only [e, Option.bind_eq_bind, Option.bind_some]
      by_cases hd : r.why = .done
      · rw [if_pos hd]
        obtain ⟨_, h1, h2⟩ := post.done hd
        rw [h1, h2] at heq
        exact ⟨_, r.out, rfl, fun _ => by rw [heq]; simp [pre], by simp, by simp⟩
      · rw [if_neg hd]
        by_cases hc : r.out.length < cap
        · rw [if_pos hc]
          refine ⟨_, r.out, rfl, by simp, ?_, by simp⟩
          intro _
          cases hw : r.why with
          | bad =>
            have hb := (post.bad hw).2 []
            simp only [List.append_nil] at hb
            exact ⟨.bad, by simp, by rw [heq, hb]; simp [pre]⟩
          | full => have := (post.full hw).1; omega
          | needInput => have := (post.need hw).1; simp at this
          | done => exact absurd hw hd
          | premature =>
            obtain ⟨_, h1, h2⟩ := post.prem hw
            rw [h1, h2] at heq
            exact ⟨.premature, by simp, by rw [heq]; simp [pre]⟩
        · rw [if_neg hc]
          obtain ⟨b, o, h1, h2, h3, h4⟩ := ih r.st r.rest (out ++ r.out) (invMore _ _ post.inv)
          refine ⟨b, r.out ++ o, by simpa using h1, ?_, ?_, ?_⟩
          · intro hb; rw [heq, h2 hb]; rfl
          · intro hb
            obtain ⟨v, hv, h⟩ := h3 hb
            exact ⟨v, hv, by rw [heq, h]; rfl⟩
          · intro hb
            obtain ⟨p1, p2⟩ := h4 hb
            rw [heq]
            exact ⟨(List.prefix_append_right_inj r.out).mpr p1, by simp; omega⟩

/-- C03 (decoder). However the text is split and whatever buffer sizes are offered: compare with a
single call on the whole text with a sufficiently large buffer. If the session ends in success
(failure), then the single call succeeds (fails) and the output is the same. While the session is
unfinished, its output is a prefix of the output of the single call. The session does end as soon as
the buffers offered after the end of input can hold more than the whole output. No assertion fails. -/
theorem C03_decode_incremental (cfg : DecCfg) (hold hold' : List Nat) (calls : List Call) (fin : List Nat) (cap : Nat)
    (hh : hold.length = 4) (hh' : hold'.length = 4)
    (hcap : decodeBufferSize (calls.map Call.piece).flatten.length ≤ cap) :
    ∃ b o r, decSession cfg calls fin (DecSt.init hold) [] [] = some (b, o) ∧
      decodeCall cfg (DecSt.init hold') (calls.map Call.piece).flatten true cap = some r ∧
      (b = .ok → r.why = .done ∧ o = r.out) ∧
      (b = .failed → r.why ≠ .done ∧ o = r.out) ∧
      (b = .unfinished → o <+: r.out) ∧
      (r.out.length < fin.sum → b ≠ .unfinished) := by
  obtain ⟨b, o, h1, h2, h3, h4⟩ := decSession_spec cfg calls fin (DecSt.init hold) [] []
    (fun more => DecInv_init cfg hold _ hh)
  rw [decRem_init] at h2 h3 h4
  simp only [List.nil_append] at h1 h2 h3 h4
  obtain ⟨r, e, i1, i2, _, _⟩ := decode_whole cfg hold' (calls.map Call.piece).flatten cap hh' hcap
  refine ⟨b, o, r, h1, e, ?_, ?_, ?_, ?_⟩
  · intro hb
    rw [i2, i1, h2 hb]; simp
  · intro hb
    obtain ⟨v, hv, h⟩ := h3 hb
    rw [ne_eq, i2, i1, h]; exact ⟨hv, rfl⟩
  · intro hb; rw [i1]; exact (h4 hb).1
  · intro hl hb
    obtain ⟨p1, p2⟩ := h4 hb
    have := p1.length_le
    rw [← i1] at this
    omega

example : decSession ⟨false, .allow, true⟩ [⟨"AQI\nD".toList.map Char.toNat, 1⟩, ⟨"BA".toList.map Char.toNat, 0⟩] [1, 1, 9]
    (DecSt.init [0, 0, 0, 0]) [] [] = some (.ok, [1, 2, 3, 4]) := by decide +kernel

/-! ### C04: malformed input

Full statement (false of the code): for every text that is not acceptable, the one-shot decode
function throws the decode error, whatever the initial size of the caller's buffer. -/

/-- C04: the full statement is false. A text with a bad character aborts the program (failing
assertion) when the bytes decoded before it exactly fill the buffer: "!" (buffer of size 0) and "AAAA!"
(buffer of size 3). -/
theorem C04_counterexample :
    decodeOneShot ⟨false, .allow, false⟩ [0, 0, 0, 0] ("!".toList.map Char.toNat) 0 = .abort ∧
    decodeOneShot ⟨false, .allow, false⟩ [0, 0, 0, 0] ("AAAA!".toList.map Char.toNat) 0 = .abort := by
  decide +kernel

/-- Acceptable texts, by specification. -/
def Acceptable (cfg : DecCfg) (s x : List Nat) : Prop :=
  IsBytes x ∧ stripSpace s = encodeText cfg.urlSafe false x ∧
    (cfg.allowWs = false → ∀ c ∈ s, isSpace c = false) ∧ (cfg.padding = .require → x.length % 3 = 0)

/-- C04 (partial): if the caller's buffer is larger than the size suggested for the text, then every
text that is not acceptable results in the decode error, and every acceptable text is decoded.
Missing: smaller initial buffers, for which the outcome may be a failing assertion. -/
theorem C04_malformed_partial (cfg : DecCfg) (hold s : List Nat) (bufSize : Nat) (hh : hold.length = 4)
    (hs : IsBytes s) (hb : decodeBufferSize s.length < bufSize) :
    (∀ x, Acceptable cfg s x → decodeOneShot cfg hold s bufSize = .ok x) ∧
    ((¬∃ x, Acceptable cfg s x) → decodeOneShot cfg hold s bufSize = .throws) := by
  rw [decodeOneShot_eq _ _ _ _ hh]
  refine ⟨?_, ?_⟩
  · intro x hx
    rw [(dref_accept cfg s x hs).mpr hx]; simp
  · intro hn
    have h1 : (dref cfg [] s).2 ≠ .done := by
      intro h
      exact hn ⟨(dref cfg [] s).1, (dref_accept cfg s _ hs).mp (by rw [← h])⟩
    have h2 := dref_init_length cfg s
    rw [if_neg h1, if_neg (by omega)]

example : ¬∃ x, Acceptable ⟨false, .allow, false⟩ ("AAAA!".toList.map Char.toNat) x := by
  rintro ⟨x, h1, h2, _⟩
  have := encodeText_chars false x h1 33 (by rw [← h2]; decide)
  have h3 := congrArg (fun l => decodeOneShot ⟨false, .allow, false⟩ [0,0,0,0] l 0) h2
  have h4 := C01_roundtrip_partial 1000 ⟨false, false, 0⟩ ⟨false, .allow, false⟩ [0,0,0,0] [0,0,0,0] x 0 0 rfl rfl h1
    (by rw [encode_length]
        have := congrArg List.length h2
        simp [encodeText, sextets_length, stripSpace, isSpace] at this ⊢
        omega) rfl (by simp) (.inl rfl) (by simp)
  obtain ⟨t, e1, e2⟩ := h4
  have : decodeOneShot ⟨false, .allow, false⟩ [0, 0, 0, 0] ("AAAA!".toList.map Char.toNat) 0 = .abort :=
    C04_counterexample.2
  rw [decodeOneShot_eq _ _ _ _ rfl] at this
  have hd := (dref_accept ⟨false, .allow, false⟩ ("AAAA!".toList.map Char.toNat) x (by unfold IsBytes; decide)).mpr
    ⟨h1, h2, by decide, by simp⟩
  rw [hd] at this
  simp at this

/-- C04: exactly when the assertion fails: the text is not acceptable, and the bytes decoded from it
before the error exactly fill the buffer. In particular the decoder itself never fails an assertion
and never indexes out of range. -/
theorem C04_abort_iff (cfg : DecCfg) (hold s : List Nat) (bufSize : Nat) (hh : hold.length = 4) (hs : IsBytes s) :
    decodeOneShot cfg hold s bufSize = .abort ↔
      (¬∃ x, Acceptable cfg s x) ∧
      ∃ r, decodeCall cfg (DecSt.init hold) s true (max (decodeBufferSize s.length) bufSize) = some r ∧
        r.out.length = max (decodeBufferSize s.length) bufSize := by
  obtain ⟨r, e, i1, i2, _, _⟩ := decode_whole cfg hold s (max (decodeBufferSize s.length) bufSize) hh
    (Nat.le_max_left _ _)
  have hacc : (∃ x, Acceptable cfg s x) ↔ (dref cfg [] s).2 = .done := by
    constructor
    · rintro ⟨x, hx⟩; rw [(dref_accept cfg s x hs).mpr hx]
    · intro h; exact ⟨(dref cfg [] s).1, (dref_accept cfg s _ hs).mp (by rw [← h])⟩
  rw [decodeOneShot_eq _ _ _ _ hh, hacc]
  by_cases hd : (dref cfg [] s).2 = .done
  · simp [hd]
  · rw [if_neg hd]
    simp only [hd, not_false_eq_true, true_and, e, Option.some.injEq]
    constructor
    · intro h
      refine ⟨r, rfl, ?_⟩
      split at h
      · rw [i1]; assumption
      · simp at h
    · rintro ⟨r', rfl, h⟩
      rw [i1] at h
      rw [if_pos h]

/-! ### C05: canonical encodings only -/

/-- C05. If decoding succeeds, then the text without white space is the canonical unpadded encoding
of the result in the selected alphabet. -/
theorem C05_canonical (cfg : DecCfg) (hold s x : List Nat) (bufSize : Nat) (hh : hold.length = 4)
    (hs : IsBytes s) (h : decodeOneShot cfg hold s bufSize = .ok x) :
    IsBytes x ∧ stripSpace s = encodeText cfg.urlSafe false x ∧
      (cfg.allowWs = false → stripSpace s = s) := by
  rw [decodeOneShot_eq _ _ _ _ hh] at h
  split at h
  · rename_i hd
    simp only [Outcome.ok.injEq] at h
    obtain ⟨h1, h2, h3, _⟩ := (dref_accept cfg s x hs).mp (by rw [← h, ← hd])
    refine ⟨h1, h2, ?_⟩
    intro hw
    unfold stripSpace
    rw [List.filter_eq_self]
    intro c hc; simp [h3 hw c hc]
  · split at h <;> simp at h

/-- C05. Two different white space free texts never decode to the same bytes. -/
theorem C05_injective (cfg : DecCfg) (hold hold' s s' x : List Nat) (b b' : Nat) (hh : hold.length = 4)
    (hh' : hold'.length = 4) (hs : IsBytes s) (hs' : IsBytes s')
    (h : decodeOneShot cfg hold s b = .ok x) (h' : decodeOneShot cfg hold' s' b' = .ok x) :
    stripSpace s = stripSpace s' := by
  rw [(C05_canonical cfg hold s x b hh hs h).2.1, (C05_canonical cfg hold' s' x b' hh' hs' h').2.1]

example : decodeOneShot ⟨false, .allow, true⟩ [0, 0, 0, 0] ("AQ ID BA".toList.map Char.toNat) 0 = .ok [1, 2, 3, 4] ∧
    decodeOneShot ⟨false, .allow, true⟩ [0, 0, 0, 0] ("AQIDBB".toList.map Char.toNat) 100 = .throws := by
  decide +kernel

end Verif.Base64
