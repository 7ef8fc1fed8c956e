import Verif.TextFile.Exec

/-!
# Properties of text files

A system call can fail, or transfer less than what was asked for, at any time, in accordance with an arbitrary plan.
-/

namespace Verif.TextFile

variable {α σ : Type} [Inhabited α]

/-- A text file with a buffer that was just opened. -/
def fresh (file : File α) (size : ℕ) : Text (Buffered α (Prim α)) := { impl := Buffered.new { file := file } size }

/-- How a buffered implementation on top of a primitive implementation looks. -/
abbrev look : Buffered α (Prim α) → View α := Buffered.view Prim.view

/-- The invariant of a buffered implementation on top of a primitive implementation. -/
abbrev okay : Buffered α (Prim α) → Prop := Buffered.Ok Prim.view Prim.Ok

theorem fresh_ok (file : File α) (size : ℕ) :
    (fresh file size).Ok look okay ∧ (fresh file size).ideal look = ⟨file.content, file.pos⟩ := by
  refine ⟨⟨Or.inr ⟨⟨by simp [fresh, Buffered.new], Nat.zero_le _, fun _ => rfl⟩, ?_, ?_, rfl, Nat.le_refl _, Nat.le_refl _, Nat.zero_le _,
    Nat.zero_le _, rfl, ?_, List.nil_prefix, fun _ => ⟨rfl, rfl⟩⟩, by simp [fresh], ?_, ?_⟩, ?_⟩
  · simp only [fresh, Buffered.new]; omega
  · simp [fresh, Buffered.new]
  · simp [fresh, Buffered.new, Prim.view, modeOf]
  · simp [fresh, Buffered.new, Buffered.view, modeOf]
  · simp [fresh, Buffered.new, Buffered.view, modeOf]
  · simp [fresh, Buffered.new, Buffered.view, Prim.view, Text.ideal]

theorem stack_conforms {grow : ℕ → ℕ} (hg : ∀ n, n < grow n) :
    Conforms (buffered prim grow) (look (α := α)) (fun s => s.sub.file.content) okay :=
  buffered_conforms prim_conforms hg

/-! ## C152: Every sequence of operations behaves as it would on an ideal file -/

/-- No assertion fails, reading gives what is at the current position, writing replaces what is at the current position, the reported
position is the current position, and a failure leaves the file as it was except for what was reported as transferred. -/
theorem C152_execution {grow : ℕ → ℕ} (hg : ∀ n, n < grow n) (file : File α) (size : ℕ) (ops : List (Op α)) :
    ∃ os s f, (fresh file size).runAll (buffered prim grow) ops = some (os, s) ∧ AllowedAll ⟨file.content, file.pos⟩ ops os f := by
  obtain ⟨h1, h2⟩ := fresh_ok file size
  obtain ⟨os, s, e, _, g⟩ := runAll_spec (stack_conforms hg) ops _ h1
  exact ⟨os, s, _, e, h2 ▸ g⟩

/-- The same without buffering. -/
theorem C152_execution_unbuffered (file : File α) (ops : List (Op α)) :
    ∃ os s f, ({ impl := { file := file } } : Text (Prim α)).runAll prim ops = some (os, s) ∧
      AllowedAll ⟨file.content, file.pos⟩ ops os f := by
  have h1 : ({ impl := { file := file } } : Text (Prim α)).Ok Prim.view Prim.Ok :=
    ⟨⟨by simp, Nat.zero_le _, fun _ => rfl⟩, by simp, by simp [Prim.view, modeOf], by simp [Prim.view, modeOf]⟩
  obtain ⟨os, s, e, _, g⟩ := runAll_spec prim_conforms ops _ h1
  exact ⟨os, s, _, e, g⟩

/-- The same for any implementation of text files that conforms to the requirements. -/
theorem C152_execution_any {I : Impl α σ} {view : σ → View α} {disk : σ → List α} {ok : σ → Prop} (hI : Conforms I view disk ok) (impl : σ)
    (h : ok impl) (hm : (view impl).mode = .neutral) (ops : List (Op α)) :
    ∃ os s f, ({ impl := impl } : Text σ).runAll I ops = some (os, s) ∧ AllowedAll ⟨(view impl).content, (view impl).pos⟩ ops os f := by
  have h1 : ({ impl := impl } : Text σ).Ok view ok := ⟨h, by simp, by simp [hm], by simp [hm]⟩
  obtain ⟨os, s, e, _, g⟩ := runAll_spec hI ops _ h1
  have ha := hI.ahead impl h (by simp [hm])
  refine ⟨os, s, s.ideal view, e, ?_⟩
  have hi : ({ impl := impl } : Text σ).ideal view = ⟨(view impl).content, (view impl).pos⟩ := by simp [Text.ideal, ha]
  rw [← hi]
  exact g

/-- Outcomes as data. -/
def Outcome.data : Outcome α → Bool × List α × Option ℕ
  | .read b l => (b, l, none)
  | .readSome (some l) => (true, l, none)
  | .readSome none => (false, [], none)
  | .write b n => (b, [], some n)
  | .flush b => (b, [], none)
  | .tell r => (r.isSome, [], r)
  | .seek b => (b, [], none)

-- A file with text `hello`, and a buffer of size 3: read two characters, overwrite the next two, find position, go back, and read everything
example : ((fresh ⟨"hello".toList, 0, true, true, []⟩ 3).runAll (buffered prim (· + 1))
    [.read 2, .write "XY".toList, .tell, .seek 0, .read 10]).map (fun r => (r.1.map Outcome.data, r.2.impl.sub.file.content)) =
    some ([(true, "he".toList, none), (true, [], some 2), (true, [], some 4), (true, [], none), (true, "heXYo".toList, none)],
      "heXYo".toList) := by
  decide +kernel

-- A write that fails in the middle, and is then resumed
example : ((fresh ⟨[], 0, true, true, [some 0, none]⟩ 2).runAll (buffered prim (· + 1))
    [.write "abcde".toList, .write "cde".toList, .flush]).map (fun r => (r.1.map Outcome.data, r.2.impl.sub.file.content)) =
    some ([(false, [], some 2), (true, [], some 3), (true, [], none)], "abcde".toList) := by
  decide +kernel

/-! ## C153: After a successful flush, the file contains what was written -/

/-- The contents of the file in the file system are those of the ideal file after any sequence of operations followed by a successful flush
operation. A failed flush operation can be retried. -/
theorem C153_flush {grow : ℕ → ℕ} (hg : ∀ n, n < grow n) (file : File α) (size : ℕ) (ops : List (Op α)) :
    ∃ os s f b s', (fresh file size).runAll (buffered prim grow) ops = some (os, s) ∧ AllowedAll ⟨file.content, file.pos⟩ ops os f ∧
      s.tryFlush (buffered prim grow).toWriteOps = some (b, s') ∧ (b = true → s'.impl.sub.file.content = f.content) := by
  obtain ⟨h1, h2⟩ := fresh_ok file size
  obtain ⟨os, s, e, g1, g⟩ := runAll_spec (stack_conforms hg) ops _ h1
  obtain ⟨b, s', e', k1, k2, k3⟩ := tryFlush_spec (stack_conforms hg) g1
  exact ⟨os, s, _, b, s', e, h2 ▸ g, e', k3⟩

/-- With no failures of system calls, a flush operation on a writable file succeeds. -/
theorem file_write_ok (f : File α) (data : List α) (hw : f.writable = true) (hp : f.plan = []) :
    f.write data = some (true, data.length, { f with content := overwrite f.content f.pos data, pos := f.pos + data.length }) := by
  rcases f with ⟨c, p, r, w, plan⟩
  subst hp
  subst hw
  simp [File.write, File.writeLoop, File.writeSome, File.grant]

-- The first attempt to flush fails, the second one succeeds
example : ((fresh ⟨"0123456789".toList, 4, true, true, [none]⟩ 8).runAll (buffered prim (· + 1))
    [.write "abc".toList, .flush, .flush]).map (fun r => (r.1.map Outcome.data, r.2.impl.sub.file.content)) =
    some ([(true, [], some 3), (false, [], none), (true, [], none)], "0123abc789".toList) := by
  decide +kernel

/-! ## C154: Reading everything -/

/-- `read_all()` gives everything from the current position to the end of the file, no matter how reading is broken up by the file system,
and no matter how much space is made available in each step. -/
theorem C154_read_all {grow : ℕ → ℕ} (hg : ∀ n, n < grow n) (file : File α) (size : ℕ) {space : List α → ℕ} (hsp : ∀ l, 0 < space l) :
    ∃ b l s, Text.tryReadAll (buffered prim grow) space (file.content.length + 1) (fresh file size) [] = some (b, l, s) ∧
      l <+: file.content.drop file.pos ∧ (b = true → l = file.content.drop file.pos) := by
  obtain ⟨h1, h2⟩ := fresh_ok file size
  obtain ⟨b, l, s, e, _, _, g3, g4⟩ := tryReadAll_spec (stack_conforms hg) hsp (file.content.length + 1) _ [] h1 (by
    rw [h2]; simp; omega)
  rw [h2] at g3 g4
  exact ⟨b, l, s, by simpa using e, g3, g4⟩

/-- What is saved can be loaded. -/
theorem C154_save_load {grow grow' : ℕ → ℕ} (hg : ∀ n, n < grow n) (hg' : ∀ n, n < grow' n) (data : List α) (readable : Bool)
    (plan plan' : List (Option ℕ)) (size size' n₀ : ℕ) {space : List α → ℕ} (hsp : ∀ l, 0 < space l) :
    ∃ b n s b' s', (fresh ⟨[], 0, readable, true, plan⟩ size).tryWrite (buffered prim grow) n₀ data = some (b, n, s) ∧
      s.tryFlush (buffered prim grow).toWriteOps = some (b', s') ∧
      (b = true → b' = true → ∃ b'' l t, Text.tryReadAll (buffered prim grow') space (s'.impl.sub.file.content.length + 1)
        (fresh ⟨s'.impl.sub.file.content, 0, true, false, plan'⟩ size') [] = some (b'', l, t) ∧ (b'' = true → l = data)) := by
  obtain ⟨h1, h2⟩ := fresh_ok (⟨[], 0, readable, true, plan⟩ : File α) size
  obtain ⟨b, n, s, e, g1, g2, g3, _⟩ := tryWrite_spec (stack_conforms hg) h1 n₀ data
  obtain ⟨b', s', e', k1, k2, k3⟩ := tryFlush_spec (stack_conforms hg) g1
  refine ⟨b, n, s, b', s', e, e', fun hb hb' => ?_⟩
  have hc : s'.impl.sub.file.content = data := by
    have := k3 hb'
    rw [g2, h2, g3 hb] at this
    simp only [List.take_length] at this
    rw [this]
    by_cases hd : data = []
    · subst hd; rfl
    · simp [overwrite, hd]
  obtain ⟨b'', l, t, q1, _, q3⟩ := C154_read_all hg' (⟨s'.impl.sub.file.content, 0, true, false, plan'⟩ : File α) size' hsp
  refine ⟨b'', l, t, q1, fun hb'' => ?_⟩
  rw [q3 hb'']
  simpa using hc

-- Reading in pieces of various sizes
example : (Text.tryReadAll (buffered prim (· + 1)) (fun _ => 4) 12 (fresh ⟨"lorem ipsum".toList, 0, true, false, [some 1, some 0, some 5]⟩ 3)
    []).map (fun r => (r.1, r.2.1)) = some (true, "lorem ipsum".toList) := by
  decide +kernel

/-! ## C155: Recovery from failure to write -/

/-- A buffered text file with a character codec. -/
abbrev codecOps (enc : α → List α) : WriteOps α (Buffered α (Coded α (Prim α))) where
  write s _ data := s.write (coded (prim : Impl α (Prim α)).toWriteOps enc (· + 1) 100) data
  flush := Buffered.flush (coded (prim : Impl α (Prim α)).toWriteOps enc (· + 1) 100)
  tellWrite := Buffered.tellWrite (coded (prim : Impl α (Prim α)).toWriteOps enc (· + 1) 100)

/-- With a degenerate character codec, when a write operation succeeds, and any number of attempts to flush fail before one succeeds, what was
written is in the file exactly once. -/
theorem C155_retry_partial {grow : ℕ → ℕ} (hg : ∀ n, n < grow n) (file : File α) (size k : ℕ) (data : List α) :
    ∃ os s f b s', (fresh file size).runAll (buffered prim grow) (.write data :: List.replicate k .flush) = some (os, s) ∧
      AllowedAll ⟨file.content, file.pos⟩ (.write data :: List.replicate k .flush) os f ∧
      s.tryFlush (buffered prim grow).toWriteOps = some (b, s') ∧
      (b = true → ∃ n, (∃ ok rest, os = .write ok n :: rest ∧ (ok = true → n = data.length)) ∧
        s'.impl.sub.file.content = overwrite file.content file.pos (data.take n)) := by
  obtain ⟨os, s, f, b, s', h1, h2, h3, h4⟩ := C153_flush hg file size (.write data :: List.replicate k .flush)
  refine ⟨os, s, f, b, s', h1, h2, h3, fun hb => ?_⟩
  rw [h4 hb]
  have flushes : ∀ (k : ℕ) (os : List (Outcome α)) (g : Ideal α), AllowedAll g (List.replicate k .flush) os f → f = g := by
    intro k
    induction k with
    | zero =>
      intro os g h
      cases os with
      | nil => exact h
      | cons => exact absurd h (by simp [AllowedAll])
    | succ k ih =>
      intro os g h
      cases os with
      | nil => exact absurd h (by simp [AllowedAll, List.replicate_succ])
      | cons o os =>
        obtain ⟨g', ha, hr⟩ := h
        have := ih os g' hr
        cases o <;> simp [Allowed] at ha
        rw [this, ha]
  cases os with
  | nil => exact absurd h2 (by simp [AllowedAll])
  | cons o os =>
    obtain ⟨g, ha, hr⟩ := h2
    have hfg := flushes k os g hr
    cases o with
    | write ok n =>
      obtain ⟨a1, a2, _⟩ := ha
      exact ⟨n, ⟨ok, os, rfl, a2⟩, by rw [hfg, a1]⟩
    | read | readSome | flush | tell | seek => exact absurd ha (by simp [Allowed])

/-- Write, and then attempt to flush two times. The result is the three indications of success, and the contents of the file. -/
def writeAndFlushTwice (enc : α → List α) (s : Buffered α (Coded α (Prim α))) (data : List α) : Option ((Bool × Bool × Bool) × List α) := do
  let (b₁, _, impl) ← (codecOps enc).write s 0 data
  let (b₂, t) ← ({ impl := impl, writing := true } : Text _).tryFlush (codecOps enc)
  let (b₃, t) ← t.tryFlush (codecOps enc)
  some ((b₁, b₂, b₃), t.impl.sub.prim.file.content)

/-- With a genuine character codec, what was written can end up in the file more than once: `abc` is written successfully, the first
attempt to flush fails because the first system call fails, and the second attempt succeeds. The file then contains `ababc`. -/
theorem C155_retry_duplicates :
    writeAndFlushTwice (fun c => [c]) { sub := { prim := { file := ⟨[], 0, true, true, [none]⟩ }, size := 2 }, size := 4 } "abc".toList =
      some ((true, false, true), "ababc".toList) := by
  decide +kernel

-- No duplication when the buffer of the character codec is large enough
example : writeAndFlushTwice (fun c => [c]) { sub := { prim := { file := ⟨[], 0, true, true, [none]⟩ }, size := 8 }, size := 4 } "abc".toList =
      some ((true, false, true), "abc".toList) := by
  decide +kernel

/-! ## C156: Opening another file -/

/-- If there is nothing that was written and not flushed, a text file that is opened again behaves like one that was opened for the first
time. -/
theorem C156_reopen_partial {grow : ℕ → ℕ} (hg : ∀ n, n < grow n) (file₁ file₂ : File α) (size : ℕ) (ops₁ ops₂ : List (Op α)) :
    ∃ os₁ s₁, (fresh file₁ size).runAll (buffered prim grow) ops₁ = some (os₁, s₁) ∧
      (s₁.writing = false → ∃ os₂ s₂ f, (s₁.open (buffered prim grow) file₂).runAll (buffered prim grow) ops₂ = some (os₂, s₂) ∧
        AllowedAll ⟨file₂.content, file₂.pos⟩ ops₂ os₂ f) := by
  obtain ⟨h1, _⟩ := fresh_ok file₁ size
  obtain ⟨os₁, s₁, e, g1, _⟩ := runAll_spec (stack_conforms hg) ops₁ _ h1
  refine ⟨os₁, s₁, e, fun hw => ?_⟩
  obtain ⟨k1, k2⟩ := (stack_conforms hg).reopen s₁.impl file₂ g1.impl
  have h2 : (s₁.open (buffered prim grow) file₂).Ok look okay := by
    refine ⟨k1, by simp [Text.open, hw], ?_, ?_⟩
    · simp only [Text.open]; rw [k2]; simp
    · simp only [Text.open]; rw [k2]; simp [hw]
  obtain ⟨os₂, s₂, e₂, _, q⟩ := runAll_spec (stack_conforms hg) ops₂ _ h2
  refine ⟨os₂, s₂, s₂.ideal look, e₂, ?_⟩
  have : (s₁.open (buffered prim grow) file₂).ideal look = ⟨file₂.content, file₂.pos⟩ := by
    simp only [Text.open, Text.ideal]
    rw [k2]
    simp
  rw [← this]
  exact q

/-- If something was written and not flushed, then reading from a file that can only be read fails after it is opened, although there are no
failures in the file system. Reading from it succeeds when it is opened for the first time. -/
theorem C156_reopen_after_write :
    (((fresh ⟨[], 0, true, true, []⟩ 4).runAll (buffered prim (· + 1)) [.write "a".toList]).bind (fun r =>
      (r.2.open (buffered prim (· + 1)) ⟨"xyz".toList, 0, true, false, []⟩).runAll (buffered prim (· + 1)) [.read 3])).map
        (fun r => r.1.map Outcome.data) = some [(false, [], none)] ∧
    ((fresh ⟨"xyz".toList, 0, true, false, []⟩ 4).runAll (buffered prim (· + 1)) [.read 3]).map (fun r => r.1.map Outcome.data) =
      some [(true, "xyz".toList, none)] := by
  constructor <;> decide +kernel

end Verif.TextFile
