import Verif.MemStream.Lemmas

/-!
# Properties of stream buffers that read from, and write to memory (C100, C101, C102)
-/

namespace Verif.MemStream

open Spec

variable {α : Type}

/-- Limits of a typical 64-bit platform. -/
def Ex.L : Limits := ⟨2 ^ 64 - 1, 2 ^ 63 - 1, 2 ^ 31 - 1⟩

/-- A platform where an `int` can only hold small numbers. -/
def Ex.tiny : Limits := ⟨100, 50, 2⟩

/-! ### Output to memory of fixed size (C100) -/

/-- Carry out request using the functions of the stream buffer. -/
def OutBuf.step (L : Limits) (zero : α) (b : OutBuf α) : Op α → Option Nat × OutBuf α
  | .write s => let r := b.sputn s; (some r.1, r.2)
  | .seekBeg off => b.seekoff L zero off .beg Which.out
  | .seekCur off => b.seekoff L zero off .cur Which.out
  | .seekEnd off => b.seekoff L zero off .end Which.out

/-- Carry out requests using the functions of the stream buffer. -/
def OutBuf.run (L : Limits) (zero : α) (b : OutBuf α) : List (Op α) → List (Option Nat) × OutBuf α
  | [] => ([], b)
  | op :: ops =>
    let r := b.step L zero op
    let r' := r.2.run L zero ops
    (r.1 :: r'.1, r'.2)

theorem step_file {L : Limits} (hL : L.Ok) (zero : α) {b : OutBuf α} (hb : b.Inv L) (op : Op α) :
    (b.step L zero op).2.Inv L ∧ (b.step L zero op).2.mem.length = b.mem.length ∧
    ((b.step L zero op).1, (b.step L zero op).2.file) = b.file.step zero op ∧
    (b.step L zero op).2.mem.drop (b.step L zero op).2.getSize =
      b.mem.drop (b.step L zero op).2.getSize ∧
    b.getSize ≤ (b.step L zero op).2.getSize := by
  have hsz : ∀ b' : OutBuf α, b'.Inv L → b'.getSize = b'.file.content.length := by
    intro b' h'
    have := h'.pos; have := h'.size
    simp [OutBuf.getSize, OutBuf.file]; omega
  have hp := hb.pos
  cases op with
  | write s =>
    obtain ⟨h1, h2, h3, h4⟩ := write_file hb s
    refine ⟨h1, h2, ?_, h4, ?_⟩
    · show (some (b.sputn s).1, (b.sputn s).2.file) = (some (b.file.write s).1, (b.file.write s).2)
      rw [← h3]
    · have h5 : (b.sputn s).2.file = (b.file.write s).2 := congrArg Prod.snd h3
      show b.getSize ≤ (b.sputn s).2.getSize
      rw [hsz _ h1, hsz _ hb, h5]
      unfold File.write
      simp only [List.length_append, List.length_take, List.length_drop]
      have : b.file.pos ≤ b.file.content.length := by
        simp [OutBuf.file]; omega
      omega
  | seekBeg off =>
    obtain ⟨h1, h2, h3, h4⟩ := seekoff_file hL zero hb off .beg
    refine ⟨h1, h2, ?_, h4, ?_⟩
    · simp only [OutBuf.base, Nat.cast_zero, zero_add] at h3; exact h3
    · show b.getSize ≤ (b.seekoff L zero off .beg Which.out).2.getSize
      rw [hsz _ h1, hsz _ hb]
      have h5 := congrArg Prod.snd h3
      simp only at h5
      rw [h5]
      unfold File.seek; split <;> simp
  | seekCur off =>
    obtain ⟨h1, h2, h3, h4⟩ := seekoff_file hL zero hb off .cur
    refine ⟨h1, h2, h3, h4, ?_⟩
    show b.getSize ≤ (b.seekoff L zero off .cur Which.out).2.getSize
    rw [hsz _ h1, hsz _ hb]
    have h5 := congrArg Prod.snd h3
    simp only at h5
    rw [h5]
    unfold File.seek; split <;> simp
  | seekEnd off =>
    obtain ⟨h1, h2, h3, h4⟩ := seekoff_file hL zero hb off .end
    refine ⟨h1, h2, h3, h4, ?_⟩
    show b.getSize ≤ (b.seekoff L zero off .end Which.out).2.getSize
    rw [hsz _ h1, hsz _ hb]
    have h5 := congrArg Prod.snd h3
    simp only at h5
    rw [h5]
    unfold File.seek; split <;> simp

theorem run_file {L : Limits} (hL : L.Ok) (zero : α) (ops : List (Op α)) :
    ∀ {b : OutBuf α}, b.Inv L →
    (b.run L zero ops).2.Inv L ∧ (b.run L zero ops).2.mem.length = b.mem.length ∧
    ((b.run L zero ops).1, (b.run L zero ops).2.file) = b.file.run zero ops ∧
    (b.run L zero ops).2.mem.drop (b.run L zero ops).2.getSize =
      b.mem.drop (b.run L zero ops).2.getSize ∧
    b.getSize ≤ (b.run L zero ops).2.getSize := by
  induction ops with
  | nil => intro b hb; exact ⟨hb, rfl, rfl, rfl, le_refl _⟩
  | cons op ops ih =>
    intro b hb
    obtain ⟨h1, h2, h3, h4, h5⟩ := step_file hL zero hb op
    obtain ⟨g1, g2, g3, g4, g5⟩ := ih h1
    unfold OutBuf.run File.run
    simp only
    refine ⟨g1, g2.trans h2, ?_, ?_, by omega⟩
    · rw [← h3]
      simp only
      rw [← g3]
    · rw [g4]
      have := congrArg (List.drop (((b.step L zero op).2.run L zero ops).2.getSize -
        (b.step L zero op).2.getSize)) h4
      rw [List.drop_drop, List.drop_drop] at this
      rw [show (b.step L zero op).2.getSize + (((b.step L zero op).2.run L zero ops).2.getSize -
        (b.step L zero op).2.getSize) = ((b.step L zero op).2.run L zero ops).2.getSize by omega] at this
      exact this

theorem reset_inv {L : Limits} {memory : List α} {size : Nat} {b : OutBuf α}
    (h : OutBuf.reset L memory size = .ok b) :
    b.Inv L ∧ b.file = ⟨memory.take size, 0, memory.length⟩ ∧ b.mem = memory := by
  unfold OutBuf.reset at h
  simp only at h
  split at h
  · simp at h
  · rename_i h1
    split at h
    · simp at h
    · rename_i h2
      simp only [Except.ok.injEq] at h
      subst h
      rw [if_neg (by omega)]
      refine ⟨⟨by simp, by simp only; omega, by simp only; omega⟩, ?_, rfl⟩
      simp [OutBuf.file]

/-- A stream buffer that writes to memory behaves like a file of limited size whose initial contents are
the specified amount of the contents of the memory: every write and every seek has the same result, and
the viewed contents are those of the file, after any number of operations. -/
theorem C100_file {L : Limits} (hL : L.O ≤ L.M ∧ 0 < L.I) (zero : α) (memory : List α) (size : Nat)
    (b : OutBuf α) (h : OutBuf.reset L memory size = .ok b) (ops : List (Op α)) :
    let file : File α := ⟨memory.take size, 0, memory.length⟩
    (b.run L zero ops).1 = (file.run zero ops).1 ∧
    (b.run L zero ops).2.view = (file.run zero ops).2.content ∧
    (b.run L zero ops).2.getSize = (file.run zero ops).2.content.length ∧
    (b.run L zero ops).2.pos = (file.run zero ops).2.pos := by
  obtain ⟨h1, h2, -⟩ := reset_inv h
  obtain ⟨g1, -, g3, -, -⟩ := run_file hL zero ops h1
  rw [h2] at g3
  intro file
  have e1 : (b.run L zero ops).1 = (file.run zero ops).1 := congrArg Prod.fst g3
  have e2 : (b.run L zero ops).2.file = (file.run zero ops).2 := congrArg Prod.snd g3
  refine ⟨e1, ?_, ?_, ?_⟩
  · rw [← e2]; rfl
  · rw [← e2]
    have := g1.pos; have := g1.size
    simp [OutBuf.file, OutBuf.getSize]; omega
  · rw [← e2]; rfl

example : ∃ b, OutBuf.reset Ex.tiny [1, 2, 3, 4, 5, 6] 2 = .ok b ∧
    (b.run Ex.tiny 0 [.write [7], .seekEnd 2, .seekBeg 7, .write [8, 9, 10], .seekCur (-4)]).1 =
      [some 1, some 4, none, some 2, some 2] ∧
    (b.run Ex.tiny 0 [.write [7], .seekEnd 2, .seekBeg 7, .write [8, 9, 10], .seekCur (-4)]).2.view =
      [7, 2, 0, 0, 8, 9] := ⟨_, rfl, by decide +kernel, by decide +kernel⟩

/-- Memory outside the viewed contents is never changed, and the amount of contents never decreases. -/
theorem C100_memory {L : Limits} (hL : L.O ≤ L.M ∧ 0 < L.I) (zero : α) (memory : List α) (size : Nat)
    (b : OutBuf α) (h : OutBuf.reset L memory size = .ok b) (ops : List (Op α)) :
    (b.run L zero ops).2.mem.length = memory.length ∧
    size ≤ (b.run L zero ops).2.view.length ∧
    ∀ i, (b.run L zero ops).2.view.length ≤ i → (b.run L zero ops).2.mem[i]? = memory[i]? := by
  obtain ⟨h1, h2, h3⟩ := reset_inv h
  obtain ⟨g1, g2, -, g4, g5⟩ := run_file hL zero ops h1
  have hv : (b.run L zero ops).2.view.length = (b.run L zero ops).2.getSize := by
    have := g1.pos; have := g1.size
    simp [OutBuf.view, OutBuf.getSize]; omega
  have hs : b.getSize = size := by
    unfold OutBuf.reset at h
    simp only at h
    split at h
    · simp at h
    · split at h
      · simp at h
      · simp only [Except.ok.injEq] at h
        subst h
        rw [if_neg (by omega)]
        simp [OutBuf.getSize]
  rw [hv]
  refine ⟨by rw [g2, h3], by omega, fun i hi => ?_⟩
  have := congrArg (fun l => l[i - (b.run L zero ops).2.getSize]?) g4
  simp only [List.getElem?_drop] at this
  rw [show (b.run L zero ops).2.getSize + (i - (b.run L zero ops).2.getSize) = i by omega, h3] at this
  exact this

example : ∃ b, OutBuf.reset Ex.tiny [1, 2, 3, 4, 5, 6] 2 = .ok b ∧
    (b.run Ex.tiny 0 [.write [7], .seekEnd 1, .write [8]]).2.mem = [7, 2, 0, 8, 5, 6] :=
  ⟨_, rfl, by decide +kernel⟩

/-- What is written without any intervening seek is found, as one sequence, at the beginning of the
viewed contents, except for what did not fit. Contents present from the start, and not overwritten, come
after. -/
theorem C100_writes {L : Limits} (hL : L.O ≤ L.M ∧ 0 < L.I) (zero : α) (memory : List α) (size : Nat)
    (b : OutBuf α) (h : OutBuf.reset L memory size = .ok b) (parts : List (List α)) :
    let written := parts.flatten.take memory.length
    (b.run L zero (parts.map .write)).2.view = written ++ (memory.take size).drop written.length := by
  have h1 := (C100_file hL zero memory size b h (parts.map .write)).2.1
  rw [h1]
  have key : ∀ (parts : List (List α)) (f : File α), f.pos ≤ f.content.length →
      f.content.length ≤ f.cap →
      (f.run zero (parts.map .write)).2.content =
        f.content.take f.pos ++ parts.flatten.take (f.cap - f.pos) ++
        f.content.drop (f.pos + (parts.flatten.take (f.cap - f.pos)).length) := by
    intro parts
    induction parts with
    | nil => intro f _ _; simp [File.run]
    | cons s parts ih =>
      intro f hf hc
      simp only [List.map_cons, File.run, File.step]
      have hl : (s.take (f.cap - f.pos)).length ≤ f.cap - f.pos := by rw [List.length_take]; omega
      have hls : (s.take (f.cap - f.pos)).length = min (f.cap - f.pos) s.length := List.length_take
      rw [ih]
      · unfold File.write
        simp only
        have hA : (f.content.take f.pos).length = f.pos := by rw [List.length_take]; omega
        rw [List.flatten_cons, List.take_append (l₁ := s)]
        have e : f.cap - f.pos - s.length = f.cap - (f.pos + (s.take (f.cap - f.pos)).length) := by
          omega
        rw [e]
        generalize s.take (f.cap - f.pos) = t at *
        generalize parts.flatten.take (f.cap - (f.pos + t.length)) = u at *
        have hB : (f.content.take f.pos ++ t).length = f.pos + t.length := by
          rw [List.length_append, hA]
        rw [List.take_left' hB, List.append_assoc (f.content.take f.pos) t u]
        congr 1
        rw [List.drop_append, hB]
        rw [List.drop_of_length_le (by rw [hB]; omega), List.nil_append, List.drop_drop]
        congr 1
        rw [List.length_append]; omega
      · unfold File.write
        simp only [List.length_append, List.length_take, List.length_drop]
        omega
      · unfold File.write
        simp only [List.length_append, List.length_take, List.length_drop]
        omega
  have := key parts ⟨memory.take size, 0, memory.length⟩ (by simp) (by simp)
  rw [this]
  simp

example : ∃ b, OutBuf.reset Ex.tiny [1, 2, 3, 4, 5] 4 = .ok b ∧
    (b.run Ex.tiny 0 ([[7, 8], [], [9]].map .write)).2.view = [7, 8, 9, 4] ∧
    (b.run Ex.tiny 0 ([[7, 8], [6, 6], [9, 9]].map .write)).2.view = [7, 8, 6, 6, 9] :=
  ⟨_, rfl, by decide +kernel, by decide +kernel⟩

/-- Seeking fails, and changes nothing, when it is for anything other than output, or when the stream
position has a conversion state other than the initial one. Otherwise, seeking to a position is seeking
relative to the beginning. -/
theorem C100_seek (L : Limits) (zero : α) (b : OutBuf α) (off : Int) (dir : Dir) (which : Which)
    (initState : Bool) :
    (which ≠ Which.out → b.seekoff L zero off dir which = (none, b) ∧
      b.seekpos L zero off initState which = (none, b)) ∧
    (initState = false → b.seekpos L zero off initState which = (none, b)) ∧
    b.seekpos L zero off true Which.out = b.seekoff L zero off .beg Which.out := by
  refine ⟨fun hw => ⟨?_, ?_⟩, fun hi => ?_, ?_⟩
  · unfold OutBuf.seekoff; rw [if_neg hw]
  · unfold OutBuf.seekpos; rw [if_neg (fun h => hw h.2)]
  · unfold OutBuf.seekpos; rw [if_neg (fun h => by rw [hi] at h; simp at h)]
  · simp only [OutBuf.seekpos, OutBuf.seekoff, tryIntCast, tryIntAdd, Nat.cast_zero, zero_add,
      true_and, if_true]

example : ((⟨[1, 2, 3], 0, 0⟩ : OutBuf Nat).seekoff Ex.L 0 2 .beg ⟨true, true, false⟩).1 = none ∧
    ((⟨[1, 2, 3], 0, 0⟩ : OutBuf Nat).seekpos Ex.L 0 2 true Which.out).1 = some 2 := by decide +kernel

/-- Association with memory succeeds when the specified amount of contents is no greater than the amount
of memory, and all positions are representable. -/
theorem C100_reset (L : Limits) (memory : List α) (size : Nat) :
    ((∃ b, OutBuf.reset L memory size = .ok b) ↔ size ≤ memory.length ∧ memory.length ≤ L.O) ∧
    (size ≤ memory.length → L.O < memory.length → OutBuf.reset L memory size = .error .bufferSize) := by
  unfold OutBuf.reset
  simp only
  constructor
  · constructor
    · rintro ⟨b, h⟩
      split at h
      · simp at h
      · split at h
        · simp at h
        · omega
    · intro h
      rw [if_neg (by omega), if_neg (by omega)]
      exact ⟨_, rfl⟩
  · intro h1 h2
    rw [if_neg (by omega), if_pos h2]

example : OutBuf.reset ⟨10, 2, 5⟩ [1, 2, 3] 0 = .error .bufferSize := rfl

/-- When the put pointer is moved, the arguments passed to the function that moves it are representable
in type `int`, however far it has to be moved. -/
theorem C100_pbump (I n fuel : Nat) :
    (∀ k ∈ bumpsGe I fuel n, k ≤ I) ∧ (∀ k ∈ bumpsGt I fuel n, k ≤ I) :=
  ⟨bumpsGe_le I fuel n, bumpsGt_le I fuel n⟩

example : bumpsGe 2 8 7 = [2, 2, 2, 1] ∧ bumpsGt 2 7 6 = [2, 2, 2] := by decide

/-! ### Output to expanding memory (C101) -/

/-- What can be requested of a stream buffer that writes to expanding memory. -/
inductive SeedOp (α : Type) where
  | put (ch : α)
  | write (s : List α)
  | append (s : List α)
  | fill (n : Nat) (ch : α)
  | reserve (n : Nat)
  | clear

/-- What the contents should be after a request. -/
def SeedOp.effect (s : List α) : SeedOp α → List α
  | .put ch => s ++ [ch]
  | .write t => s ++ t
  | .append t => s ++ t
  | .fill n ch => s ++ List.replicate n ch
  | .reserve _ => s
  | .clear => []

/-- The number of characters for which there has to be room in order that a request can be carried out.
-/
def SeedOp.room (s : List α) : SeedOp α → Nat
  | .reserve n => s.length + n
  | op => (op.effect s).length

/-- Carry out request using the functions of the stream buffer. -/
def SeedBuf.step (L : Limits) (alloc : Nat → Bool) (b : SeedBuf α) : SeedOp α → Except SeedErr (SeedBuf α)
  | .put ch => b.sputc L alloc ch
  | .write s => b.sputn L alloc s
  | .append s => b.append L alloc s
  | .fill n ch => b.appendFill L alloc n ch
  | .reserve n => b.reserveExtra L alloc n
  | .clear => .ok b.clearContents

/-- Carry out requests using the functions of the stream buffer. When one fails, the following ones are
carried out anyway, starting from the state before the one that failed. The result is the final state,
the errors, and the requests that were successful. -/
def SeedBuf.run (L : Limits) (alloc : Nat → Bool) (b : SeedBuf α) :
    List (SeedOp α) → SeedBuf α × List SeedErr × List (SeedOp α)
  | [] => (b, [], [])
  | op :: ops =>
    match b.step L alloc op with
    | .ok b => let r := b.run L alloc ops; (r.1, r.2.1, op :: r.2.2)
    | .error e => let r := b.run L alloc ops; (r.1, e :: r.2.1, r.2.2)

theorem seed_step {L : Limits} (hI : 0 < L.I) {alloc : Nat → Bool} {b : SeedBuf α} (hb : b.Inv L)
    {s : List α} (hs : b.view = s.map some) (op : SeedOp α) :
    (∀ b', b.step L alloc op = .ok b' → b'.Inv L ∧ b'.view = (op.effect s).map some) ∧
    (∀ e, b.step L alloc op = .error e →
      (e = .lengthError ∧ L.M < op.room s) ∨
      (e = .badAlloc ∧ ∃ k, op.room s ≤ k ∧ k ≤ L.M ∧ alloc k = false)) := by
  have hlen : b.view.length = s.length := by rw [hs]; simp
  cases op with
  | put ch =>
    obtain ⟨h1, h2⟩ := sputc_ok (alloc := alloc) hb ch
    refine ⟨fun b' hb' => ?_, fun e he => ?_⟩
    · obtain ⟨g1, g2⟩ := h1 b' hb'; exact ⟨g1, by rw [g2, hs]; simp [SeedOp.effect]⟩
    · have := h2 e he; rw [hlen] at this; simpa [SeedOp.room, SeedOp.effect] using this
  | write t =>
    obtain ⟨h1, h2⟩ := reserve_place (alloc := alloc) hI hb (t.map some) t.length (by simp)
    refine ⟨fun b' hb' => ?_, fun e he => ?_⟩
    · obtain ⟨g1, g2⟩ := h1 b' hb'; exact ⟨g1, by rw [g2, hs]; simp [SeedOp.effect]⟩
    · have := h2 e he; rw [hlen] at this; simpa [SeedOp.room, SeedOp.effect] using this
  | append t =>
    obtain ⟨h1, h2⟩ := reserve_place (alloc := alloc) hI hb (t.map some) t.length (by simp)
    refine ⟨fun b' hb' => ?_, fun e he => ?_⟩
    · obtain ⟨g1, g2⟩ := h1 b' hb'; exact ⟨g1, by rw [g2, hs]; simp [SeedOp.effect]⟩
    · have := h2 e he; rw [hlen] at this; simpa [SeedOp.room, SeedOp.effect] using this
  | fill n ch =>
    obtain ⟨h1, h2⟩ := reserve_place (alloc := alloc) hI hb (List.replicate n (some ch)) n (by simp)
    refine ⟨fun b' hb' => ?_, fun e he => ?_⟩
    · obtain ⟨g1, g2⟩ := h1 b' hb'; exact ⟨g1, by rw [g2, hs]; simp [SeedOp.effect]⟩
    · have := h2 e he; rw [hlen] at this; simpa [SeedOp.room, SeedOp.effect] using this
  | reserve n =>
    obtain ⟨h1, h2⟩ := reserveExtra_ok (alloc := alloc) hb n
    refine ⟨fun b' hb' => ?_, fun e he => ?_⟩
    · obtain ⟨g1, g2, -⟩ := h1 b' hb'; exact ⟨g1, by rw [g2, hs]; rfl⟩
    · have := h2 e he
      rw [← view_length hb, hlen] at this
      simpa [SeedOp.room] using this
  | clear =>
    refine ⟨fun b' hb' => ?_, fun e he => by simp [SeedBuf.step] at he⟩
    simp only [SeedBuf.step, Except.ok.injEq] at hb'
    subst hb'
    exact ⟨⟨by simp [SeedBuf.clearContents], hb.cap, hb.live⟩,
      by simp [SeedBuf.clearContents, SeedBuf.view, SeedOp.effect]⟩

/-- After any number of operations, the viewed contents are what was written since contents were last
cleared, in order, regardless of the amount of seed memory. Operations that fail leave the contents as
they were. No operation has undefined behavior, and when the stream buffer is destroyed, all allocated
memory has been deallocated. -/
theorem C101_contents {L : Limits} (hI : 0 < L.I) (alloc : Nat → Bool) (seed : List (Option α))
    (hseed : seed.length ≤ L.M) (ops : List (SeedOp α)) :
    let r := (SeedBuf.create seed).run L alloc ops
    r.1.view = (r.2.2.foldl SeedOp.effect []).map some ∧
    (∀ e ∈ r.2.1, e ≠ .ub) ∧
    r.2.1.length + r.2.2.length = ops.length ∧
    r.1.destroy = 0 := by
  have key : ∀ (ops : List (SeedOp α)) (b : SeedBuf α) (s : List α), b.Inv L → b.view = s.map some →
      let r := b.run L alloc ops
      r.1.Inv L ∧ r.1.view = (r.2.2.foldl SeedOp.effect s).map some ∧ (∀ e ∈ r.2.1, e ≠ .ub) ∧
      r.2.1.length + r.2.2.length = ops.length := by
    intro ops
    induction ops with
    | nil => intro b s hb hs; exact ⟨hb, hs, by simp [SeedBuf.run], rfl⟩
    | cons op ops ih =>
      intro b s hb hs
      obtain ⟨h1, h2⟩ := seed_step (alloc := alloc) hI hb hs op
      unfold SeedBuf.run
      cases hr : b.step L alloc op with
      | ok b' =>
        obtain ⟨g1, g2⟩ := h1 b' hr
        obtain ⟨k1, k2, k3, k4⟩ := ih b' _ g1 g2
        exact ⟨k1, k2, k3, by simp only [List.length_cons]; omega⟩
      | error e =>
        obtain ⟨k1, k2, k3, k4⟩ := ih b s hb hs
        refine ⟨k1, k2, ?_, by simp only [List.length_cons]; omega⟩
        intro e' he'
        rcases List.mem_cons.mp he' with rfl | h
        · rcases h2 _ hr with ⟨rfl, _⟩ | ⟨rfl, _⟩ <;> simp
        · exact k3 e' h
  obtain ⟨h1, h2, h3, h4⟩ := key ops (SeedBuf.create seed) [] (create_inv seed hseed)
    (by simp [SeedBuf.create, SeedBuf.view])
  refine ⟨h2, h3, h4, ?_⟩
  unfold SeedBuf.destroy SeedBuf.dealloc
  have := h1.live
  split
  · rename_i hn; rw [if_neg (by simpa using hn)] at this; exact this
  · rename_i hn; rw [if_pos (by simpa using hn)] at this; simp only [this]

example : ((SeedBuf.create [none, none]).run Ex.L (fun _ => true)
    [.put 1, .write [2, 3], .fill 2 4, .clear, .append [5, 6], .reserve 50, .put 7]).1.view =
    [some 5, some 6, some 7] := by decide +kernel

/-- An operation fails only when the required amount of memory exceeds what can be represented, or when
memory cannot be allocated. -/
theorem C101_fails {L : Limits} (hI : 0 < L.I) (alloc : Nat → Bool) (seed : List (Option α))
    (hseed : seed.length ≤ L.M) (ops : List (SeedOp α)) (op : SeedOp α) :
    let r := (SeedBuf.create seed).run L alloc ops
    let s := r.2.2.foldl SeedOp.effect []
    (∀ e, r.1.step L alloc op = .error e →
      (e = .lengthError ∧ L.M < op.room s) ∨
      (e = .badAlloc ∧ ∃ k, op.room s ≤ k ∧ k ≤ L.M ∧ alloc k = false)) := by
  have key : ∀ (ops : List (SeedOp α)) (b : SeedBuf α) (s : List α), b.Inv L → b.view = s.map some →
      let r := b.run L alloc ops
      r.1.Inv L ∧ r.1.view = (r.2.2.foldl SeedOp.effect s).map some := by
    intro ops
    induction ops with
    | nil => intro b s hb hs; exact ⟨hb, hs⟩
    | cons op ops ih =>
      intro b s hb hs
      obtain ⟨h1, h2⟩ := seed_step (alloc := alloc) hI hb hs op
      unfold SeedBuf.run
      cases hr : b.step L alloc op with
      | ok b' => obtain ⟨g1, g2⟩ := h1 b' hr; exact ih b' _ g1 g2
      | error e => exact ih b s hb hs
  obtain ⟨h1, h2⟩ := key ops (SeedBuf.create seed) [] (create_inv seed hseed)
    (by simp [SeedBuf.create, SeedBuf.view])
  intro r s
  exact (seed_step hI h1 h2 op).2

example : ((SeedBuf.create []).run ⟨3, 3, 3⟩ (fun _ => true)
    [.put 1, .write [2, 3], .put 4]).2.1 = [SeedErr.lengthError] := by decide +kernel

/-- When there is no need for more memory than the seed memory, nothing is allocated. -/
theorem C101_no_allocation {L : Limits} (alloc : Nat → Bool) (b : SeedBuf α) (n : Nat)
    (h : b.used + n ≤ b.mem.length) : b.reserveExtra L alloc n = .ok b := by
  unfold SeedBuf.reserveExtra
  simp only
  rw [if_pos (by omega)]

example : ((SeedBuf.create [none, none, none]).run Ex.L (fun _ => false)
    [.put 1, .write [2, 3]]).2.1 = [] := by decide +kernel

/-- When the function that handles overflow is called without a character, as the C++ standard allows,
it nevertheless extends the contents, and does so by a character that has not been initialized. -/
theorem C101_overflow_eof {L : Limits} (alloc : Nat → Bool) (b : SeedBuf α) (hb : b.used < b.mem.length) :
    ∃ b', b.overflow L alloc none = .ok b' ∧ b'.view = b.view ++ [b.mem[b.used]] := by
  unfold SeedBuf.overflow
  rw [C101_no_allocation alloc b 1 (by omega)]
  simp only [bind, Except.bind, hb, if_true]
  refine ⟨_, rfl, ?_⟩
  unfold SeedBuf.view
  simp only
  rw [List.take_succ_eq_append_getElem hb]

example : ∃ b', (SeedBuf.create [none, none] : SeedBuf Nat).overflow Ex.L (fun _ => true) none = .ok b' ∧
    b'.view = [none] := ⟨_, rfl, by decide⟩

/-! ### Input from memory (C102) -/

/-- What can be requested of a stream buffer that reads from memory. -/
inductive InOp (α : Type) where
  | get (n : Nat)
  | bump
  | peek
  | putback (ch : α)
  | unget
  | seekBeg (off : Int)
  | seekCur (off : Int)
  | seekEnd (off : Int)

/-- Result of request: characters, success, or new position. -/
inductive InRes (α : Type) where
  | chars (s : List α)
  | done (ok : Bool)
  | pos (p : Option Nat)

/-- Carry out request using the functions of the stream buffer. -/
def InBuf.step [DecidableEq α] (L : Limits) (b : InBuf α) : InOp α → InRes α × InBuf α
  | .get n => let r := b.sgetn n; (.chars r.1, r.2)
  | .bump => let r := b.sbumpc; (.chars r.1.toList, r.2)
  | .peek => (.chars b.sgetc.toList, b)
  | .putback ch => let r := b.sputbackc ch; (.done r.1, r.2)
  | .unget => let r := b.sungetc; (.done r.1, r.2)
  | .seekBeg off => let r := b.seekoff L off .beg Which.in; (.pos r.1, r.2)
  | .seekCur off => let r := b.seekoff L off .cur Which.in; (.pos r.1, r.2)
  | .seekEnd off => let r := b.seekoff L off .end Which.in; (.pos r.1, r.2)

/-- Carry out requests using the functions of the stream buffer. -/
def InBuf.run [DecidableEq α] (L : Limits) (b : InBuf α) : List (InOp α) → List (InRes α) × InBuf α
  | [] => ([], b)
  | op :: ops =>
    let r := b.step L op
    let r' := r.2.run L ops
    (r.1 :: r'.1, r'.2)

/-- What the result of a request, and the new position should be, given the contents and the current
position. -/
def InOp.meaning [DecidableEq α] (s : List α) (pos : Nat) : InOp α → InRes α × Nat
  | .get n => (.chars ((s.drop pos).take n), pos + ((s.drop pos).take n).length)
  | .bump => (.chars ((s.drop pos).take 1), pos + ((s.drop pos).take 1).length)
  | .peek => (.chars ((s.drop pos).take 1), pos)
  | .putback ch => if (s.take pos).getLast? = some ch then (.done true, pos - 1) else (.done false, pos)
  | .unget => if pos = 0 then (.done false, pos) else (.done true, pos - 1)
  | .seekBeg off => goTo off
  | .seekCur off => goTo (pos + off)
  | .seekEnd off => goTo (s.length + off)
where
  goTo (target : Int) : InRes α × Nat :=
    if 0 ≤ target ∧ target ≤ s.length then (.pos (some target.toNat), target.toNat)
    else (.pos none, pos)

/-- Results and position after a sequence of requests. -/
def InOp.meanings [DecidableEq α] (s : List α) (pos : Nat) : List (InOp α) → List (InRes α) × Nat
  | [] => ([], pos)
  | op :: ops =>
    let r := op.meaning s pos
    let r' := meanings s r.2 ops
    (r.1 :: r'.1, r'.2)

theorem sgetn_eq (n : Nat) : ∀ (b : InBuf α),
    b.sgetn n = ((b.mem.drop b.pos).take n, { b with pos := b.pos + ((b.mem.drop b.pos).take n).length })
    := by
  induction n with
  | zero => intro b; simp [InBuf.sgetn]
  | succ n ih =>
    intro b
    unfold InBuf.sgetn InBuf.sbumpc
    cases h : b.mem[b.pos]? with
    | none =>
      simp only
      have : b.mem.drop b.pos = [] := List.drop_eq_nil_of_le (List.getElem?_eq_none_iff.mp h)
      rw [this]; simp
    | some c =>
      simp only
      obtain ⟨hlt, hc⟩ := List.getElem?_eq_some_iff.mp h
      rw [ih]
      have : b.mem.drop b.pos = c :: b.mem.drop (b.pos + 1) := by
        rw [List.drop_eq_getElem_cons hlt, hc]
      rw [this]
      simp only [List.take_succ_cons, List.length_cons, Prod.mk.injEq, true_and, InBuf.mk.injEq]
      omega

theorem in_seekoff {L : Limits} (hL : L.O ≤ L.M) {b : InBuf α} (hm : b.mem.length ≤ L.O)
    (off : Int) (dir : Dir) :
    let base : Nat := (match dir with | .beg => 0 | .cur => b.pos | .end => b.mem.length)
    b.seekoff L off dir Which.in =
      if 0 ≤ (base : Int) + off ∧ (base : Int) + off ≤ b.mem.length then
        (some ((base : Int) + off).toNat, { b with pos := ((base : Int) + off).toNat })
      else (none, b) := by
  have key : ∀ base : Nat, (match tryIntAdd L base off with
      | some pos => b.seek pos
      | none => (none, b)) =
      if 0 ≤ (base : Int) + off ∧ (base : Int) + off ≤ b.mem.length then
        (some ((base : Int) + off).toNat, { b with pos := ((base : Int) + off).toNat })
      else (none, b) := by
    intro base
    unfold tryIntAdd
    simp only
    by_cases h : 0 ≤ (base : Int) + off ∧ (base : Int) + off ≤ b.mem.length
    · rw [if_pos h, if_pos (by omega)]
      simp only [InBuf.seek]
      rw [if_pos (by omega)]
    · rw [if_neg h]
      by_cases h' : 0 ≤ (base : Int) + off ∧ (base : Int) + off ≤ L.M
      · rw [if_pos h']
        simp only [InBuf.seek]
        rw [if_neg (by omega)]
      · rw [if_neg h']
  cases dir with
  | beg => exact key 0
  | cur => exact key b.pos
  | «end» => exact key b.mem.length

theorem in_step [DecidableEq α] {L : Limits} (hL : L.O ≤ L.M) {b : InBuf α} (hm : b.mem.length ≤ L.O)
    (hp : b.pos ≤ b.mem.length) (op : InOp α) :
    ((b.step L op).1, (b.step L op).2.pos) = op.meaning b.mem b.pos ∧
    (b.step L op).2.mem = b.mem ∧ (b.step L op).2.pos ≤ b.mem.length := by
  have hone : ∀ r, b.sgetn 1 = r → b.sbumpc = (r.1.head?, r.2) := by
    rintro r rfl
    unfold InBuf.sgetn
    cases h : b.sbumpc with
    | mk c b' =>
      cases c with
      | some c => simp [InBuf.sgetn]
      | none => simp
  have hone' := hone _ (sgetn_eq 1 b)
  simp only at hone'
  have hhead : ∀ l : List α, l.length ≤ 1 → l.head?.toList = l := by
    intro l hl
    match l, hl with
    | [], _ => rfl
    | [_], _ => rfl
  have hto : ∀ (dir : Dir) (base : Nat) (off : Int),
      (match dir with | .beg => 0 | .cur => b.pos | .end => b.mem.length) = base →
      ((InRes.pos (b.seekoff L off dir Which.in).1 : InRes α), (b.seekoff L off dir Which.in).2.pos) =
        InOp.meaning.goTo b.mem b.pos ((base : Int) + off) ∧
      (b.seekoff L off dir Which.in).2.mem = b.mem ∧
      (b.seekoff L off dir Which.in).2.pos ≤ b.mem.length := by
    intro dir base off hbase
    have := in_seekoff hL hm off dir
    simp only [hbase] at this
    rw [this]
    unfold InOp.meaning.goTo
    split
    · rename_i h; exact ⟨rfl, rfl, by simp only; omega⟩
    · exact ⟨rfl, rfl, hp⟩
  cases op with
  | get n =>
    simp only [InBuf.step, sgetn_eq, InOp.meaning]
    refine ⟨trivial, trivial, ?_⟩
    simp only [List.length_take, List.length_drop]; omega
  | bump =>
    simp only [InBuf.step, hone', InOp.meaning]
    rw [hhead _ (by rw [List.length_take]; omega)]
    refine ⟨rfl, trivial, ?_⟩
    simp only [List.length_take, List.length_drop]; omega
  | peek =>
    refine ⟨?_, rfl, hp⟩
    simp only [InBuf.step, InOp.meaning, InBuf.sgetc]
    rw [← hhead ((b.mem.drop b.pos).take 1) (by rw [List.length_take]; omega)]
    congr 3
    rw [List.head?_take, List.head?_drop]
    simp
  | putback ch =>
    have hlast : (b.mem.take b.pos).getLast? = some ch ↔ b.pos > 0 ∧ b.mem[b.pos - 1]? = some ch := by
      rw [List.getLast?_eq_getElem?, List.length_take, Nat.min_eq_left hp, List.getElem?_take]
      by_cases h0 : b.pos > 0
      · rw [if_pos (by omega)]; simp [h0]
      · rw [if_neg (by omega)]; simp [h0]
    simp only [InBuf.step, InBuf.sputbackc, InOp.meaning]
    by_cases h : b.pos > 0 ∧ b.mem[b.pos - 1]? = some ch
    · rw [if_pos h, if_pos (hlast.mpr h)]; exact ⟨rfl, rfl, by simp only; omega⟩
    · rw [if_neg h, if_neg (fun h' => h (hlast.mp h'))]; exact ⟨rfl, rfl, hp⟩
  | unget =>
    simp only [InBuf.step, InBuf.sungetc, InOp.meaning]
    by_cases h : b.pos = 0
    · rw [if_neg (by omega), if_pos h]; exact ⟨rfl, rfl, hp⟩
    · rw [if_pos (by omega), if_neg h]; exact ⟨rfl, rfl, by simp only; omega⟩
  | seekBeg off =>
    have := hto .beg 0 off rfl
    simp only [Nat.cast_zero, zero_add] at this
    exact this
  | seekCur off => exact hto .cur b.pos off rfl
  | seekEnd off => exact hto .end b.mem.length off rfl

/-- A stream buffer that reads from memory behaves like a file with the contents of that memory: every
read, every put back, and every seek has the result that it should have, after any number of operations,
and the contents are never changed. -/
theorem C102_file [DecidableEq α] {L : Limits} (hL : L.O ≤ L.M) (memory : List α) (b : InBuf α)
    (h : InBuf.reset L memory = .ok b) (ops : List (InOp α)) :
    (b.run L ops).1 = (InOp.meanings memory 0 ops).1 ∧
    (b.run L ops).2.pos = (InOp.meanings memory 0 ops).2 ∧
    (b.run L ops).2.view = memory := by
  unfold InBuf.reset at h
  split at h
  · simp at h
  · rename_i hlen
    simp only [Except.ok.injEq] at h
    subst h
    have key : ∀ (ops : List (InOp α)) (b : InBuf α), b.mem = memory → b.pos ≤ memory.length →
        ((b.run L ops).1, (b.run L ops).2.pos) = InOp.meanings memory b.pos ops ∧
        (b.run L ops).2.mem = memory := by
      intro ops
      induction ops with
      | nil => intro b hb _; exact ⟨rfl, hb⟩
      | cons op ops ih =>
        intro b hb hp
        obtain ⟨g1, g2, g3⟩ := in_step hL (b := b) (by rw [hb]; omega) (by rw [hb]; exact hp) op
        rw [hb] at g1 g2 g3
        obtain ⟨k1, k2⟩ := ih _ g2 g3
        unfold InBuf.run InOp.meanings
        refine ⟨?_, k2⟩
        simp only
        rw [← g1]
        simp only
        rw [← k1]
    obtain ⟨k1, k2⟩ := key ops ⟨memory, 0⟩ rfl (by simp)
    exact ⟨congrArg Prod.fst k1, congrArg Prod.snd k1, k2⟩

example : ∃ b, InBuf.reset Ex.tiny [1, 2, 3, 4, 5] = .ok b ∧
    (b.run Ex.tiny [.get 2, .unget, .seekCur 2, .seekEnd 1, .putback 4, .putback 3, .bump]).2.pos = 3 ∧
    (b.run Ex.tiny [.get 2, .seekCur 2, .seekEnd 1]).2.pos = 4 :=
  ⟨_, rfl, by decide +kernel, by decide +kernel⟩

/-- Association with memory fails exactly when a position is not representable. -/
theorem C102_reset (L : Limits) (memory : List α) :
    (∃ b, InBuf.reset L memory = .ok b) ↔ memory.length ≤ L.O := by
  unfold InBuf.reset
  constructor
  · rintro ⟨b, h⟩
    split at h
    · simp at h
    · omega
  · intro h
    rw [if_neg (by omega)]
    exact ⟨_, rfl⟩

example : InBuf.reset ⟨10, 2, 5⟩ [1, 2, 3] = .error .bufferSize := rfl

/-- Seeking fails, and changes nothing, when it is for anything other than input, or when the stream
position has a conversion state other than the initial one. Otherwise, seeking to a position is seeking
relative to the beginning. -/
theorem C102_seek (L : Limits) (b : InBuf α) (off : Int) (dir : Dir) (which : Which)
    (initState : Bool) :
    (which ≠ Which.in → b.seekoff L off dir which = (none, b) ∧
      b.seekpos L off initState which = (none, b)) ∧
    (initState = false → b.seekpos L off initState which = (none, b)) ∧
    b.seekpos L off true Which.in = b.seekoff L off .beg Which.in := by
  refine ⟨fun hw => ⟨?_, ?_⟩, fun hi => ?_, ?_⟩
  · unfold InBuf.seekoff; rw [if_neg hw]
  · unfold InBuf.seekpos; rw [if_neg (fun h => hw h.2)]
  · unfold InBuf.seekpos; rw [if_neg (fun h => by rw [hi] at h; simp at h)]
  · simp only [InBuf.seekpos, InBuf.seekoff, tryIntCast, tryIntAdd, Nat.cast_zero, zero_add,
      true_and, if_true]

example : ((⟨[1, 2, 3], 0⟩ : InBuf Nat).seekoff Ex.L 2 .beg ⟨true, true, false⟩).1 = none ∧
    ((⟨[1, 2, 3], 0⟩ : InBuf Nat).seekpos Ex.L 2 true Which.in).1 = some 2 := by decide +kernel

end Verif.MemStream
