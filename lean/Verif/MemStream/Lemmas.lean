import Verif.MemStream.Model
import Verif.MemStream.Spec
import Verif.Buffer.Lemmas
import Mathlib.Tactic.Ring

namespace Verif.MemStream

open Spec

variable {α : Type}

/-! ### Movement of put pointer -/

theorem bumpsGe_le (I : Nat) (fuel : Nat) : ∀ n, ∀ k ∈ bumpsGe I fuel n, k ≤ I := by
  induction fuel with
  | zero => intro n k hk; simp [bumpsGe] at hk
  | succ fuel ih =>
    intro n k hk
    unfold bumpsGe at hk
    split at hk
    · rcases List.mem_cons.mp hk with rfl | h
      · exact le_refl _
      · exact ih _ _ h
    · simp at hk; omega

theorem bumpsGe_sum {I : Nat} (hI : 0 < I) (fuel : Nat) : ∀ n, n < fuel → (bumpsGe I fuel n).sum = n := by
  induction fuel with
  | zero => intro n hn; omega
  | succ fuel ih =>
    intro n hn
    unfold bumpsGe
    split
    · rw [List.sum_cons, ih _ (by omega)]; omega
    · simp

theorem bumpsGt_le (I : Nat) (fuel : Nat) : ∀ n, ∀ k ∈ bumpsGt I fuel n, k ≤ I := by
  induction fuel with
  | zero => intro n k hk; simp [bumpsGt] at hk
  | succ fuel ih =>
    intro n k hk
    unfold bumpsGt at hk
    split at hk
    · rcases List.mem_cons.mp hk with rfl | h
      · exact le_refl _
      · exact ih _ _ h
    · simp at hk; omega

theorem bumpsGt_sum {I : Nat} (hI : 0 < I) (fuel : Nat) : ∀ n, n < fuel → (bumpsGt I fuel n).sum = n := by
  induction fuel with
  | zero => intro n hn; omega
  | succ fuel ih =>
    intro n hn
    unfold bumpsGt
    split
    · rw [List.sum_cons, ih _ (by omega)]; omega
    · simp

theorem foldl_add (l : List Nat) : ∀ a, l.foldl (· + ·) a = a + l.sum := by
  induction l with
  | nil => intro a; simp
  | cons x l ih => intro a; rw [List.foldl_cons, ih, List.sum_cons]; ring

theorem foldl_sub (l : List Nat) : ∀ a, l.foldl (· - ·) a = a - l.sum := by
  induction l with
  | nil => intro a; simp
  | cons x l ih => intro a; rw [List.foldl_cons, ih, List.sum_cons]; omega

theorem setPos_eq {L : Limits} (hI : 0 < L.I) (b : OutBuf α) (pos : Nat) : b.setPos L pos = pos := by
  unfold OutBuf.setPos
  split
  · rw [foldl_add, bumpsGe_sum hI _ _ (by omega)]; omega
  · rw [foldl_sub, bumpsGe_sum hI _ _ (by omega)]; omega

/-! ### Output to memory of fixed size -/

/-- Limits are reasonable: positions in memory are representable. -/
def Limits.Ok (L : Limits) : Prop := L.O ≤ L.M ∧ 0 < L.I

/-- Invariant. -/
structure OutBuf.Inv (L : Limits) (b : OutBuf α) : Prop where
  pos : b.pos ≤ b.mem.length
  size : b.sizeX ≤ b.mem.length
  cap : b.mem.length ≤ L.O

/-- The file that the state of the stream buffer represents. -/
def OutBuf.file (b : OutBuf α) : File α := ⟨b.mem.take (max b.sizeX b.pos), b.pos, b.mem.length⟩

theorem sputn_eq (s : List α) : ∀ (b : OutBuf α), b.pos ≤ b.mem.length →
    let t := s.take (b.mem.length - b.pos)
    b.sputn s = (t.length,
      { b with
        mem := b.mem.take b.pos ++ t ++ b.mem.drop (b.pos + t.length), pos := b.pos + t.length }) := by
  induction s with
  | nil => intro b hb; simp [OutBuf.sputn]
  | cons c s ih =>
    intro b hb
    unfold OutBuf.sputn OutBuf.sputc
    by_cases hp : b.pos < b.mem.length
    · simp only [hp, if_true]
      have := ih { b with mem := b.mem.set b.pos c, pos := b.pos + 1 } (by simp; omega)
      simp only at this
      rw [this]
      have h1 : (c :: s).take (b.mem.length - b.pos) =
          c :: s.take ((b.mem.set b.pos c).length - (b.pos + 1)) := by
        rw [List.length_set, show b.mem.length - b.pos = b.mem.length - (b.pos + 1) + 1 by omega]
        rfl
      rw [h1]
      generalize s.take ((b.mem.set b.pos c).length - (b.pos + 1)) = t
      simp only [List.length_cons, Prod.mk.injEq, true_and, OutBuf.mk.injEq, and_true]
      refine ⟨?_, by omega⟩
      apply List.ext_getElem?
      intro i
      simp only [List.getElem?_append, List.getElem?_take, List.getElem?_drop, List.length_append,
        List.length_take, List.length_set, List.getElem?_set, List.length_cons, List.getElem?_cons]
      split_ifs <;> first | (exfalso; omega) | rfl | (congr 1; omega)
    · have : b.mem.length - b.pos = 0 := by omega
      simp only [hp, if_false, this, List.take_zero, List.length_nil, Nat.add_zero, List.append_nil]
      simp

theorem write_file {L : Limits} {b : OutBuf α} (hb : b.Inv L) (s : List α) :
    (b.sputn s).2.Inv L ∧ (b.sputn s).2.mem.length = b.mem.length ∧
    ((b.sputn s).1, (b.sputn s).2.file) = b.file.write s ∧
    (b.sputn s).2.mem.drop (b.sputn s).2.getSize = b.mem.drop (b.sputn s).2.getSize := by
  have h := sputn_eq s b hb.pos
  simp only at h
  have hl : (s.take (b.mem.length - b.pos)).length ≤ b.mem.length - b.pos := by
    rw [List.length_take]; omega
  have hp := hb.pos
  have hs := hb.size
  rw [h]
  unfold File.write OutBuf.file
  simp only
  generalize s.take (b.mem.length - b.pos) = t at *
  have hlen : (b.mem.take b.pos ++ t ++ b.mem.drop (b.pos + t.length)).length = b.mem.length := by
    simp; omega
  refine ⟨⟨?_, ?_, ?_⟩, hlen, ?_, ?_⟩
  · simp only [hlen]; omega
  · simp only [hlen]; exact hs
  · simp only [hlen]; exact hb.cap
  · simp only [hlen, Prod.mk.injEq, true_and, File.mk.injEq, and_true]
    apply List.ext_getElem?
    intro i
    simp only [List.getElem?_append, List.getElem?_take, List.getElem?_drop, List.length_append,
      List.length_take]
    split_ifs <;> first | rfl | (exfalso; omega) | (congr 1; omega) | skip
    all_goals simp; omega
  · unfold OutBuf.getSize
    simp only
    apply List.ext_getElem?
    intro i
    simp only [List.getElem?_append, List.getElem?_take, List.getElem?_drop, List.length_append,
      List.length_take]
    split_ifs <;> first | rfl | (exfalso; omega) | (congr 1; omega)

theorem seek_file {L : Limits} (hL : L.Ok) (zero : α) {b : OutBuf α} (hb : b.Inv L) (pos : Nat) :
    (b.seek L zero pos).2.Inv L ∧ (b.seek L zero pos).2.mem.length = b.mem.length ∧
    ((b.seek L zero pos).1, (b.seek L zero pos).2.file) = b.file.seek zero pos ∧
    (b.seek L zero pos).2.mem.drop (b.seek L zero pos).2.getSize =
      b.mem.drop (b.seek L zero pos).2.getSize := by
  have hp := hb.pos
  have hs := hb.size
  have hc := hb.cap
  unfold OutBuf.seek File.seek
  simp only [setPos_eq hL.2]
  by_cases h : pos ≤ b.mem.length
  · have h' : (0 : Int) ≤ pos ∧ (pos : Int) ≤ b.file.cap := by
      unfold OutBuf.file; simp only; omega
    rw [if_pos h, if_pos h']
    have hsz : (if b.pos > b.sizeX then b.pos else b.sizeX) = max b.sizeX b.pos := by
      split <;> omega
    rw [hsz]
    by_cases hge : pos ≥ max b.sizeX b.pos
    · rw [if_pos hge]
      have hlen : (b.mem.take (max b.sizeX b.pos) ++
          List.replicate (pos - max b.sizeX b.pos) zero ++ b.mem.drop pos).length = b.mem.length := by
        simp; omega
      simp only [Int.toNat_natCast]
      refine ⟨⟨?_, ?_, ?_⟩, hlen, ?_, ?_⟩
      · simp only [hlen]; exact h
      · simp only [hlen]; omega
      · simp only [hlen]; exact hc
      · unfold OutBuf.file
        simp only [hlen, Prod.mk.injEq, true_and, File.mk.injEq, and_true]
        apply List.ext_getElem?
        intro i
        simp only [List.getElem?_append, List.getElem?_take, List.getElem?_drop, List.length_append,
          List.length_take, List.length_replicate, List.getElem?_replicate]
        split_ifs <;> first | rfl | (exfalso; omega) | (congr 1; omega)
      · unfold OutBuf.getSize
        simp only
        apply List.ext_getElem?
        intro i
        simp only [List.getElem?_append, List.getElem?_take, List.getElem?_drop, List.length_append,
          List.length_take, List.length_replicate, List.getElem?_replicate]
        split_ifs <;> first | rfl | (exfalso; omega) | (congr 1; omega)
    · rw [if_neg hge]
      simp only [Int.toNat_natCast]
      refine ⟨⟨h, ?_, hc⟩, by trivial, ?_, by trivial⟩
      · simp only; omega
      · unfold OutBuf.file
        simp only [Prod.mk.injEq, true_and, File.mk.injEq, and_true, List.length_take]
        rw [show pos - min (max b.sizeX b.pos) b.mem.length = 0 by omega]
        rw [List.replicate_zero, List.append_nil]
        congr 1
        omega
  · have h' : ¬ ((0 : Int) ≤ pos ∧ (pos : Int) ≤ b.file.cap) := by
      unfold OutBuf.file; simp only; omega
    rw [if_neg h, if_neg h']
    exact ⟨hb, rfl, rfl, rfl⟩

/-- The starting point of a seek. -/
def OutBuf.base (b : OutBuf α) : Dir → Nat
  | .beg => 0
  | .cur => b.pos
  | .end => b.file.content.length

theorem seekoff_eq {L : Limits} (hL : L.Ok) (zero : α) {b : OutBuf α} (hb : b.Inv L) (off : Int)
    (dir : Dir) :
    let target := (b.base dir : Int) + off
    ((0 ≤ target ∧ target ≤ b.mem.length) →
      b.seekoff L zero off dir Which.out = b.seek L zero target.toNat) ∧
    (¬ (0 ≤ target ∧ target ≤ b.mem.length) →
      b.seekoff L zero off dir Which.out = (none, b)) := by
  have hp := hb.pos
  have hs := hb.size
  have hc := hb.cap
  have hm := hL.1
  intro target
  have hend : b.getSize = b.base .end := by
    simp only [OutBuf.base, OutBuf.file, OutBuf.getSize, List.length_take]; omega
  have key : b.seekoff L zero off dir Which.out = (tryIntAdd L (b.base dir) off).elim (none, b)
      (fun pos => b.seek L zero pos) := by
    cases dir with
    | «end» =>
      simp only [OutBuf.seekoff, if_true, hend]
      cases tryIntAdd L (b.base .end) off <;> rfl
    | cur =>
      simp only [OutBuf.seekoff, if_true, OutBuf.base]
      cases tryIntAdd L b.pos off <;> rfl
    | beg =>
      simp only [OutBuf.seekoff, if_true, OutBuf.base]
      cases tryIntAdd L 0 off <;> rfl
  rw [key]
  unfold tryIntAdd
  simp only
  constructor
  · intro h
    have h' : 0 ≤ (b.base dir : Int) + off ∧ (b.base dir : Int) + off ≤ L.M := ⟨h.1, by omega⟩
    rw [if_pos h']
    rfl
  · intro h
    by_cases h' : 0 ≤ (b.base dir : Int) + off ∧ (b.base dir : Int) + off ≤ L.M
    · rw [if_pos h']
      simp only [OutBuf.seek, Option.elim]
      rw [if_neg (by omega)]
    · rw [if_neg h']
      rfl

theorem seekoff_file {L : Limits} (hL : L.Ok) (zero : α) {b : OutBuf α} (hb : b.Inv L) (off : Int)
    (dir : Dir) :
    let r := b.seekoff L zero off dir Which.out
    r.2.Inv L ∧ r.2.mem.length = b.mem.length ∧
    (r.1, r.2.file) = b.file.seek zero (b.base dir + off) ∧
    r.2.mem.drop r.2.getSize = b.mem.drop r.2.getSize := by
  intro r
  obtain ⟨h1, h2⟩ := seekoff_eq hL zero hb off dir
  by_cases h : 0 ≤ (b.base dir : Int) + off ∧ (b.base dir : Int) + off ≤ b.mem.length
  · have hr : r = b.seek L zero ((b.base dir : Int) + off).toNat := h1 h
    rw [hr]
    have := seek_file hL zero hb ((b.base dir : Int) + off).toNat
    rw [Int.toNat_of_nonneg h.1] at this
    exact this
  · have hr : r = (none, b) := h2 h
    rw [hr]
    refine ⟨hb, rfl, ?_, rfl⟩
    unfold File.seek
    rw [if_neg (show ¬ (0 ≤ (b.base dir : Int) + off ∧ (b.base dir : Int) + off ≤ b.file.cap) from h)]

/-! ### Output to expanding memory -/

/-- Invariant. -/
structure SeedBuf.Inv (L : Limits) (b : SeedBuf α) : Prop where
  used : b.used ≤ b.mem.length
  cap : b.mem.length ≤ L.M
  live : b.live = if b.owned then 1 else 0

theorem create_inv {L : Limits} (seed : List (Option α)) (h : seed.length ≤ L.M) :
    (SeedBuf.create seed).Inv L := ⟨by simp [SeedBuf.create], h, rfl⟩

theorem reserveExtra_ok {L : Limits} {alloc : Nat → Bool} {b : SeedBuf α} (hb : b.Inv L) (n : Nat) :
    (∀ b', b.reserveExtra L alloc n = .ok b' →
      b'.Inv L ∧ b'.view = b.view ∧ b'.used = b.used ∧ b'.used + n ≤ b'.mem.length) ∧
    (∀ e, b.reserveExtra L alloc n = .error e →
      (e = .lengthError ∧ L.M < b.used + n) ∨
      (e = .badAlloc ∧ ∃ k, b.used + n ≤ k ∧ k ≤ L.M ∧ alloc k = false)) := by
  have hu := hb.used
  have hc := hb.cap
  unfold SeedBuf.reserveExtra
  simp only
  by_cases h : b.mem.length - b.used ≥ n
  · rw [if_pos h]
    refine ⟨?_, by simp⟩
    rintro b' ⟨⟩
    exact ⟨hb, rfl, rfl, by omega⟩
  · rw [if_neg h]
    unfold SeedBuf.doReserveExtra
    simp only
    by_cases h1 : b.used + n ≤ L.M
    · rw [if_pos h1]
      obtain ⟨k, hk, k1, k2, k3, -⟩ := Buffer.suggest_spec hc h1
      rw [hk]
      simp only
      by_cases ha : alloc k = true
      · rw [if_pos ha, if_pos ⟨by omega, hu⟩]
        refine ⟨?_, by simp⟩
        intro b' hb'
        simp only [Except.ok.injEq] at hb'
        subst hb'
        refine ⟨⟨?_, ?_, ?_⟩, ?_, ?_, ?_⟩
        · unfold SeedBuf.dealloc; split <;> simp <;> omega
        · simp; omega
        · unfold SeedBuf.dealloc
          have := hb.live
          split
          · rename_i hn; rw [if_neg (by simpa using hn)] at this; simp only [this]; rfl
          · rename_i hn; rw [if_pos (by simpa using hn)] at this; simp only [this]; rfl
        · unfold SeedBuf.view SeedBuf.dealloc
          split <;> simp only <;>
            rw [List.take_append_of_le_length (by simp; omega), List.take_take, Nat.min_self]
        · unfold SeedBuf.dealloc; split <;> rfl
        · unfold SeedBuf.dealloc; split <;> simp <;> omega
      · rw [if_neg ha]
        refine ⟨by simp, ?_⟩
        intro e he
        simp only [Except.error.injEq] at he
        exact .inr ⟨he.symm, k, k1, k3, by simpa using ha⟩
    · rw [if_neg h1]
      refine ⟨by simp, ?_⟩
      intro e he
      simp only [Except.error.injEq] at he
      exact .inl ⟨he.symm, by omega⟩

theorem place_ok {L : Limits} (hI : 0 < L.I) {b : SeedBuf α} (hb : b.Inv L) (s : List (Option α))
    (h : b.used + s.length ≤ b.mem.length) :
    ∃ b', b.place L s = .ok b' ∧ b'.Inv L ∧ b'.view = b.view ++ s := by
  unfold SeedBuf.place
  rw [if_pos h, foldl_add, bumpsGt_sum hI _ _ (by omega)]
  have hlen : (b.mem.take b.used ++ s ++ b.mem.drop (b.used + s.length)).length = b.mem.length := by
    simp; omega
  refine ⟨_, rfl, ⟨?_, ?_, hb.live⟩, ?_⟩
  · simp only [hlen]; exact h
  · simp only [hlen]; exact hb.cap
  · unfold SeedBuf.view
    simp only
    rw [List.take_append_of_le_length (by simp; omega), List.take_of_length_le (by simp)]

theorem view_length {L : Limits} {b : SeedBuf α} (hb : b.Inv L) : b.view.length = b.used := by
  have := hb.used
  simp [SeedBuf.view]; omega

/-- Appending, in whatever way. -/
theorem reserve_place {L : Limits} (hI : 0 < L.I) {alloc : Nat → Bool} {b : SeedBuf α} (hb : b.Inv L)
    (s : List (Option α)) (n : Nat) (hn : s.length = n) :
    (∀ b', (do let b ← b.reserveExtra L alloc n; b.place L s) = .ok b' →
      b'.Inv L ∧ b'.view = b.view ++ s) ∧
    (∀ e, (do let b ← b.reserveExtra L alloc n; b.place L s) = .error e →
      (e = .lengthError ∧ L.M < b.view.length + n) ∨
      (e = .badAlloc ∧ ∃ k, b.view.length + n ≤ k ∧ k ≤ L.M ∧ alloc k = false)) := by
  subst hn
  obtain ⟨h1, h2⟩ := reserveExtra_ok (alloc := alloc) hb s.length
  rw [view_length hb]
  cases hr : b.reserveExtra L alloc s.length with
  | error e =>
    constructor
    · intro b' hb'; simp [bind, Except.bind] at hb'
    · intro e' he'
      simp only [bind, Except.bind, Except.error.injEq] at he'
      subst he'
      exact h2 _ hr
  | ok b1 =>
    obtain ⟨g1, g2, g3, g4⟩ := h1 _ hr
    obtain ⟨b2, k1, k2, k3⟩ := place_ok hI g1 s g4
    constructor
    · intro b' hb'
      simp only [bind, Except.bind, k1, Except.ok.injEq] at hb'
      subst hb'
      exact ⟨k2, by rw [k3, g2]⟩
    · intro e he
      simp [bind, Except.bind, k1] at he

theorem set_ok {L : Limits} {b : SeedBuf α} (hb : b.Inv L) (h : b.used < b.mem.length) (c : Option α) :
    ({ b with mem := b.mem.set b.used c, used := b.used + 1 } : SeedBuf α).Inv L ∧
    ({ b with mem := b.mem.set b.used c, used := b.used + 1 } : SeedBuf α).view = b.view ++ [c] := by
  refine ⟨⟨by simp; omega, by simpa using hb.cap, hb.live⟩, ?_⟩
  unfold SeedBuf.view
  simp only
  apply List.ext_getElem?
  intro i
  simp only [List.getElem?_append, List.getElem?_take, List.length_take, List.getElem?_set,
    List.getElem?_singleton]
  split_ifs <;> first | rfl | (exfalso; omega)

theorem sputc_ok {L : Limits} {alloc : Nat → Bool} {b : SeedBuf α} (hb : b.Inv L) (c : α) :
    (∀ b', b.sputc L alloc c = .ok b' → b'.Inv L ∧ b'.view = b.view ++ [some c]) ∧
    (∀ e, b.sputc L alloc c = .error e →
      (e = .lengthError ∧ L.M < b.view.length + 1) ∨
      (e = .badAlloc ∧ ∃ k, b.view.length + 1 ≤ k ∧ k ≤ L.M ∧ alloc k = false)) := by
  unfold SeedBuf.sputc
  by_cases h : b.used < b.mem.length
  · rw [if_pos h]
    refine ⟨?_, by simp⟩
    intro b' hb'
    simp only [Except.ok.injEq] at hb'
    subst hb'
    exact set_ok hb h (some c)
  · rw [if_neg h]
    obtain ⟨h1, h2⟩ := reserveExtra_ok (alloc := alloc) hb 1
    rw [view_length hb]
    unfold SeedBuf.overflow
    cases hr : b.reserveExtra L alloc 1 with
    | error e =>
      constructor
      · intro b' hb'; simp [bind, Except.bind] at hb'
      · intro e' he'
        simp only [bind, Except.bind, Except.error.injEq] at he'
        subst he'
        exact h2 _ hr
    | ok b1 =>
      obtain ⟨g1, g2, g3, g4⟩ := h1 _ hr
      have hlt : b1.used < b1.mem.length := by omega
      obtain ⟨k1, k2⟩ := set_ok g1 hlt (some c)
      constructor
      · intro b' hb'
        simp only [bind, Except.bind, hlt, if_true, Except.ok.injEq] at hb'
        subst hb'
        exact ⟨k1, by rw [← g2]; exact k2⟩
      · intro e he
        simp [bind, Except.bind, hlt] at he

end Verif.MemStream
