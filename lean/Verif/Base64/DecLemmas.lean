import Verif.Base64.EncCall

namespace Verif.Base64
open Spec

/-- Final verdict of decoding a complete text. -/
inductive Verdict where
  | done | bad | premature
deriving DecidableEq, Repr

/-- The three bytes of four sextets. -/
def bytes4 (a b c d : Nat) : List Nat :=
  let n := ((a * 64 + b) * 64 + c) * 64 + d
  [n / 65536, n / 256 % 256, n % 256]

/-- Bytes of a valid partial group of sextets. -/
def partialBytes : List Nat → Option (List Nat)
  | [a, b] => if b % 16 = 0 then some [(a * 64 + b) / 16] else none
  | [a, b, c] => if c % 4 = 0 then
      let n := ((a * 64 + b) * 64 + c) / 4
      some [n / 256, n % 256] else none
  | _ => none

/-- Reference decoder: one character at a time, given the sextets `P` of the current group. -/
def dref (cfg : DecCfg) : List Nat → List Nat → List Nat × Verdict
  | P, [] =>
    if P = [] then ([], .done)
    else
      match partialBytes P with
      | none => ([], .premature)
      | some x => if cfg.padding = .require then ([], .premature) else (x, .done)
  | P, ch :: t =>
    if isRegular cfg (decodeChar ch) then
      match P with
      | [a, b, c] =>
        let r := dref cfg [] t
        (bytes4 a b c (decodeChar ch % 64) ++ r.1, r.2)
      | P => dref cfg (P ++ [decodeChar ch % 64]) t
    else if decodeChar ch = 65 ∧ cfg.allowWs then dref cfg P t
    else if decodeChar ch = 64 ∧ cfg.padding ≠ .reject then ((partialBytes P).getD [], .bad)
    else ([], .bad)

def DecSt.P (s : DecSt) : List Nat := s.hold.take s.holdingSize
def DecSt.Q (s : DecSt) : List Nat := s.hold.drop (4 - s.holdingSize)

/-- What remains to be produced from decoder state `s` given the remaining text `data`. -/
def decRem (cfg : DecCfg) (s : DecSt) (data : List Nat) : List Nat × Verdict :=
  if s.holdingOutput then
    if s.paddingSize = 0 then (s.Q ++ (dref cfg [] data).1, (dref cfg [] data).2)
    else (s.Q, .bad)
  else if s.paddingSize = 0 then dref cfg s.P data
  else ([], .bad)

structure DInvIn (s : DecSt) : Prop where
  inp : s.holdingOutput = false
  pad : s.paddingSize = 0
  size : s.holdingSize < 4
  len : s.hold.length = 4
  vals : ∀ v ∈ s.P, v < 64

structure DInvOut (s : DecSt) : Prop where
  outp : s.holdingOutput = true
  pos : 0 < s.holdingSize
  size : s.holdingSize ≤ 3
  len : s.hold.length = 4

structure DInvBad (s : DecSt) : Prop where
  inp : s.holdingOutput = false
  pad : s.paddingSize ≠ 0
  size : s.holdingSize = 0
  len : s.hold.length = 4

/-- Invariant of the decoder between calls; `rest` is the unconsumed input. -/
def DecInv (cfg : DecCfg) (s : DecSt) (rest : List Nat) : Prop :=
  DInvIn s ∨ (DInvOut s ∧ (s.paddingSize ≠ 0 → cfg.padding ≠ .reject ∧ ∃ t, rest = 61 :: t)) ∨
    (DInvBad s ∧ ∃ t, rest = 61 :: t) ∧ cfg.padding ≠ .reject

theorem decOutput_spec (cap : Nat) (s : DecSt) (out : List Nat) (inv : DInvOut s) :
    (cap < s.holdingSize ∧
      decOutput cap s out = some (.full { s with holdingSize := s.holdingSize - cap } (out ++ s.Q.take cap))) ∨
    (s.holdingSize ≤ cap ∧
      decOutput cap s out = some (.toInput { s with holdingSize := 0, holdingOutput := false }
        (cap - s.holdingSize) (out ++ s.Q))) := by
  obtain ⟨ho, ps, hs, hold⟩ := s
  have h1 := inv.outp
  have h2 := inv.pos
  have h3 := inv.size
  have h4 := inv.len
  simp only at h1 h2 h3 h4
  subst h1
  match hold, h4 with
  | [a, b, c, d], _ =>
    match hs, h2, h3 with
    | 1, _, _ =>
      match cap with
      | 0 => left; simp [decOutput]
      | cap + 1 => right; simp [decOutput, DecSt.Q]
    | 2, _, _ =>
      match cap with
      | 0 => left; simp [decOutput]
      | 1 => left; simp [decOutput, DecSt.Q]
      | cap + 2 => right; simp [decOutput, DecSt.Q]
    | 3, _, _ =>
      match cap with
      | 0 => left; simp [decOutput]
      | 1 => left; simp [decOutput, DecSt.Q]
      | 2 => left; simp [decOutput, DecSt.Q]
      | cap + 3 => right; simp [decOutput, DecSt.Q]

theorem batch4 {a b c d : Nat} (_ha : a < 64) (hb : b < 64) (hc : c < 64) (hd : d < 64) :
    (((0 ||| a <<< 18) ||| b <<< 12) ||| c <<< 6) ||| d <<< 0 = ((a * 64 + b) * 64 + c) * 64 + d := by
  have e1 : a <<< 18 ||| b <<< 12 = a <<< 18 + b <<< 12 :=
    or_shift_mid (m := 18) (by simp only [Nat.shiftLeft_eq]; omega) (by simp only [Nat.shiftLeft_eq]; omega)
  have e2 : (a <<< 18 + b <<< 12) ||| c <<< 6 = (a <<< 18 + b <<< 12) + c <<< 6 :=
    or_shift_mid (m := 12) (by simp only [Nat.shiftLeft_eq]; omega) (by simp only [Nat.shiftLeft_eq]; omega)
  have e3 : (a <<< 18 + b <<< 12 + c <<< 6) ||| d <<< 0 = (a <<< 18 + b <<< 12 + c <<< 6) + d <<< 0 :=
    or_shift_mid (m := 6) (by simp only [Nat.shiftLeft_eq]; omega) (by simp only [Nat.shiftLeft_eq]; omega)
  rw [Nat.zero_or, e1, e2, e3]
  simp only [Nat.shiftLeft_eq]; omega

theorem batch3' {a b c : Nat} (ha : a < 64) (hb : b < 64) (hc : c < 64) :
    ((0 ||| a <<< 18) ||| b <<< 12) ||| c <<< 6 = ((a * 64 + b) * 64 + c) * 64 := by
  have := batch4 ha hb hc (d := 0) (by decide)
  simpa using this

theorem batch2' {a b : Nat} (ha : a < 64) (hb : b < 64) :
    (0 ||| a <<< 18) ||| b <<< 12 = (a * 64 + b) * 64 * 64 := by
  have := batch3' ha hb (c := 0) (by decide)
  simpa using this

theorem decBatch_spec (s : DecSt) (h1 : s.holdingOutput = false) (h2 : s.holdingSize = 4)
    (h3 : s.hold.length = 4) (h4 : ∀ v ∈ s.hold, v < 64) :
    ∃ s' a b c d, s.hold = [a, b, c, d] ∧ decBatch s = some s' ∧ DInvOut s' ∧ s'.Q = bytes4 a b c d ∧
      s'.paddingSize = s.paddingSize := by
  obtain ⟨ho, ps, hs, hold⟩ := s
  simp only at h1 h2 h3 h4
  subst h1 h2
  match hold, h3 with
  | [a, b, c, d], _ =>
    simp only [List.mem_cons, List.not_mem_nil, or_false, forall_eq_or_imp, forall_eq] at h4
    obtain ⟨ha, hb, hc, hd⟩ := h4
    refine ⟨_, a, b, c, d, rfl, by simp only [decBatch]; rfl, ⟨by rfl, by simp, by simp, by simp⟩, ?_, by rfl⟩
    simp only [DecSt.Q]
    rw [batch4 ha hb hc hd]
    simp only [bytes4, Nat.shiftRight_eq_div_pow, and_255, List.set_cons_zero, List.set_cons_succ]
    simp only [List.drop_succ_cons, List.drop_zero, Nat.reduceSub]
    congr 1
    · omega
    · congr 1; congr 1; omega

theorem validPartial_iff (s : DecSt) (h3 : s.hold.length = 4) (hs : s.holdingSize < 4) :
    validPartial s = true ↔ (partialBytes s.P).isSome = true := by
  obtain ⟨ho, ps, hsz, hold⟩ := s
  simp only at h3 hs
  match hold, h3 with
  | [a, b, c, d], _ =>
    match hsz, hs with
    | 0, _ => simp [validPartial, partialBytes, DecSt.P]
    | 1, _ => simp [validPartial, partialBytes, DecSt.P]
    | 2, _ => simp [validPartial, partialBytes, DecSt.P, and_15]
    | 3, _ => simp [validPartial, partialBytes, DecSt.P, and_3]

theorem partialBytes_size {P x : List Nat} (h : partialBytes P = some x) :
    (P.length = 2 ∨ P.length = 3) ∧ x.length + 1 = P.length := by
  unfold partialBytes at h
  split at h
  · split at h
    · simp only [Option.some.injEq] at h; subst h; simp
    · simp at h
  · split at h
    · simp only [Option.some.injEq] at h; subst h; simp
    · simp at h
  · simp at h

theorem decPartial_spec (s : DecSt) (x : List Nat) (h1 : s.holdingOutput = false) (hs : s.holdingSize < 4)
    (h3 : s.hold.length = 4) (h4 : ∀ v ∈ s.P, v < 64) (hx : partialBytes s.P = some x) :
    ∃ s', decPartial s = some s' ∧ DInvOut s' ∧ s'.Q = x ∧ s'.paddingSize = s.paddingSize := by
  have hv : validPartial s = true := (validPartial_iff s h3 hs).mpr (by simp [hx])
  obtain ⟨ho, ps, hsz, hold⟩ := s
  simp only at h1 hs h3
  subst h1
  match hold, h3 with
  | [a, b, c, d], _ =>
    match hsz, hs with
    | 0, _ => simp [partialBytes, DecSt.P] at hx
    | 1, _ => simp [partialBytes, DecSt.P] at hx
    | 2, _ =>
      simp only [DecSt.P, List.take_succ_cons, List.take_zero, List.mem_cons, List.not_mem_nil, or_false,
        forall_eq_or_imp, forall_eq] at h4
      simp only [DecSt.P, List.take_succ_cons, List.take_zero, partialBytes] at hx
      split at hx
      case isFalse => simp at hx
      rename_i hm
      simp only [Option.some.injEq] at hx; subst hx
      refine ⟨_, by simp only [decPartial, hv]; rfl, ⟨by rfl, by simp, by simp, by simp⟩, ?_, by rfl⟩
      simp only [DecSt.Q]
      simp only [Nat.reduceGT, if_false, List.set_cons_zero, List.set_cons_succ, List.drop_succ_cons, List.drop_zero, Nat.reduceSub]
      rw [batch2' h4.1 h4.2, Nat.shiftRight_eq_div_pow, and_255]
      congr 1; omega
    | 3, _ =>
      simp only [DecSt.P, List.take_succ_cons, List.take_zero, List.mem_cons, List.not_mem_nil, or_false,
        forall_eq_or_imp, forall_eq] at h4
      simp only [DecSt.P, List.take_succ_cons, List.take_zero, partialBytes] at hx
      split at hx
      case isFalse => simp at hx
      rename_i hm
      simp only [Option.some.injEq] at hx; subst hx
      refine ⟨_, by simp only [decPartial, hv]; rfl, ⟨by rfl, by simp, by simp, by simp⟩, ?_, by rfl⟩
      simp only [DecSt.Q]
      simp only [Nat.reduceGT, if_true, List.set_cons_zero, List.set_cons_succ, List.drop_succ_cons, List.drop_zero, Nat.reduceSub]
      rw [batch3' h4.1 h4.2.1 h4.2.2, Nat.shiftRight_eq_div_pow, Nat.shiftRight_eq_div_pow, and_255, and_255]
      congr 1
      · omega
      · congr 1; omega

end Verif.Base64
