import Mathlib.Tactic
import Verif.Unicode.Model
import Verif.Unicode.Spec
import Verif.Buffer.Props
/-! Common properties of the loop bodies of the incremental functions. -/
namespace Verif.Unicode
open Verif.Buffer (Err Res copyN expand append bind_ok bind_err)

/-- What the loop bodies have in common: the space only decides whether a sequence is written or not, and more input
does not change a decision that has been made. -/
structure Regular (step : List Nat → Nat → Step) : Prop where
  cap : ∀ rest sp, step rest sp = match step rest 4 with
    | .emit us n => if us.length ≤ sp then .emit us n else .full
    | x => x
  notFull : ∀ rest, step rest 4 ≠ .full
  pos : ∀ rest us n, step rest 4 = .emit us n → 1 ≤ n ∧ n ≤ rest.length ∧ 1 ≤ us.length
  ext : ∀ rest more, step rest 4 ≠ .exhausted → step (rest ++ more) 4 = step rest 4
  nil : step [] 4 = .exhausted

macro "reg_cap" s:ident : tactic =>
  `(tactic| (simp only [$s:ident, ge_iff_le, Nat.reduceLeDiff, if_true, reduceCtorEq, if_false] <;> (try split_ifs) <;>
      first | rfl | contradiction | (exfalso; omega) |
        (simp only [List.length_cons, List.length_nil, Nat.zero_add, Nat.reduceAdd]; split_ifs <;>
          first | rfl | (exfalso; omega))))
macro "reg_full" s:ident : tactic =>
  `(tactic| (simp only [$s:ident, ge_iff_le, Nat.reduceLeDiff, if_true, reduceCtorEq, if_false] <;> (try split_ifs) <;> simp))
macro "reg_pos" s:ident h:ident : tactic =>
  `(tactic| (simp only [$s:ident, ge_iff_le, Nat.reduceLeDiff, if_true, reduceCtorEq, if_false] at $h:ident <;>
      (try split_ifs at $h:ident) <;>
      first | (injection $h with h1 h2; subst h1 h2; simp; done) | (injection $h; done)))
macro "reg_ext" s:ident h:ident : tactic =>
  `(tactic| (simp only [$s:ident, List.cons_append, List.nil_append, ge_iff_le, Nat.reduceLeDiff, if_true, reduceCtorEq, if_false] at $h:ident ⊢ <;> (try split_ifs at $h:ident ⊢) <;>
      first | rfl | exact absurd rfl $h))

set_option maxHeartbeats 4000000 in
theorem encodeUtf8_regular : Regular encodeUtf8Step where
  cap rest sp := by
    rcases rest with _ | ⟨a, t⟩ <;> reg_cap encodeUtf8Step
  notFull rest := by
    rcases rest with _ | ⟨a, t⟩ <;> reg_full encodeUtf8Step
  pos rest us n h := by
    rcases rest with _ | ⟨a, t⟩ <;> reg_pos encodeUtf8Step h
  ext rest more h := by
    rcases rest with _ | ⟨a, t⟩ <;> reg_ext encodeUtf8Step h
  nil := rfl

set_option maxHeartbeats 4000000 in
theorem encodeUtf16_regular : Regular encodeUtf16Step where
  cap rest sp := by
    rcases rest with _ | ⟨a, t⟩ <;> reg_cap encodeUtf16Step
  notFull rest := by
    rcases rest with _ | ⟨a, t⟩ <;> reg_full encodeUtf16Step
  pos rest us n h := by
    rcases rest with _ | ⟨a, t⟩ <;> reg_pos encodeUtf16Step h
  ext rest more h := by
    rcases rest with _ | ⟨a, t⟩ <;> reg_ext encodeUtf16Step h
  nil := rfl

set_option maxHeartbeats 4000000 in
theorem decodeUtf16_regular (red : Bool) : Regular (decodeUtf16Step red) where
  cap rest sp := by
    rcases rest with _ | ⟨a, _ | ⟨b, t⟩⟩ <;> reg_cap decodeUtf16Step
  notFull rest := by
    rcases rest with _ | ⟨a, _ | ⟨b, t⟩⟩ <;> reg_full decodeUtf16Step
  pos rest us n h := by
    rcases rest with _ | ⟨a, _ | ⟨b, t⟩⟩ <;> reg_pos decodeUtf16Step h
  ext rest more h := by
    rcases rest with _ | ⟨a, _ | ⟨b, t⟩⟩ <;> reg_ext decodeUtf16Step h
  nil := rfl

set_option maxHeartbeats 4000000 in
theorem utf16ToUtf8_regular : Regular utf16ToUtf8Step where
  cap rest sp := by
    rcases rest with _ | ⟨a, _ | ⟨b, t⟩⟩ <;> reg_cap utf16ToUtf8Step
  notFull rest := by
    rcases rest with _ | ⟨a, _ | ⟨b, t⟩⟩ <;> reg_full utf16ToUtf8Step
  pos rest us n h := by
    rcases rest with _ | ⟨a, _ | ⟨b, t⟩⟩ <;> reg_pos utf16ToUtf8Step h
  ext rest more h := by
    rcases rest with _ | ⟨a, _ | ⟨b, t⟩⟩ <;> reg_ext utf16ToUtf8Step h
  nil := rfl

set_option maxHeartbeats 4000000 in
theorem decodeUtf8_regular (red : Bool) : Regular (decodeUtf8Step red) where
  cap rest sp := by
    cases red <;> rcases rest with _ | ⟨a, _ | ⟨b, _ | ⟨c, _ | ⟨d, t⟩⟩⟩⟩ <;> reg_cap decodeUtf8Step
  notFull rest := by
    rcases rest with _ | ⟨a, _ | ⟨b, _ | ⟨c, _ | ⟨d, t⟩⟩⟩⟩ <;> reg_full decodeUtf8Step
  pos rest us n h := by
    rcases rest with _ | ⟨a, _ | ⟨b, _ | ⟨c, _ | ⟨d, t⟩⟩⟩⟩ <;> reg_pos decodeUtf8Step h
  ext rest more h := by
    rcases rest with _ | ⟨a, _ | ⟨b, _ | ⟨c, _ | ⟨d, t⟩⟩⟩⟩ <;> reg_ext decodeUtf8Step h
  nil := rfl

set_option maxHeartbeats 4000000 in
theorem utf8ToUtf16_regular : Regular utf8ToUtf16Step where
  cap rest sp := by
    rcases rest with _ | ⟨a, _ | ⟨b, _ | ⟨c, _ | ⟨d, t⟩⟩⟩⟩ <;> reg_cap utf8ToUtf16Step
  notFull rest := by
    rcases rest with _ | ⟨a, _ | ⟨b, _ | ⟨c, _ | ⟨d, t⟩⟩⟩⟩ <;> reg_full utf8ToUtf16Step
  pos rest us n h := by
    rcases rest with _ | ⟨a, _ | ⟨b, _ | ⟨c, _ | ⟨d, t⟩⟩⟩⟩ <;> reg_pos utf8ToUtf16Step h
  ext rest more h := by
    rcases rest with _ | ⟨a, _ | ⟨b, _ | ⟨c, _ | ⟨d, t⟩⟩⟩⟩ <;> reg_ext utf8ToUtf16Step h
  nil := rfl

end Verif.Unicode
