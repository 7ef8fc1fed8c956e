import Verif.BufferFormat.Main
namespace Verif.BufferFormat
open Spec

variable {P : Platform} {word : IntegerType → (Nat → Nat) → Nat}

theorem wordAt_byte (M : Machine P word) (mem : Nat → Nat) (i : Nat) : wordAt P word mem .byte i = mem i := by
  unfold wordAt
  rw [M.one .byte _ rfl]
  simp [Spec.bytes]

theorem wordAt_single (M : Machine P word) (mem : Nat → Nat) {t : IntegerType} (h : Spec.bytes P t = 1) (i : Nat) :
    wordAt P word mem t i = wordAt P word mem .byte i := by
  rw [wordAt_byte M]
  unfold wordAt
  rw [M.one t _ h, h]
  simp

theorem tryGetByteOrder_eq {t : IntegerType} (h : 1 < Spec.bytes P t) : tryGetByteOrder P t = P.order t := by
  cases t <;> first | rfl | (simp [Spec.bytes] at h)

/-- Words without unused bits are the same as their bytes when the order of the words is that of the bytes, or there is only one
word. -/
theorem words_as_bytes (M : Machine P word) {mem : Nat → Nat} (hm : Bytes P mem) {t : IntegerType} (hn : 1 < Spec.bytes P t)
    {o e : Endianness} (ho : P.order t = some o) {k : Nat} (hk : k = 1 ∨ e = o) (a : Nat) :
    number e (2 ^ (P.byteBits * Spec.bytes P t)) k (fun j => wordAt P word mem t (a * k + j) % 2 ^ (P.byteBits * Spec.bytes P t)) =
      number o (2 ^ P.byteBits) (k * Spec.bytes P t) (fun j => wordAt P word mem .byte (a * (k * Spec.bytes P t) + j) % 2 ^ P.byteBits) := by
  have h1 : ∀ i, wordAt P word mem t i % 2 ^ (P.byteBits * Spec.bytes P t) =
      number o (2 ^ P.byteBits) (Spec.bytes P t) (fun j => mem (i * Spec.bytes P t + j)) := by
    intro i
    unfold wordAt
    rw [M.order t _ o hn ho, Nat.mod_eq_of_lt]
    rw [Nat.pow_mul]
    exact number_lt fun j _ => hm _
  have h2 : ∀ i, wordAt P word mem .byte i % 2 ^ P.byteBits = mem i := by
    intro i
    rw [wordAt_byte M, Nat.mod_eq_of_lt (hm i)]
  have h3 : number o (2 ^ P.byteBits) (k * Spec.bytes P t) (fun j => wordAt P word mem .byte (a * (k * Spec.bytes P t) + j) % 2 ^ P.byteBits) =
      number o (2 ^ (P.byteBits * Spec.bytes P t)) k (fun j => wordAt P word mem t (a * k + j) % 2 ^ (P.byteBits * Spec.bytes P t)) := by
    rw [← number_nest, Nat.pow_mul]
    apply number_congr
    intro j _
    rw [← Nat.pow_mul, h1]
    apply number_congr
    intro i _
    rw [h2]
    congr 1
    ring
  rw [h3]
  rcases hk with rfl | rfl
  · rw [number_one, number_one]
  · rfl

theorem allBitsUsed_iff {b n : Int} : allBitsUsed P b n = true ↔ P.byteBits * n < 2 ^ P.I ∧ b = P.byteBits * n := by
  unfold allBitsUsed
  rw [decide_eq_true_iff]

/-- The outcome of a cast is not that of an invalid format, and a new format has the right type of words and the specified
properties. -/
def Good {α : Type} (wrap : α → Format) (P : Platform) (t : IntegerType) (R : α → Prop) (r : Option (Outcome α)) : Prop :=
  ∃ o, r = some o ∧ (∀ g, o = .yes g → wordType (wrap g) = t ∧ Valid P (wrap g) ∧ R g) ∧ o ≠ .invalid

theorem good_no {α : Type} {wrap : α → Format} {t : IntegerType} {R : α → Prop} : Good wrap P t R (some .no) :=
  ⟨.no, rfl, fun g h => by simp at h, by simp⟩

theorem good_yes {α : Type} {wrap : α → Format} {t : IntegerType} {R : α → Prop} {g : α} (h1 : wordType (wrap g) = t)
    (h2 : Valid P (wrap g)) (h3 : R g) : Good wrap P t R (some (.yes g)) :=
  ⟨.yes g, rfl, fun g' h => by injection h with h; subst h; exact ⟨h1, h2, h3⟩, by simp⟩

theorem castIntegerInteger_ok (M : Machine P word) (f : IntegerFormat) (t : IntegerType) (hv : Valid P (.integer f)) :
    Good .integer P t (fun g => Accessible P word (.integer f) (.integer g)) (castIntegerInteger P f t) := by
  obtain ⟨b, hb, hb2⟩ := integer_valid P f
  obtain rfl : b = true := hb2.2 hv
  obtain ⟨v1, v2, v3, v4⟩ := hv
  unfold castIntegerInteger
  rw [hb]
  simp only [Option.bind_eq_bind, Option.bind_some, Bool.not_true, Bool.false_eq_true, if_false, wordBytes_eq]
  split
  · exact good_no
  · next h1 =>
    split
    · next h2 =>
      split
      · exact good_no
      · next h3 =>
        rw [Bool.not_eq_true', Bool.not_eq_false, allBitsUsed_iff] at h3
        have hn : 1 < Spec.bytes P f.wordType := by omega
        rw [tryGetByteOrder_eq hn]
        cases ho : P.order f.wordType with
        | none => exact good_no
        | some o =>
          simp only
          split
          · exact good_no
          · next h4 =>
            have hm : f.wordsPerChannel * (Spec.bytes P f.wordType : Int) * P.byteBits = f.wordsPerChannel * f.bitsPerWord := by
              rw [h3.2]; ring
            have hbb := M.byteBits
            have hp : 0 < f.wordsPerChannel * (Spec.bytes P f.wordType : Int) := Int.mul_pos (by omega) (by omega)
            have hle : f.wordsPerChannel * (Spec.bytes P f.wordType : Int) < 2 ^ P.I := by
              have : f.wordsPerChannel * (Spec.bytes P f.wordType : Int) * 1 ≤ f.wordsPerChannel * (Spec.bytes P f.wordType : Int) * P.byteBits :=
                Int.mul_le_mul_of_nonneg_left (by omega) (by omega)
              omega
            rw [chk_eq (by omega) hle]
            have ht : t = .byte := by
              by_contra h; exact h1 ⟨h2.1, h⟩
            refine good_yes ht.symm ⟨by show (1 : Int) ≤ P.byteBits; omega, by show (1 : Int) ≤ _ * _; omega, by simp [Spec.bits], by rw [← hm] at v4; exact v4⟩
              ⟨rfl, rfl, Or.inr rfl, ?_, ?_⟩
            · intro width height
              apply le_of_eq
              simp only [Spec.size, Spec.bytes, Nat.mul_one]
              rw [Int.toNat_mul (by omega) (by omega), Int.toNat_natCast]
              ring
            · intro mem hmem width x y c _ _
              simp only [Spec.value, integerAt]
              have e1 : f.bitsPerWord.toNat = P.byteBits * Spec.bytes P f.wordType := by
                rw [h3.2, Int.toNat_mul (by omega) (by omega), Int.toNat_natCast, Int.toNat_natCast]
              rw [e1, words_as_bytes M hmem hn ho, Int.toNat_mul (by omega) (by omega), Int.toNat_natCast, Int.toNat_natCast]
              by_cases hk : f.wordsPerChannel > 1
              · right
                by_contra h; exact h4 ⟨hk, h⟩
              · left; omega
    · next h2 =>
      have key : (t = f.wordType ∨ (t = .byte ∧ Spec.bytes P f.wordType = 1)) := by
        have := M.bytes f.wordType
        by_cases h : t = f.wordType
        · exact Or.inl h
        · right
          constructor
          · by_contra h'; exact h1 ⟨h, h'⟩
          · by_contra h'; exact h2 ⟨h, by omega⟩
      have hw : ∀ mem i, wordAt P word mem t i = wordAt P word mem f.wordType i := by
        intro mem i
        rcases key with rfl | ⟨rfl, h⟩
        · rfl
        · rw [wordAt_single M mem h]
      have hbits : f.bitsPerWord ≤ Spec.bits P t := by
        rcases key with rfl | ⟨rfl, h⟩
        · exact v3
        · have := M.bits f.wordType
          rw [h, Nat.one_mul] at this
          show f.bitsPerWord ≤ (P.byteBits : Int)
          omega
      have hbytes : Spec.bytes P t = Spec.bytes P f.wordType := by
        rcases key with rfl | ⟨rfl, h⟩
        · rfl
        · rw [h]; rfl
      refine good_yes rfl ⟨v1, v2, hbits, v4⟩ ⟨rfl, rfl, ?_, ?_, ?_⟩
      · rcases key with h | h
        · exact Or.inl h
        · exact Or.inr h.1
      · intro width height
        apply le_of_eq
        simp only [Spec.size, hbytes]
      · intro mem hmem width x y c _ _
        simp only [Spec.value, integerAt, hw]

end Verif.BufferFormat
