import Verif.BufferFormat.Lemmas
import Verif.BitField.Props
namespace Verif.BufferFormat
open Spec

theorem wordBits_eq (P : Platform) (t : IntegerType) : wordBits P t = (Spec.bits P t : Int) := by cases t <;> rfl

theorem wordBytes_eq (P : Platform) (t : IntegerType) : wordBytes P t = (Spec.bytes P t : Int) := by cases t <;> rfl

theorem numChannels_eq (c : ChannelConf) : c.numChannels = channels c := by
  unfold ChannelConf.numChannels channels
  cases c.hasAlpha <;> rfl

theorem chk_eq {P : Platform} {x : Int} (h0 : 0 ≤ x) (h1 : x < 2 ^ P.I) : chk P x = some x := by
  unfold chk
  have : (0 : Int) < 2 ^ P.I := by omega
  rw [if_pos ⟨by omega, h1⟩]

theorem quot_eq {x y : Int} (hx : 0 ≤ x) (hy : 0 < y) : quot x y = some (x / y) := by
  unfold quot
  rw [if_neg (by omega), Int.tdiv_eq_ediv_of_nonneg hx]

theorem rem_eq {x y : Int} (hx : 0 ≤ x) (hy : 0 < y) : rem x y = some (x % y) := by
  unfold rem
  rw [if_neg (by omega), Int.tmod_eq_emod_of_nonneg hx]

theorem intMax_nonneg (P : Platform) : 0 ≤ intMax P := by
  unfold intMax
  have : (0 : Int) < 2 ^ P.I := by positivity
  omega

theorem le_quot {P : Platform} {x y : Int} (hy : 0 < y) : x ≤ intMax P / y ↔ x * y < 2 ^ P.I := by
  rw [Int.le_ediv_iff_mul_le hy]
  unfold intMax
  omega

theorem integer_valid (P : Platform) (f : IntegerFormat) :
    ∃ b, f.isValid P = some b ∧ (b = true ↔ Valid P (.integer f)) := by
  unfold IntegerFormat.isValid
  split
  · next h =>
    rw [quot_eq (intMax_nonneg P) h.1]
    refine ⟨_, rfl, ?_⟩
    rw [decide_eq_true_iff, le_quot h.1]
    rw [wordBits_eq] at h
    unfold Valid
    constructor
    · intro h2; exact ⟨h.1, h.2.1, h.2.2, h2⟩
    · intro h2; exact h2.2.2.2
  · next h =>
    refine ⟨false, rfl, ?_⟩
    simp only [Bool.false_eq_true, false_iff]
    intro h2
    apply h
    rw [wordBits_eq]
    exact ⟨h2.1, h2.2.1, h2.2.2.1⟩

theorem subword_valid {P : Platform} {word} (M : Machine P word) (f : SubwordFormat) (hc : 0 < channels f.conf) :
    ∃ b, f.isValid P = some b ∧ (b = true ↔ Valid P (.subword f)) := by
  unfold SubwordFormat.isValid
  simp only
  have hbits : (Spec.bits P f.wordType : Int) < 2 ^ P.I := by
    have := Nat.lt_of_le_of_lt (M.bits f.wordType) (M.int f.wordType)
    exact_mod_cast this
  rw [wordBits_eq, numChannels_eq]
  split
  · next h =>
    rw [quot_eq (intMax_nonneg P) h.1]
    simp only [Option.bind_eq_bind, Option.bind_some]
    have hd : (0 : Int) < channels f.conf * f.bitsPerChannel := Int.mul_pos (by omega) h.1
    split
    · next h2 =>
      rw [le_quot h.1] at h2
      rw [chk_eq (by omega) h2]
      simp only [Option.bind_some]
      rw [quot_eq (by omega) hd]
      refine ⟨_, rfl, ?_⟩
      rw [decide_eq_true_iff, Int.le_ediv_iff_mul_le hd]
      unfold Valid
      constructor
      · intro h3; exact ⟨h.1, h.2, h3⟩
      · intro h3; exact h3.2.2
    · next h2 =>
      rw [le_quot h.1] at h2
      refine ⟨false, rfl, ?_⟩
      simp only [Bool.false_eq_true, false_iff]
      intro h3
      have := h3.2.2
      apply h2
      have h4 : 1 * ((channels f.conf : Int) * f.bitsPerChannel) ≤ f.pixelsPerWord * (channels f.conf * f.bitsPerChannel) :=
        Int.mul_le_mul_of_nonneg_right h3.2.1 (by omega)
      omega
  · next h =>
    refine ⟨false, rfl, ?_⟩
    simp only [Bool.false_eq_true, false_iff]
    intro h2
    exact h ⟨h2.1, h2.2.1⟩

/-- The array of bit fields has eight elements, with values of type `int`. -/
def Fields (P : Platform) (l : List BitField.Field) : Prop :=
  l.length = 8 ∧ ∀ g ∈ l, Integer.Spec.Fits (Integer.intTy P.I) g.width ∧ Integer.Spec.Fits (Integer.intTy P.I) g.gap

theorem packed_valid {P : Platform} (f : PackedFormat) (hf : Fields P f.fields) :
    ∃ b, f.isValid P = some b ∧ (b = true ↔ Valid P (.packed f)) := by
  unfold PackedFormat.isValid
  rw [wordBits_eq, numChannels_eq]
  split
  · next h =>
    rw [quot_eq (intMax_nonneg P) h.1]
    simp only [Option.bind_eq_bind, Option.bind_some]
    split
    · next h2 =>
      rw [le_quot h.1] at h2
      have h3 : 0 < f.wordsPerPixel * f.bitsPerWord := Int.mul_pos h.2.1 h.1
      rw [chk_eq (by omega) h2.1]
      simp only [Option.bind_some]
      obtain ⟨b, hb, hb2⟩ := BitField.C77_valid P.I (f.fields.take (channels f.conf)) (f.wordsPerPixel * f.bitsPerWord)
        (fun g hg => hf.2 g (List.mem_of_mem_take hg)) (by
          have : (0 : Int) < 2 ^ P.I := by positivity
          simp only [Integer.Spec.Fits, Integer.intTy, if_true]
          omega)
      refine ⟨b, hb, hb2.trans ?_⟩
      unfold Valid
      constructor
      · intro h4; exact ⟨h.1, h.2.1, h.2.2, h2.1, h2.2, h4⟩
      · intro h4; exact h4.2.2.2.2.2
    · next h2 =>
      rw [le_quot h.1] at h2
      refine ⟨false, rfl, ?_⟩
      simp only [Bool.false_eq_true, false_iff]
      intro h3
      exact h2 ⟨h3.2.2.2.1, h3.2.2.2.2.1⟩
  · next h =>
    refine ⟨false, rfl, ?_⟩
    simp only [Bool.false_eq_true, false_iff]
    intro h2
    exact h ⟨h2.1, h2.2.1, h2.2.2.1⟩

end Verif.BufferFormat
