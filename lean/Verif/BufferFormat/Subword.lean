import Verif.BufferFormat.Casts
namespace Verif.BufferFormat
open Spec

variable {P : Platform} {word : IntegerType → (Nat → Nat) → Nat}

/-- Words of the first type are the same as words of the second type. -/
def Same (P : Platform) (t w : IntegerType) : Prop := t = w ∨ (t = .byte ∧ Spec.bytes P w = 1)

theorem same_of (M : Machine P word) {t w : IntegerType} (h1 : ¬(t ≠ w ∧ t ≠ .byte)) (h2 : ¬(t ≠ w ∧ (Spec.bytes P w : Int) > 1)) : Same P t w := by
  have := M.bytes w
  by_cases h : t = w
  · exact Or.inl h
  · right
    constructor
    · by_contra h'; exact h1 ⟨h, h'⟩
    · by_contra h'; exact h2 ⟨h, by omega⟩

theorem Same.wordAt (M : Machine P word) {t w : IntegerType} (h : Same P t w) (mem : Nat → Nat) (i : Nat) :
    Spec.wordAt P word mem t i = Spec.wordAt P word mem w i := by
  rcases h with rfl | ⟨rfl, h⟩
  · rfl
  · rw [wordAt_single M mem h]

theorem Same.bits (M : Machine P word) {t w : IntegerType} (h : Same P t w) : Spec.bits P w ≤ Spec.bits P t := by
  rcases h with rfl | ⟨rfl, h⟩
  · exact Nat.le_refl _
  · have := M.bits w
    rw [h, Nat.one_mul] at this
    exact this

theorem Same.bytes {t w : IntegerType} (h : Same P t w) : Spec.bytes P t = Spec.bytes P w := by
  rcases h with rfl | ⟨rfl, h⟩
  · rfl
  · rw [h]; rfl

theorem Same.or {t w : IntegerType} (h : Same P t w) : t = w ∨ t = .byte := by
  rcases h with h | h
  · exact Or.inl h
  · exact Or.inr h.1

theorem slot_one {conf : ChannelConf} (h : channels conf = 1) {c : Nat} (hc : c < channels conf) : slot conf c = 0 := by
  unfold slot
  simp only [h] at hc ⊢
  split <;> split <;> omega

theorem slot_lt {conf : ChannelConf} {c : Nat} (hc : c < channels conf) : slot conf c < channels conf := by
  unfold slot
  have : (c + 1) % channels conf < channels conf := Nat.mod_lt _ (by omega)
  simp only
  split <;> split <;> omega

/-- With one pixel per word, and one channel, the value of the channel is that of the word. -/
theorem subwordAt_one (mem : Nat → Nat) (f : SubwordFormat) (h : f.pixelsPerWord = 1) (width x y s : Nat) :
    subwordAt P word mem f width x y s =
      Spec.wordAt P word mem f.wordType (y * width + x) / (2 ^ f.bitsPerChannel.toNat) ^ (channels f.conf - 1 - s) % 2 ^ f.bitsPerChannel.toNat := by
  unfold subwordAt
  simp only [h]
  cases f.bitOrder <;> cases f.aligned <;> simp [Nat.mod_one]

theorem castIntegerSubword_ok (M : Machine P word) (f : IntegerFormat) (t : IntegerType) (hv : Valid P (.integer f))
    (hc : 0 < channels f.conf) :
    Good .subword P t (fun g => Accessible P word (.integer f) (.subword g)) (castIntegerSubword P f t) := by
  obtain ⟨b, hb, hb2⟩ := integer_valid P f
  obtain rfl : b = true := hb2.2 hv
  obtain ⟨v1, v2, v3, v4⟩ := hv
  unfold castIntegerSubword
  rw [hb]
  simp only [Option.bind_eq_bind, Option.bind_some, Bool.not_true, Bool.false_eq_true, if_false, wordBytes_eq, numChannels_eq]
  split
  · exact good_no
  · next h1 =>
    have hs : Same P t f.wordType := same_of M (fun h => h1 ⟨h.1, Or.inl h.2⟩) (fun h => h1 ⟨h.1, Or.inr h.2⟩)
    split
    · exact good_no
    · next h2 =>
      have hn : channels f.conf = 1 := by omega
      have hk : f.wordsPerChannel = 1 := by omega
      refine good_yes rfl ⟨v1, le_refl _, ?_⟩ ⟨rfl, rfl, hs.or, ?_, ?_⟩
      · have := hs.bits M
        simp only [hn]
        show (1 : Int) * (((1 : Nat) : Int) * f.bitsPerWord) ≤ Spec.bits P t
        omega
      · intro width height
        simp only [Spec.size, hs.bytes, hk, hn]
        simp
      · intro mem hmem width x y c _ hcl
        have hsl := slot_one hn hcl
        simp only [conf] at hcl
        simp only [Spec.value, subwordAt_one, integerAt, hs.wordAt M]
        simp [hn, hk, hsl, number_one]

theorem extract_even {w : Nat} : ∀ (l : List BitField.Field) {s : Nat}, (∀ g ∈ l, g.width = (w : Int) ∧ g.gap = 0) → s < l.length → ∀ v,
    BitField.Spec.extract l v s = v / (2 ^ w) ^ (l.length - 1 - s) % 2 ^ w
  | [], s, _, hs, _ => by simp at hs
  | g :: l, s, h, hs, v => by
    have ht : ∀ (l : List BitField.Field), (∀ g ∈ l, g.width = (w : Int) ∧ g.gap = 0) → BitField.Spec.total l = ((w * l.length : Nat) : Int) := by
      intro l h
      induction l with
      | nil => simp [BitField.Spec.total]
      | cons g l ih =>
        have := ih fun g hg => h g (List.mem_cons_of_mem _ hg)
        unfold BitField.Spec.total at this ⊢
        rw [List.map_cons, List.sum_cons, this, (h g (List.mem_cons_self)).1, (h g (List.mem_cons_self)).2]
        push_cast [List.length_cons]
        ring
    have hg := h (g :: l)[s] (List.getElem_mem hs)
    unfold BitField.Spec.extract BitField.Spec.shift BitField.Spec.width
    rw [List.getElem?_eq_getElem hs]
    simp only [hg.1, hg.2, Int.zero_add, Int.toNat_natCast]
    rw [ht _ fun g' hg' => h g' (List.mem_of_mem_drop hg'), Int.toNat_natCast, ← Nat.pow_mul, List.length_drop,
      show (g :: l).length - (s + 1) = (g :: l).length - 1 - s by omega]

theorem castPackedSubword_ok (M : Machine P word) (f : PackedFormat) (t : IntegerType) (hf : Fields P f.fields) (hv : Valid P (.packed f))
    (hc : 0 < channels f.conf) :
    Good .subword P t (fun g => Accessible P word (.packed f) (.subword g)) (castPackedSubword P f t) := by
  obtain ⟨b, hb, hb2⟩ := packed_valid f hf
  obtain rfl : b = true := hb2.2 hv
  obtain ⟨v1, v2, v3, v4, v5, v6⟩ := hv
  unfold castPackedSubword
  rw [hb]
  simp only [Option.bind_eq_bind, Option.bind_some, Bool.not_true, Bool.false_eq_true, if_false, wordBytes_eq, numChannels_eq]
  split
  · exact good_no
  · next h1 =>
    have hs : Same P t f.wordType := same_of M (fun h => h1 ⟨h.1, Or.inl h.2⟩) (fun h => h1 ⟨h.1, Or.inr h.2⟩)
    split
    · exact good_no
    · next h2 =>
      have hk : f.wordsPerPixel = 1 := by omega
      have hlen : (f.fields.take (channels f.conf)).length = channels f.conf := by
        rw [List.length_take, hf.1]; omega
      cases hl : f.fields.take (channels f.conf) with
      | nil => rw [hl] at hlen; simp at hlen; omega
      | cons field fields =>
        simp only
        split
        · exact good_no
        · next h3 =>
          have hall : ∀ g ∈ field :: fields, g.width = field.width ∧ g.gap = 0 := by
            intro g hg
            by_contra h
            apply h3
            rw [List.any_eq_true]
            refine ⟨g, hg, ?_⟩
            rw [decide_eq_true_iff]
            by_cases hw : g.width = field.width
            · exact Or.inr fun h' => h ⟨hw, h'⟩
            · exact Or.inl hw
          rw [hl] at hlen v6
          have hw1 := (v6.1 field List.mem_cons_self).1
          obtain ⟨w, hw⟩ : ∃ w : Nat, field.width = w := ⟨field.width.toNat, by omega⟩
          have htot : BitField.Spec.total (field :: fields) = ((channels f.conf * w : Nat) : Int) := by
            have ht : ∀ (l : List BitField.Field), (∀ g ∈ l, g.width = (w : Int) ∧ g.gap = 0) → BitField.Spec.total l = ((w * l.length : Nat) : Int) := by
              intro l h
              induction l with
              | nil => simp [BitField.Spec.total]
              | cons g l ih =>
                have := ih fun g hg => h g (List.mem_cons_of_mem _ hg)
                unfold BitField.Spec.total at this ⊢
                rw [List.map_cons, List.sum_cons, this, (h g (List.mem_cons_self)).1, (h g (List.mem_cons_self)).2]
                push_cast [List.length_cons]
                ring
            rw [ht _ (by rw [hw] at hall; exact hall), hlen, Nat.mul_comm]
          have hle := v6.2
          rw [htot, hk, Int.one_mul] at hle
          have hbits := hs.bits M
          refine good_yes rfl ⟨hw1, le_refl _, ?_⟩ ⟨rfl, rfl, hs.or, ?_, ?_⟩
          · simp only [hw]
            rw [Int.one_mul]
            push_cast at hle
            omega
          · intro width height
            simp only [Spec.size, hs.bytes, hk]
            simp
          · intro mem hmem width x y c _ hcl
            simp only [conf] at hcl
            have hsl := slot_lt hcl
            simp only [Spec.value, subwordAt_one, packedAt, hs.wordAt M, hl, hw, Int.toNat_natCast]
            rw [extract_even (w := w) _ (by rw [hw] at hall; exact hall) (by rw [hlen]; exact hsl), hlen]
            simp only [compoundAt, hk]
            rw [show Int.toNat 1 = 1 from rfl, number_one, Nat.mul_one, Nat.add_zero]
            obtain ⟨b, hb⟩ : ∃ b : Nat, f.bitsPerWord = b := ⟨f.bitsPerWord.toNat, by omega⟩
            rw [hb, Int.toNat_natCast]
            have : channels f.conf * w ≤ b := by omega
            have h4 : w * (channels f.conf - 1 - slot f.conf c) + w ≤ b := by
              calc w * (channels f.conf - 1 - slot f.conf c) + w = w * (channels f.conf - 1 - slot f.conf c + 1) := by ring
                _ ≤ w * channels f.conf := Nat.mul_le_mul_left _ (by omega)
                _ ≤ b := by rw [Nat.mul_comm]; exact this
            rw [← Nat.pow_mul]
            generalize w * (channels f.conf - 1 - slot f.conf c) = q at h4
            generalize Spec.wordAt P word mem f.wordType (y * width + x) = v
            obtain ⟨d, rfl⟩ : ∃ d, b = q + w + d := ⟨b - (q + w), by omega⟩
            rw [show q + w + d = q + (w + d) by omega, Nat.pow_add 2 q, ← Nat.mod_mul_right_div_self, ← Nat.mod_mul_right_div_self,
              ← Nat.pow_add, ← Nat.pow_add, Nat.mod_mod_of_dvd _ (Nat.pow_dvd_pow 2 (by omega))]

end Verif.BufferFormat
