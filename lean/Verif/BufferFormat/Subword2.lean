import Verif.BufferFormat.Subword
namespace Verif.BufferFormat
open Spec

variable {P : Platform} {word : IntegerType → (Nat → Nat) → Nat}

theorem sub_digit (v b : Nat) {k l : Nat} (h : l < k) : v / b ^ l % b = v % b ^ k / b ^ l % b := by
  rw [← Nat.mod_mul_right_div_self, ← Nat.mod_mul_right_div_self, ← Nat.pow_succ, Nat.mod_mod_of_dvd _ (Nat.pow_dvd_pow b h)]

theorem place_split {e : Endianness} {n k i l : Nat} (hi : i < n) (hl : l < k) :
    place e (n * k) (i * k + l) = k * place e n i + place e k l := by
  cases e with
  | big =>
    simp only [place]
    obtain ⟨d, rfl⟩ : ∃ d, n = i + 1 + d := ⟨n - (i + 1), by omega⟩
    obtain ⟨m, rfl⟩ : ∃ m, k = l + 1 + m := ⟨k - (l + 1), by omega⟩
    rw [show i + 1 + d - 1 - i = d by omega, show l + 1 + m - 1 - l = m by omega]
    have : (i + 1 + d) * (l + 1 + m) = i * (l + 1 + m) + l + ((l + 1 + m) * d + m) + 1 := by ring
    omega
  | little => simp only [place]; ring

theorem place_lt {e : Endianness} {k l : Nat} (h : l < k) : place e k l < k := by
  cases e <;> simp only [place] <;> omega

theorem subwordAt_eq (mem : Nat → Nat) (f : SubwordFormat) {width x y s : Nat} (ha : f.aligned = false) (hs : s < channels f.conf) :
    subwordAt P word mem f width x y s =
      Spec.wordAt P word mem f.wordType ((y * width + x) / f.pixelsPerWord.toNat) /
          ((2 ^ f.bitsPerChannel.toNat) ^ channels f.conf) ^ place f.bitOrder f.pixelsPerWord.toNat ((y * width + x) % f.pixelsPerWord.toNat) %
        (2 ^ f.bitsPerChannel.toNat) ^ channels f.conf / (2 ^ f.bitsPerChannel.toNat) ^ (channels f.conf - 1 - s) % 2 ^ f.bitsPerChannel.toNat := by
  rw [← sub_digit _ _ (by omega), ← Nat.pow_mul, Nat.div_div_eq_div_mul, ← Nat.pow_add, Nat.mul_comm (channels f.conf)]
  unfold subwordAt
  simp only [ha, Bool.false_eq_true, if_false]
  cases f.bitOrder <;> rfl

theorem castSubwordSubword_ok (M : Machine P word) (f : SubwordFormat) (t : IntegerType) (hv : Valid P (.subword f))
    (hc : 0 < channels f.conf) :
    Good .subword P t (fun g => Accessible P word (.subword f) (.subword g)) (castSubwordSubword P f t) := by
  obtain ⟨b, hb, hb2⟩ := subword_valid M f hc
  obtain rfl : b = true := hb2.2 hv
  obtain ⟨v1, v2, v3⟩ := hv
  have hbits : (Spec.bits P f.wordType : Int) < 2 ^ P.I := by
    have := Nat.lt_of_le_of_lt (M.bits f.wordType) (M.int f.wordType)
    exact_mod_cast this
  unfold castSubwordSubword
  rw [hb]
  simp only [Option.bind_eq_bind, Option.bind_some, Bool.not_true, Bool.false_eq_true, if_false, wordBytes_eq, numChannels_eq]
  split
  · exact good_no
  · next h1 =>
    split
    · next h2 =>
      have hn : 1 < Spec.bytes P f.wordType := by omega
      have hcb : 0 < f.bitsPerChannel * (channels f.conf : Int) := Int.mul_pos (by omega) (by omega)
      have hall : f.bitsPerChannel * (channels f.conf : Int) * f.pixelsPerWord ≤ Spec.bits P f.wordType := by
        rw [show f.bitsPerChannel * (channels f.conf : Int) * f.pixelsPerWord = f.pixelsPerWord * (channels f.conf * f.bitsPerChannel) by ring]
        exact v3
      have hle : f.bitsPerChannel * (channels f.conf : Int) * 1 ≤ f.bitsPerChannel * (channels f.conf : Int) * f.pixelsPerWord :=
        Int.mul_le_mul_of_nonneg_left v2 (by omega)
      rw [chk_eq (by omega) (by omega)]
      simp only [Option.bind_some]
      rw [chk_eq (by omega) (by omega)]
      simp only [Option.bind_some]
      split
      · exact good_no
      · next h3 =>
        rw [Bool.not_eq_true', Bool.not_eq_false, allBitsUsed_iff] at h3
        rw [quot_eq (by omega) (by omega), rem_eq (by omega) (by omega)]
        simp only [Option.bind_some]
        split
        · exact good_no
        · next h4 =>
          rw [tryGetByteOrder_eq hn]
          cases ho : P.order f.wordType with
          | none => exact good_no
          | some o =>
            simp only
            split
            · exact good_no
            · next h5 =>
              have ht : t = .byte := by by_contra h; exact h1 ⟨h2.1, h⟩
              obtain rfl : o = f.bitOrder := by by_contra h; exact h5 (Or.inl h)
              have ha : f.aligned = false := by
                cases h : f.aligned
                · rfl
                · exact absurd (Or.inr h) h5
              obtain ⟨k, hk⟩ : ∃ k : Nat, f.pixelsPerWord = ((Spec.bytes P f.wordType * k : Nat) : Int) := by
                refine ⟨(f.pixelsPerWord / Spec.bytes P f.wordType).toNat, ?_⟩
                have h6 : 0 ≤ f.pixelsPerWord / (Spec.bytes P f.wordType : Int) := Int.ediv_nonneg (by omega) (by omega)
                rw [Nat.cast_mul, Int.toNat_of_nonneg h6]
                have := Int.mul_ediv_add_emod f.pixelsPerWord (Spec.bytes P f.wordType)
                have h7 : f.pixelsPerWord % (Spec.bytes P f.wordType : Int) = 0 := by
                  by_contra h; exact h4 h
                omega
              have hq : f.pixelsPerWord / (Spec.bytes P f.wordType : Int) = k := by
                rw [hk]; push_cast
                exact Int.mul_ediv_cancel_left _ (by omega)
              have hk0 : 0 < k := by
                rcases Nat.eq_zero_or_pos k with h | h
                · rw [h] at hk; simp at hk; omega
                · exact h
              rw [hq]
              obtain ⟨m, hm⟩ : ∃ m : Nat, f.bitsPerChannel = m := ⟨f.bitsPerChannel.toNat, by omega⟩
              have hmm : m * channels f.conf * k = P.byteBits := by
                have h6 := h3.2
                rw [hm, hk] at h6
                have h7 : m * channels f.conf * (Spec.bytes P f.wordType * k) = P.byteBits * Spec.bytes P f.wordType := by exact_mod_cast h6
                have h8 : Spec.bytes P f.wordType * (m * channels f.conf * k) = Spec.bytes P f.wordType * P.byteBits := by
                  rw [Nat.mul_comm _ P.byteBits, ← h7]; ring
                exact Nat.eq_of_mul_eq_mul_left (by omega) h8
              refine good_yes ht.symm ⟨v1, by show (1 : Int) ≤ k; omega, ?_⟩ ⟨rfl, rfl, Or.inr rfl, ?_, ?_⟩
              · show (k : Int) * (channels f.conf * f.bitsPerChannel) ≤ (P.byteBits : Int)
                rw [hm, ← hmm]
                push_cast
                apply le_of_eq
                ring
              · intro width height
                simp only [Spec.size, ha, Bool.false_eq_true, if_false, show Spec.bytes P .byte = 1 from rfl, Nat.mul_one, Int.toNat_natCast, hk]
                generalize width * height = a
                generalize hN : (a + (Spec.bytes P f.wordType * k - 1)) / (Spec.bytes P f.wordType * k) = c
                have hpos : 0 < Spec.bytes P f.wordType * k := Nat.mul_pos (by omega) hk0
                have h6 : a + (Spec.bytes P f.wordType * k - 1) < (c + 1) * (Spec.bytes P f.wordType * k) := by
                  rw [← hN]; exact Nat.lt_mul_of_div_lt (Nat.lt_succ_self _) hpos
                rw [Nat.add_mul, Nat.one_mul] at h6
                have h7 : a ≤ c * (Spec.bytes P f.wordType * k) := by omega
                apply Nat.le_of_lt_succ
                rw [Nat.div_lt_iff_lt_mul hk0, Nat.succ_mul]
                have h8 : c * Spec.bytes P f.wordType * k = c * (Spec.bytes P f.wordType * k) := by ring
                omega
              · intro mem hmem width x y c _ hcl
                simp only [conf] at hcl
                have hsl := slot_lt hcl
                simp only [Spec.value]
                rw [subwordAt_eq mem ⟨.byte, f.bitsPerChannel, k, f.bitOrder, f.aligned, f.conf⟩ ha hsl, subwordAt_eq mem f ha hsl]
                simp only [Int.toNat_natCast, hk, hm]
                congr 2
                generalize y * width + x = p
                generalize hn' : Spec.bytes P f.wordType = n at *
                have hpk : p % (n * k) = p / k % n * k + p % k := by
                  rw [Nat.mul_comm n k, Nat.mod_mul, Nat.add_comm, Nat.mul_comm k]
                have hl : p % k < k := Nat.mod_lt _ hk0
                have hi : p / k % n < n := Nat.mod_lt _ (by omega)
                have hB : (2 ^ m) ^ channels f.conf = 2 ^ (m * channels f.conf) := (Nat.pow_mul _ _ _).symm
                rw [hpk, place_split hi hl, Nat.pow_add, Nat.pow_mul ((2 ^ m) ^ channels f.conf) k, ← Nat.div_div_eq_div_mul,
                  sub_digit (Spec.wordAt P word mem f.wordType (p / (n * k)) / _) _ (place_lt hl)]
                have hw : Spec.wordAt P word mem f.wordType (p / (n * k)) = number f.bitOrder (2 ^ P.byteBits) n (fun j => mem (p / (n * k) * n + j)) := by
                  unfold Spec.wordAt
                  rw [M.order f.wordType _ f.bitOrder (by omega) ho, hn']
                have hBk : ((2 ^ m) ^ channels f.conf) ^ k = 2 ^ P.byteBits := by rw [hB, ← Nat.pow_mul, hmm]
                rw [hw, hBk, number_digit (fun i _ => hmem _) hi, wordAt_byte M]
                have h9 : p / k = p / (n * k) * n + p / k % n := by
                  rw [Nat.mul_comm n k, ← Nat.div_div_eq_div_mul, Nat.mul_comm]
                  exact (Nat.div_add_mod (p / k) n).symm
                rw [← h9]
    · next h2 =>
      have hs : Same P t f.wordType := same_of M h1 h2
      have := hs.bits M
      refine good_yes rfl ⟨v1, v2, ?_⟩ ⟨rfl, rfl, hs.or, ?_, ?_⟩
      · show f.pixelsPerWord * (channels f.conf * f.bitsPerChannel) ≤ (Spec.bits P t : Int)
        omega
      · intro width height
        apply le_of_eq
        simp only [Spec.size, hs.bytes]
      · intro mem hmem width x y c _ _
        simp only [Spec.value, subwordAt, hs.wordAt M]

/-- A cast to an integer format, where there is a number of words per channel rather than a number of channels per word, is right
if there is only one channel per word. Otherwise, with the new format, more memory is accessed than there is. -/
theorem castSubwordInteger_ok (M : Machine P word) (f : SubwordFormat) (t : IntegerType) (hv : Valid P (.subword f))
    (hc : 0 < channels f.conf) :
    Good .integer P t (fun g => (channels f.conf = 1 → f.pixelsPerWord = 1 → Accessible P word (.subword f) (.integer g)) ∧
      (¬(channels f.conf = 1 ∧ f.pixelsPerWord = 1) → ∀ width height, 1 < width * height → f.aligned = false ∨ f.pixelsPerWord = 1 →
        Spec.size P width height (.subword f) < Spec.size P width height (.integer g)) ∧
      (f.aligned = true → f.pixelsPerWord > 1 → False)) (castSubwordInteger P f t) := by
  obtain ⟨b, hb, hb2⟩ := subword_valid M f hc
  obtain rfl : b = true := hb2.2 hv
  obtain ⟨v1, v2, v3⟩ := hv
  have hbits : (Spec.bits P f.wordType : Int) < 2 ^ P.I := by
    have := Nat.lt_of_le_of_lt (M.bits f.wordType) (M.int f.wordType)
    exact_mod_cast this
  unfold castSubwordInteger
  rw [hb]
  simp only [Option.bind_eq_bind, Option.bind_some, Bool.not_true, Bool.false_eq_true, if_false, wordBytes_eq, numChannels_eq]
  split
  · exact good_no
  · next h1 =>
    split
    · next h2 =>
      have hn : 1 < Spec.bytes P f.wordType := by omega
      have hcb : 0 < f.bitsPerChannel * (channels f.conf : Int) := Int.mul_pos (by omega) (by omega)
      have hall : f.bitsPerChannel * (channels f.conf : Int) * f.pixelsPerWord ≤ Spec.bits P f.wordType := by
        rw [show f.bitsPerChannel * (channels f.conf : Int) * f.pixelsPerWord = f.pixelsPerWord * (channels f.conf * f.bitsPerChannel) by ring]
        exact v3
      have hle : f.bitsPerChannel * (channels f.conf : Int) * 1 ≤ f.bitsPerChannel * (channels f.conf : Int) * f.pixelsPerWord :=
        Int.mul_le_mul_of_nonneg_left v2 (by omega)
      have hbb := M.byteBits
      rw [chk_eq (by omega) (by omega)]
      simp only [Option.bind_some]
      rw [chk_eq (by omega) (by omega)]
      simp only [Option.bind_some]
      split
      · exact good_no
      · next h3 =>
        rw [Bool.not_eq_true', Bool.not_eq_false, allBitsUsed_iff] at h3
        rw [rem_eq (by omega) (by omega)]
        simp only [Option.bind_some]
        split
        · exact good_no
        · next h4 =>
          rw [tryGetByteOrder_eq hn]
          cases ho : P.order f.wordType with
          | none => exact good_no
          | some o =>
            simp only
            split
            · exact good_no
            · next h5 =>
              have ht : t = .byte := by by_contra h; exact h1 ⟨h2.1, h⟩
              have hch : channels (if o = .little then f.conf.reversed else f.conf) = channels f.conf := by split <;> rfl
              refine good_yes rfl ⟨by show (1 : Int) ≤ P.byteBits; omega, by show (1 : Int) ≤ Spec.bytes P f.wordType; omega, ?_, ?_⟩ ⟨?_, ?_, ?_⟩
              · rw [ht]; simp [Spec.bits]
              · show (Spec.bytes P f.wordType : Int) * P.byteBits < 2 ^ P.I
                have := M.int f.wordType
                exact_mod_cast this
              · intro hc1 hp1
                refine ⟨by simp only [conf]; split <;> rfl, by simp only [conf]; split <;> rfl, Or.inr ht, ?_, ?_⟩
                · intro width height
                  simp only [Spec.size, hch, hc1, hp1, ht, Int.toNat_natCast, show Spec.bytes P .byte = 1 from rfl]
                  cases f.aligned <;> simp [Nat.mul_comm]
                · intro mem hmem width x y c _ hcl
                  simp only [conf] at hcl
                  simp only [Spec.value]
                  rw [subwordAt_one _ _ hp1, slot_one hc1 hcl, slot_one (hch.trans hc1) (hch ▸ hcl)]
                  have e1 : f.bitsPerChannel.toNat = P.byteBits * Spec.bytes P f.wordType := by
                    have := h3.2
                    rw [hc1, hp1] at this
                    rw [show f.bitsPerChannel = P.byteBits * (Spec.bytes P f.wordType : Int) by simpa using this,
                      Int.toNat_mul (by omega) (by omega), Int.toNat_natCast, Int.toNat_natCast]
                  have := words_as_bytes M hmem hn ho (e := o) (k := 1) (Or.inl rfl) (y * width + x)
                  rw [number_one, Nat.one_mul, Nat.mul_one, Nat.add_zero] at this
                  simp only [integerAt, e1, hc1, hch, Int.toNat_natCast, Nat.sub_self, Nat.pow_zero, Nat.div_one, this, ht,
                    Nat.mul_one, Nat.add_zero]
              · intro hne width height hwh hal
                have hbt : Spec.bytes P t = 1 := by rw [ht]; rfl
                simp only [Spec.size, hch, hbt, Int.toNat_natCast, Nat.mul_one]
                apply Nat.mul_lt_mul_of_pos_right _ (by omega)
                obtain ⟨k, hk⟩ : ∃ k : Nat, f.pixelsPerWord = k := ⟨f.pixelsPerWord.toNat, by omega⟩
                rw [hk, Int.toNat_natCast]
                have hk0 : 0 < k := by omega
                have hceil : (if f.aligned then height * ((width + (k - 1)) / k) else (width * height + (k - 1)) / k) = (width * height + (k - 1)) / k := by
                  rcases hal with hal | hal
                  · simp [hal]
                  · have : k = 1 := by omega
                    subst this
                    simp [Nat.mul_comm]
                rw [hceil, Nat.div_lt_iff_lt_mul hk0]
                by_cases hc1 : channels f.conf = 1
                · have hk1 : 2 ≤ k := by
                    by_contra h; exact hne ⟨hc1, by omega⟩
                  rw [hc1, Nat.mul_one]
                  generalize width * height = a at hwh
                  obtain ⟨d, rfl⟩ : ∃ d, k = d + 2 := ⟨k - 2, by omega⟩
                  obtain ⟨c, rfl⟩ : ∃ c, a = c + 2 := ⟨a - 2, by omega⟩
                  have : (c + 2) * (d + 2) = c * d + 2 * c + 2 * d + 4 := by ring
                  have := Nat.zero_le (c * d)
                  omega
                · obtain ⟨d, hd⟩ : ∃ d, channels f.conf = d + 2 := ⟨channels f.conf - 2, by omega⟩
                  rw [hd]
                  generalize width * height = a at hwh
                  obtain ⟨l, rfl⟩ : ∃ l, k = l + 1 := ⟨k - 1, by omega⟩
                  obtain ⟨c, rfl⟩ : ∃ c, a = c + 2 := ⟨a - 2, by omega⟩
                  have : (c + 2) * (d + 2) * (l + 1) = c * d * l + c * d + 2 * c * l + 2 * c + 2 * d * l + 2 * d + 4 * l + 4 := by ring
                  have h10 := Nat.zero_le (c * d * l + c * d + 2 * c * l + 2 * d * l)
                  omega
              · intro ha hp
                exact h5 ⟨hp, Or.inr ha⟩
    · next h2 =>
      have hs : Same P t f.wordType := same_of M h1 h2
      have hbs := hs.bits M
      split
      · exact good_no
      · next h3 =>
        have hc1 : channels f.conf = 1 := by omega
        have hp1 : f.pixelsPerWord = 1 := by omega
        have hM : f.bitsPerChannel ≤ Spec.bits P f.wordType := by
          rw [hc1, hp1] at v3
          simpa using v3
        refine good_yes rfl ⟨v1, le_refl _, by show f.bitsPerChannel ≤ (Spec.bits P t : Int); omega, by
          show (1 : Int) * f.bitsPerChannel < 2 ^ P.I; omega⟩ ⟨fun _ _ => ⟨rfl, rfl, hs.or, ?_, ?_⟩, fun h => absurd ⟨hc1, hp1⟩ h,
            fun _ h => by omega⟩
        · intro width height
          simp only [Spec.size, hs.bytes, hc1, hp1]
          cases f.aligned <;> simp [Nat.mul_comm]
        · intro mem hmem width x y c _ hcl
          simp only [conf] at hcl
          simp only [Spec.value]
          rw [subwordAt_one _ _ hp1, slot_one hc1 hcl]
          simp [integerAt, hc1, number_one, hs.wordAt M]

end Verif.BufferFormat
