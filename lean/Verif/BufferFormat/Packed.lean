import Verif.BufferFormat.Subword2
namespace Verif.BufferFormat
open Spec

variable {P : Platform} {word : IntegerType → (Nat → Nat) → Nat}

theorem total_cons (g : BitField.Field) (l : List BitField.Field) :
    BitField.Spec.total (g :: l) = g.width + g.gap + BitField.Spec.total l := by
  simp [BitField.Spec.total]

theorem total_nonneg : ∀ {l : List BitField.Field}, (∀ g ∈ l, 1 ≤ g.width ∧ 0 ≤ g.gap) → 0 ≤ BitField.Spec.total l
  | [], _ => by simp [BitField.Spec.total]
  | g :: l, h => by
    have h1 := h g List.mem_cons_self
    have h2 := total_nonneg fun g' hg => h g' (List.mem_cons_of_mem _ hg)
    rw [total_cons]
    omega

theorem evenlySpaced_ok {part : Int} : ∀ {l : List BitField.Field} {gap : Int}, (∀ g ∈ l, 1 ≤ g.width ∧ 0 ≤ g.gap) → 0 ≤ gap →
    gap + BitField.Spec.total l < 2 ^ P.I → ∃ b, evenlySpaced P part l gap = some b ∧
      (b = true → gap + BitField.Spec.total l = part * l.length ∧
        ∀ s g, l[s]? = some g → g.gap + BitField.Spec.total (l.drop (s + 1)) = part * ((l.length - 1 - s : Nat) : Int))
  | [], gap, _, _, _ => by
    refine ⟨_, rfl, fun h => ⟨?_, fun s g h => by simp at h⟩⟩
    rw [decide_eq_true_iff] at h
    simp [h, BitField.Spec.total]
  | f :: l, gap, h, h0, h1 => by
    have h2 := h f List.mem_cons_self
    have h3 : ∀ g ∈ l, 1 ≤ g.width ∧ 0 ≤ g.gap := fun g' hg => h g' (List.mem_cons_of_mem _ hg)
    have h4 := total_nonneg h3
    rw [total_cons] at h1
    unfold evenlySpaced
    rw [chk_eq (by omega) (by omega)]
    simp only [Option.bind_eq_bind, Option.bind_some]
    split
    · exact ⟨false, rfl, fun h => by simp at h⟩
    · next h5 =>
      obtain ⟨b, hb, hb2⟩ := evenlySpaced_ok (part := part) h3 h2.2 (by omega)
      refine ⟨b, hb, fun h6 => ?_⟩
      obtain ⟨h7, h8⟩ := hb2 h6
      refine ⟨?_, ?_⟩
      · rw [total_cons, List.length_cons]
        push_cast
        rw [Int.mul_add, Int.mul_one]
        omega
      · intro s g hg
        cases s with
        | zero =>
          simp at hg
          subst hg
          simpa using h7
        | succ s =>
          simp at hg
          have := h8 s g hg
          rw [List.drop_succ_cons, this]
          congr 2
          simp only [List.length_cons]
          omega

/-- The block of words, counting from the start of the pixel, that holds slot `s`. -/
def blk (e : Endianness) (n s : Nat) : Nat :=
  match e with
  | .big => s
  | .little => n - 1 - s

theorem place_blk {e : Endianness} {n s : Nat} (h : s < n) : place e n (blk e n s) = n - 1 - s := by
  cases e <;> simp only [place, blk]

theorem blk_lt {e : Endianness} {n s : Nat} (h : s < n) : blk e n s < n := by
  cases e <;> simp only [blk] <;> omega

theorem slot_reversed (conf : ChannelConf) {c : Nat} (hc : c < channels conf) : slot conf.reversed c = channels conf - 1 - slot conf c := by
  have := slot_lt hc
  have h1 : channels conf.reversed = channels conf := rfl
  unfold slot ChannelConf.reversed at *
  have h3 : (c + 1) % channels conf < channels conf := Nat.mod_lt _ (by omega)
  have h2 : channels { conf with reverse := !conf.reverse } = channels conf := rfl
  rw [h2]
  simp only
  cases conf.reverse <;> simp <;> split <;> omega

/-- What the value in a slot is when the parts of the bit compound are evenly spaced. -/
theorem packedAt_eq (mem : Nat → Nat) (f : PackedFormat) {k b w p s : Nat} (hb : f.bitsPerWord = b) (hk : f.wordsPerPixel = ((channels f.conf * k : Nat) : Int))
    (hs : s < channels f.conf) {g : BitField.Field} (hg : (f.fields.take (channels f.conf))[s]? = some g) (hw : g.width = w) (hwb : w ≤ k * b)
    (hsh : g.gap + BitField.Spec.total ((f.fields.take (channels f.conf)).drop (s + 1)) = ((k * b : Nat) : Int) * ((channels f.conf - 1 - s : Nat) : Int)) :
    packedAt P word mem f p s =
      number f.wordOrder (2 ^ b) k (fun j => wordAt P word mem f.wordType ((p * channels f.conf + blk f.wordOrder (channels f.conf) s) * k + j) % 2 ^ b) % 2 ^ w := by
  unfold packedAt compoundAt BitField.Spec.extract BitField.Spec.shift BitField.Spec.width
  rw [hg]
  simp only [hw, hb, hk, Int.toNat_natCast, hsh]
  have := number_block (e := f.wordOrder) (b := 2 ^ b) (m := channels f.conf) (n := k)
    (f := fun j => wordAt P word mem f.wordType (p * (channels f.conf * k) + j) % 2 ^ b) (fun i => Nat.mod_lt _ (by positivity)) (blk_lt (e := f.wordOrder) hs)
  rw [place_blk hs] at this
  have e1 : (((k * b : Nat) : Int) * ((channels f.conf - 1 - s : Nat) : Int)).toNat = b * (k * (channels f.conf - 1 - s)) := by
    rw [← Nat.cast_mul, Int.toNat_natCast]; ring
  rw [e1, Nat.pow_mul]
  have hd : 2 ^ w ∣ (2 ^ b) ^ k := by
    rw [← Nat.pow_mul]; exact Nat.pow_dvd_pow 2 (by rw [Nat.mul_comm]; exact hwb)
  rw [← Nat.mod_mod_of_dvd (_ / _) hd, this]
  congr 1
  apply number_congr
  intro j _
  rw [show p * (channels f.conf * k) + (blk f.wordOrder (channels f.conf) s * k + j) =
    (p * channels f.conf + blk f.wordOrder (channels f.conf) s) * k + j by ring]

/-- The last part of the cast. -/
theorem castPackedFinish_ok (f : PackedFormat) (t : IntegerType) {b k : Nat} (hc : 0 < channels f.conf)
    (hlen : (f.fields.take (channels f.conf)).length = channels f.conf)
    (hb : f.bitsPerWord = b) (hk : f.wordsPerPixel = ((channels f.conf * k : Nat) : Int))
    (hsh : ∀ s g, (f.fields.take (channels f.conf))[s]? = some g →
      g.gap + BitField.Spec.total ((f.fields.take (channels f.conf)).drop (s + 1)) = ((k * b : Nat) : Int) * ((channels f.conf - 1 - s : Nat) : Int))
    {bits words : Nat} (order : Endianness) (hb1 : 0 < bits) (hw1 : 0 < words) (hbt : bits ≤ Spec.bits P t) (hch : words * bits < 2 ^ P.I)
    (hle : words * bits ≤ k * b) (ht : t = f.wordType ∨ t = .byte) (hsz : words * Spec.bytes P t = k * Spec.bytes P f.wordType)
    (hval : ∀ mem, Bytes P mem → ∀ a, number order (2 ^ bits) words (fun j => wordAt P word mem t (a * words + j) % 2 ^ bits) =
      number f.wordOrder (2 ^ b) k (fun j => wordAt P word mem f.wordType (a * k + j) % 2 ^ b) % 2 ^ (words * bits)) :
    Good .integer P t (fun g => (g.wordOrder ≠ f.wordOrder ∨ channels f.conf = 1 → Accessible P word (.packed f) (.integer g)) ∧
      (g.wordOrder = f.wordOrder → Accessible P word (.packed (opposite f)) (.integer g))) (castPackedFinish P f t bits words order) := by
  unfold castPackedFinish
  rw [chk_eq (by positivity) (by exact_mod_cast hch)]
  simp only [Option.bind_eq_bind, Option.bind_some, numChannels_eq]
  split
  · exact good_no
  · next h1 =>
    have hwid : ∀ g ∈ f.fields.take (channels f.conf), g.width = ((words * bits : Nat) : Int) := by
      intro g hg
      by_contra h
      apply h1
      rw [List.any_eq_true]
      refine ⟨g, hg, ?_⟩
      rw [decide_eq_true_iff]
      push_cast at h
      exact h
    have hconf : channels (if order = .big then f.conf.reversed else f.conf) = channels f.conf := by split <;> rfl
    have hslot : ∀ c < channels f.conf, slot (if order = .big then f.conf.reversed else f.conf) c =
        if order = .big then channels f.conf - 1 - slot f.conf c else slot f.conf c := by
      intro c hc
      split
      · rw [slot_reversed _ hc]
      · rfl
    have hpa : ∀ mem, Bytes P mem → ∀ p s, s < channels f.conf → packedAt P word mem f p s =
        integerAt P word mem ⟨t, bits, words, order, if order = .big then f.conf.reversed else f.conf⟩ p (blk f.wordOrder (channels f.conf) s) := by
      intro mem hm p s hs
      have hg := List.getElem?_eq_getElem (l := f.fields.take (channels f.conf)) (i := s) (by rw [hlen]; exact hs)
      rw [packedAt_eq mem f hb hk hs hg (hwid _ (List.getElem_mem _)) hle (hsh _ _ hg), ← hval mem hm]
      simp only [integerAt, hconf, Int.toNat_natCast]
    have hsize : ∀ width height, Spec.size P width height (.integer ⟨t, bits, words, order, if order = .big then f.conf.reversed else f.conf⟩) ≤
        width * height * f.wordsPerPixel.toNat * Spec.bytes P f.wordType := by
      intro width height
      simp only [Spec.size, hconf, Int.toNat_natCast, hk]
      rw [Nat.mul_assoc _ words, hsz]
      apply le_of_eq
      ring
    refine good_yes rfl ⟨by show (1 : Int) ≤ bits; omega, by show (1 : Int) ≤ words; omega, by show (bits : Int) ≤ Spec.bits P t; omega, by
      show (words : Int) * bits < 2 ^ P.I; exact_mod_cast hch⟩ ⟨fun hne => ?_, fun heq => ?_⟩
    · refine ⟨by simp only [conf]; split <;> rfl, by simp only [conf]; split <;> rfl, ht, hsize, ?_⟩
      intro mem hm width x y c _ hcl
      simp only [conf] at hcl
      simp only [Spec.value]
      have hsl := slot_lt hcl
      rw [hpa mem hm _ _ hsl, hslot c hcl]
      congr 1
      rcases hne with hne | hne
      · simp only at hne
        generalize f.wordOrder = w at hne
        cases order <;> cases w <;> first | rfl | exact absurd rfl hne
      · generalize f.wordOrder = w
        cases w <;> simp only [blk] <;> split <;> omega
    · refine ⟨by simp only [conf]; split <;> rfl, by simp only [conf]; split <;> rfl, ht, hsize, ?_⟩
      intro mem hm width x y c _ hcl
      have hcl' : c < channels f.conf := hcl
      simp only [Spec.value]
      have hsl := slot_lt hcl'
      have e1 : packedAt P word mem (opposite f) (y * width + x) (slot (opposite f).conf c) =
          packedAt P word mem f (y * width + x) (channels f.conf - 1 - slot f.conf c) := by
        rw [show (opposite f).conf = f.conf.reversed from rfl, slot_reversed _ hcl']
        rfl
      rw [e1, hpa mem hm _ _ (by omega), hslot c hcl']
      congr 1
      simp only at heq
      subst heq
      generalize f.wordOrder = w
      cases w
      · rw [if_pos rfl]; rfl
      · rw [if_neg (by decide)]; simp only [blk]; omega

theorem castPackedInteger_ok (M : Machine P word) (f : PackedFormat) (t : IntegerType) (hf : Fields P f.fields) (hv : Valid P (.packed f))
    (hc : 0 < channels f.conf) :
    Good .integer P t (fun g => (g.wordOrder ≠ f.wordOrder ∨ channels f.conf = 1 → Accessible P word (.packed f) (.integer g)) ∧
      (g.wordOrder = f.wordOrder → Accessible P word (.packed (opposite f)) (.integer g))) (castPackedInteger P f t) := by
  obtain ⟨bv, hbv, hb2⟩ := packed_valid f hf
  obtain rfl : bv = true := hb2.2 hv
  obtain ⟨v1, v2, v3, v4, v5, v6⟩ := hv
  have hlen : (f.fields.take (channels f.conf)).length = channels f.conf := by
    rw [List.length_take, hf.1]; omega
  obtain ⟨b, hb⟩ : ∃ b : Nat, f.bitsPerWord = b := ⟨f.bitsPerWord.toNat, by omega⟩
  unfold castPackedInteger
  rw [hbv]
  simp only [Option.bind_eq_bind, Option.bind_some, Bool.not_true, Bool.false_eq_true, if_false, wordBytes_eq, numChannels_eq]
  cases hl : f.fields.take (channels f.conf) with
  | nil => rw [hl] at hlen; simp at hlen; omega
  | cons field fields =>
    simp only
    rw [quot_eq (by omega) (by omega), rem_eq (by omega) (by omega)]
    simp only [Option.bind_some]
    split
    · exact good_no
    · next h1 =>
      obtain ⟨k, hk⟩ : ∃ k : Nat, f.wordsPerPixel = ((channels f.conf * k : Nat) : Int) := by
        refine ⟨(f.wordsPerPixel / channels f.conf).toNat, ?_⟩
        have h6 : 0 ≤ f.wordsPerPixel / (channels f.conf : Int) := Int.ediv_nonneg (by omega) (by omega)
        rw [Nat.cast_mul, Int.toNat_of_nonneg h6]
        have := Int.mul_ediv_add_emod f.wordsPerPixel (channels f.conf)
        have h7 : f.wordsPerPixel % (channels f.conf : Int) = 0 := by
          by_contra h; exact h1 h
        omega
      have hq : f.wordsPerPixel / (channels f.conf : Int) = k := by
        rw [hk]; push_cast
        exact Int.mul_ediv_cancel_left _ (by omega)
      have hk0 : 0 < k := by
        rcases Nat.eq_zero_or_pos k with h | h
        · rw [h] at hk; simp at hk; omega
        · exact h
      have hb0 : 0 < b := by omega
      have hkb : (channels f.conf * k) * b < 2 ^ P.I := by
        rw [hk, hb] at v4; exact_mod_cast v4
      have hkb2 : k * b ≤ (channels f.conf * k) * b := by
        rw [Nat.mul_assoc]; exact Nat.le_mul_of_pos_left _ hc
      have hbbits : b ≤ Spec.bits P f.wordType := by omega
      rw [hq, hb, chk_eq (by positivity) (by exact_mod_cast Nat.lt_of_le_of_lt hkb2 hkb)]
      simp only [Option.bind_some]
      rw [hl] at v6 hlen
      have w1 := v6.1 field List.mem_cons_self
      have w2 : ∀ g ∈ fields, 1 ≤ g.width ∧ 0 ≤ g.gap := fun g hg => v6.1 g (List.mem_cons_of_mem _ hg)
      have w3 := v6.2
      rw [total_cons] at w3
      have w4 := total_nonneg w2
      obtain ⟨bs, hbs, hbs2⟩ := evenlySpaced_ok (P := P) (part := (k : Int) * b) w2 w1.2 (by omega)
      rw [hbs]
      simp only [Option.bind_some]
      cases bs with
      | false => exact good_no
      | true =>
        simp only [Bool.not_true, Bool.false_eq_true, if_false]
        obtain ⟨h3, h4⟩ := hbs2 rfl
        have hcf : channels f.conf = fields.length + 1 := by rw [← hlen]; rfl
        have hsh : ∀ s g, (f.fields.take (channels f.conf))[s]? = some g →
            g.gap + BitField.Spec.total ((f.fields.take (channels f.conf)).drop (s + 1)) = ((k * b : Nat) : Int) * ((channels f.conf - 1 - s : Nat) : Int) := by
          rw [hl]
          intro s g hg
          cases s with
          | zero =>
            simp at hg
            subst hg
            simp only [List.drop_succ_cons, List.drop_zero, hcf]
            push_cast
            simpa using h3
          | succ s =>
            simp at hg
            have := h4 s g hg
            rw [List.drop_succ_cons, this, hcf]
            push_cast
            congr 2
            omega
        have hlen' : (f.fields.take (channels f.conf)).length = channels f.conf := by rw [hl]; exact hlen
        have hmod : ∀ mem a, number f.wordOrder (2 ^ b) k (fun j => wordAt P word mem f.wordType (a * k + j) % 2 ^ b) % 2 ^ (k * b) =
            number f.wordOrder (2 ^ b) k (fun j => wordAt P word mem f.wordType (a * k + j) % 2 ^ b) := by
          intro mem a
          apply Nat.mod_eq_of_lt
          rw [Nat.mul_comm k b, Nat.pow_mul]
          exact number_lt fun i _ => Nat.mod_lt _ (Nat.pow_pos (by decide))
        split
        · next h5 =>
          split
          · exact good_no
          · next h6 =>
            have ht : t = .byte := by by_contra h; exact h6 h
            split
            · next h7 =>
              have hn : 1 < Spec.bytes P f.wordType := by omega
              split
              · exact good_no
              · next h8 =>
                rw [Bool.not_eq_true', Bool.not_eq_false, allBitsUsed_iff] at h8
                have e1 : b = P.byteBits * Spec.bytes P f.wordType := by exact_mod_cast h8.2
                rw [tryGetByteOrder_eq hn]
                cases ho : P.order f.wordType with
                | none => exact good_no
                | some o =>
                  simp only
                  split
                  · exact good_no
                  · next h9 =>
                    have hkn : k * Spec.bytes P f.wordType * P.byteBits = k * b := by rw [e1]; ring
                    have hbb := M.byteBits
                    have hle : k * Spec.bytes P f.wordType ≤ k * b := by
                      rw [← hkn]; exact Nat.le_mul_of_pos_right _ hbb
                    rw [← Nat.cast_mul, chk_eq (by positivity) (by exact_mod_cast (by omega : k * Spec.bytes P f.wordType < 2 ^ P.I))]
                    simp only [Option.bind_some]
                    refine castPackedFinish_ok f t hc hlen' hb hk hsh o hbb (Nat.mul_pos hk0 (by omega)) (by rw [ht]; exact Nat.le_refl _) (by omega) (by omega)
                      (Or.inr ht) (by rw [ht, show Spec.bytes P .byte = 1 from rfl, Nat.mul_one]) ?_
                    intro mem hm a
                    rw [hkn, hmod, ht, e1, words_as_bytes M hm hn ho]
                    by_cases h : k > 1
                    · right
                      by_contra h'; exact h9 ⟨by omega, h'⟩
                    · left; omega
            · next h7 =>
              have hs : Same P t f.wordType := same_of M (fun h => h.2 ht) (fun h => h7 h.2)
              have hbs3 := hs.bits M
              refine castPackedFinish_ok f t hc hlen' hb hk hsh f.wordOrder hb0 hk0 (by omega) (by omega) (Nat.le_refl _) hs.or (by rw [hs.bytes]) ?_
              intro mem hm a
              rw [hmod]
              simp only [hs.wordAt M]
        · next h5 =>
          have ht : t = f.wordType := by by_contra h; exact h5 h
          split
          · next h6 =>
            obtain rfl : k = 1 := by omega
            obtain ⟨w, hw⟩ : ∃ w : Nat, field.width = w := ⟨field.width.toNat, by omega⟩
            have hwb : w ≤ b := by
              have h8 : (field.width : Int) + ((1 : Nat) : Int) * b * fields.length ≤ f.wordsPerPixel * f.bitsPerWord := by omega
              rw [hw, hk, hb, hcf] at h8
              have h9 : w + 1 * b * fields.length ≤ (fields.length + 1) * 1 * b := by exact_mod_cast h8
              have : (fields.length + 1) * 1 * b = b * fields.length + b := by ring
              have : 1 * b * fields.length = b * fields.length := by ring
              omega
            rw [hw]
            refine castPackedFinish_ok f t hc hlen' hb hk hsh .big (by omega) Nat.one_pos (by rw [ht]; omega) (by omega) (by omega) (Or.inl ht) (by rw [ht]) ?_
            intro mem hm a
            rw [number_one, number_one, ht, Nat.one_mul, Nat.mod_mod_of_dvd _ (Nat.pow_dvd_pow 2 hwb)]
          · next h6 =>
            refine castPackedFinish_ok f t hc hlen' hb hk hsh f.wordOrder hb0 hk0 (by rw [ht]; omega) (by omega) (Nat.le_refl _) (Or.inl ht) (by rw [ht]) ?_
            intro mem hm a
            rw [hmod, ht]

end Verif.BufferFormat
