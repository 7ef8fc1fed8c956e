import Verif.SubwordPixel.Model
import Verif.SubwordPixel.Spec
import Verif.BitMedium.Lemmas
import Verif.PixelLoops.Lemmas
import Verif.PixelLoops.Digits
import Verif.Integer.Div
/-!
Reading, writing and filling in terms of encoded images.
-/
namespace Verif.SubwordPixel
open Verif.Integer Verif.PixelLoops Verif.BitMedium

variable {f : Fmt}

/-! ### Sizes -/

theorem word_width (h : Spec.Ok f) : f.bpw ≤ f.word.width := by
  have := h.word; rw [width_eq] at this; exact this

theorem vt_bits (h : Spec.Ok f) : f.bpw ≤ f.vt.bits := unpacked_bits _ _ _ (word_width h)

theorem compBits_eq (f : Fmt) : f.compBits = Spec.compBits f := rfl

theorem comp_width (h : Spec.Ok f) : Spec.compBits f ≤ f.comp.width := by
  have := h.comp; rw [width_eq] at this; exact this

theorem compBits_pos (f : Fmt) : 0 < Spec.compBits f := by unfold Spec.compBits; split <;> omega

theorem B_le_compBits (h : Spec.Ok f) : f.B ≤ Spec.compBits f := by
  have := h.B16; unfold Spec.compBits; split <;> omega

theorem bpp_pos (h : Spec.Ok f) : 0 < f.bpp := Nat.mul_pos h.n h.B

/-- A field of `k` bits at digit position `q` out of `n` is within `n * k` bits. -/
theorem field_le {q n k : Nat} (hq : q < n) : q * k + k ≤ n * k := by
  have : (q + 1) * k ≤ n * k := Nat.mul_le_mul_right _ hq
  rw [Nat.add_mul] at this; omega

theorem bpp_le (h : Spec.Ok f) : f.bpp ≤ f.bpw := by
  have := field_le (k := f.bpp) h.D
  unfold Fmt.bpw; omega

theorem B_le (h : Spec.Ok f) : f.B ≤ f.bpp := by
  have := field_le (k := f.B) h.n
  unfold Fmt.bpp; omega

theorem mask_nat (h : Spec.Ok f) {N : Nat} (hN : N ≤ f.bpw) : intMask f.I f.vt N = some ((2 ^ N - 1 : Nat) : Int) := by
  have := vt_bits h
  have hp := Nat.two_pow_pos N
  rw [intMask_spec h.I, Int.toNat_natCast, Nat.min_eq_left (by omega)]
  push_cast [hp]; rfl

theorem mask_lt (h : Spec.Ok f) {N : Nat} (hN : N ≤ f.bpw) : 2 ^ N - 1 < 2 ^ f.vt.bits := by
  have := vt_bits h
  have hp := Nat.two_pow_pos N
  have : 2 ^ N ≤ 2 ^ f.vt.bits := Nat.pow_le_pow_right (by decide) (by omega)
  omega

theorem lt_vt (h : Spec.Ok f) {N v : Nat} (hN : N ≤ f.bpw) (hv : v < 2 ^ N) : v < 2 ^ f.vt.bits :=
  Nat.lt_of_lt_of_le hv (Nat.pow_le_pow_right (by decide) (by have := vt_bits h; omega))

theorem bitXor_nat {t : Ty} {x y : Nat} (hx : x < 2 ^ t.bits) (hy : y < 2 ^ t.bits) :
    bitXor t x y = ((x ^^^ y : Nat) : Int) := by
  unfold bitXor
  rw [bitsOf_nonneg (by omega) (by exact_mod_cast hx), bitsOf_nonneg (by omega) (by exact_mod_cast hy)]
  simp only [Int.toNat_natCast]
  apply cast_id
  rw [In_nonneg (by omega)]
  exact_mod_cast Nat.xor_lt_two_pow hx hy

/-- Extraction of a field. -/
theorem extract (h : Spec.Ok f) {v q k N : Nat} (hN : N ≤ f.bpw) (hv : v < 2 ^ N) (hk : 0 < k) (hq : q * k + k ≤ f.bpw) :
    (do
      let val ← shr f.vt v (q * k)
      let mask ← intMask f.I f.vt k
      some (bitAnd f.vt val mask)) = some ((v / 2 ^ (k * q) % 2 ^ k : Nat) : Int) := by
  have hb := vt_bits h
  have hw := bits_le_width f.vt
  rw [shr_nat (by omega), mask_nat h (by omega)]
  simp only [Option.bind_eq_bind, Option.bind_some]
  have h1 : v / 2 ^ (q * k) < 2 ^ f.vt.bits := Nat.lt_of_le_of_lt (Nat.div_le_self _ _) (lt_vt h hN hv)
  rw [bitAnd_nat h1 (mask_lt h (by omega)), Nat.and_two_pow_sub_one_eq_mod, Nat.mul_comm q k]

/-! ### Channels -/

theorem mapChannelPos_eq (i : Nat) (hi : i < f.n) :
    mapChannelPos f i = some (f.n - 1 - stored f.n f.hasAlpha f.alphaFirst f.reverse i) := by
  unfold mapChannelPos stored
  rw [if_pos hi]
  have := Nat.mod_lt (i + 1) (by omega : 0 < f.n)
  cases f.reverse <;> simp only [Bool.not_true, Bool.not_false, Bool.false_eq_true, if_false, if_true]
  congr 1
  split <;> omega

theorem mapPixelPos_eq (p : Nat) (hp : p < f.D) :
    mapPixelPos f p = some (f.D - 1 - stored f.D false false (!f.big) p) := by
  unfold mapPixelPos stored
  rw [if_pos hp]
  cases f.big <;> simp <;> omega

/-- The channel values of a pixel with the specified bits. -/
def unpix (f : Fmt) (v : Nat) : List Nat :=
  (List.range f.n).map fun i => v / 2 ^ (f.B * (f.n - 1 - stored f.n f.hasAlpha f.alphaFirst f.reverse i)) % 2 ^ f.B

theorem order_valid {c : List Nat} (hc : Spec.ValidPixel f c) :
    ∀ d ∈ PixelLoops.Spec.order f.hasAlpha f.alphaFirst f.reverse c, d < 2 ^ f.B :=
  fun d hd => hc.2 d (order_mem hd)

theorem unpix_pixelBits {c : List Nat} (hc : Spec.ValidPixel f c) : unpix f (Spec.pixelBits f c) = c := by
  apply List.ext_getElem?
  intro i
  unfold unpix
  by_cases hi : i < f.n
  · rw [List.getElem?_map, List.getElem?_range hi, Option.map_some]
    unfold Spec.pixelBits
    have hst : stored f.n f.hasAlpha f.alphaFirst f.reverse i <
        (PixelLoops.Spec.order f.hasAlpha f.alphaFirst f.reverse c).length := by
      rw [order_length, hc.1]; exact stored_lt hi
    have := num_get hst (order_valid hc)
    rw [order_length, hc.1] at this
    rw [this, ← List.getElem?_eq_getElem]
    have h2 := order_stored (ha := f.hasAlpha) (af := f.alphaFirst) (rv := f.reverse) c i (by rw [hc.1]; exact hi)
    rw [hc.1] at h2
    exact h2
  · rw [List.getElem?_eq_none (by simp; omega), List.getElem?_eq_none (by rw [hc.1]; omega)]

theorem pixelBits_lt {c : List Nat} (hc : Spec.ValidPixel f c) : Spec.pixelBits f c < 2 ^ f.bpp := by
  have := num_lt (order_valid hc)
  rw [order_length, hc.1, ← Nat.pow_mul, Nat.mul_comm] at this
  exact this

theorem unpix_lt (f : Fmt) (v : Nat) : ∀ d ∈ unpix f v, d < 2 ^ f.B := by
  intro d hd
  unfold unpix at hd
  obtain ⟨i, _, rfl⟩ := List.mem_map.1 hd
  exact Nat.mod_lt _ (Nat.two_pow_pos _)

theorem packed_vt (h : Spec.Ok f) (v : Nat) : BitMedium.Spec.packed f.vt f.B v = v :=
  packed_of_le (by have := vt_bits h; have := bpp_le h; have := B_le h; omega)

theorem vt_width_B (h : Spec.Ok f) : f.B ≤ f.vt.width := by
  have := vt_bits h; have := bpp_le h; have := B_le h; have := bits_le_width f.vt; omega

theorem readComp_spec (h : Spec.Ok f) {v i : Nat} (hv : v < 2 ^ f.bpp) (hi : i < f.n) :
    readComp f v i = some (BitMedium.Spec.packed f.comp (Spec.compBits f) (UnitFrac.Spec.convert
      (v / 2 ^ (f.B * (f.n - 1 - stored f.n f.hasAlpha f.alphaFirst f.reverse i)) % 2 ^ f.B) (2 ^ f.B - 1)
      (2 ^ Spec.compBits f - 1))) := by
  unfold readComp
  rw [mapChannelPos_eq i hi]
  generalize hq : f.n - 1 - stored f.n f.hasAlpha f.alphaFirst f.reverse i = q
  have hqn : q < f.n := by omega
  have hfl := field_le (k := f.B) hqn
  have e := extract h (q := q) (bpp_le h) hv h.B (by have := bpp_le h; unfold Fmt.bpp at this; omega)
  have hw := vt_bits h
  have hww := bits_le_width f.vt
  have hB := h.B
  have h3 := bpp_le h
  have h4 : f.n * f.B = f.bpp := rfl
  simp only [Option.bind_eq_bind, Option.bind_some] at e ⊢
  rw [shr_nat (by omega), mask_nat h (by omega)] at e ⊢
  simp only [Option.bind_some] at e ⊢
  injection e with e
  rw [e]
  have := intToInt_spec (I := f.I) h.I (T := f.comp) (J := f.vt) (M := f.B) (N := Spec.compBits f)
    (v := v / 2 ^ (f.B * q) % 2 ^ f.B) h.B (compBits_pos f) (vt_width_B h) (comp_width h) (Nat.mod_lt _ (Nat.two_pow_pos _))
  rw [packed_vt h] at this
  exact this

theorem readComps_spec (h : Spec.Ok f) {v : Nat} (hv : v < 2 ^ f.bpp) : ∀ n i, i + n ≤ f.n →
    readComps f v n i = some ((List.range n).map fun j => BitMedium.Spec.packed f.comp (Spec.compBits f) (UnitFrac.Spec.convert
      (v / 2 ^ (f.B * (f.n - 1 - stored f.n f.hasAlpha f.alphaFirst f.reverse (i + j))) % 2 ^ f.B) (2 ^ f.B - 1)
      (2 ^ Spec.compBits f - 1))) := by
  intro n
  induction n with
  | zero => intro i _; rfl
  | succ n ih =>
    intro i hi
    unfold readComps
    rw [readComp_spec h hv (by omega), ih (i + 1) (by omega)]
    simp only [Option.bind_eq_bind, Option.bind_some, List.range_succ_eq_map, List.map_cons, List.map_map, Nat.add_zero]
    congr 2
    apply List.map_congr_left
    intro j _
    simp only [Function.comp, Nat.succ_eq_add_one, show i + 1 + j = i + (j + 1) by omega]

/-! ### Words -/

/-- The pixels of word `k` in order of decreasing significance. -/
def pixels (f : Fmt) (s : Nat → Nat) (k : Nat) : List Nat :=
  PixelLoops.Spec.order false false (!f.big) ((List.range f.D).map fun p => s (k * f.D + p))

/-- The bits of word `k`. -/
def uvN (f : Fmt) (s : Nat → Nat) (k : Nat) : Nat := PixelLoops.Spec.num (2 ^ f.bpp) (pixels f s k)

theorem uvN_wordBits (f : Fmt) (img : Nat → List Nat) (k : Nat) :
    Spec.wordBits f img k = uvN f (fun i => Spec.pixelBits f (img i)) k := by
  unfold Spec.wordBits uvN pixels PixelLoops.Spec.order Fmt.bpp
  cases f.big <;> simp

theorem pixels_length (f : Fmt) (s : Nat → Nat) (k : Nat) : (pixels f s k).length = f.D := by
  unfold pixels; rw [order_length]; simp

theorem pixels_lt {s : Nat → Nat} (hs : ∀ i, s i < 2 ^ f.bpp) (k : Nat) : ∀ d ∈ pixels f s k, d < 2 ^ f.bpp := by
  intro d hd
  have := order_mem hd
  obtain ⟨i, _, rfl⟩ := List.mem_map.1 this
  exact hs _

theorem uvN_lt {s : Nat → Nat} (hs : ∀ i, s i < 2 ^ f.bpp) (k : Nat) : uvN f s k < 2 ^ f.bpw := by
  have := num_lt (pixels_lt hs k)
  rw [pixels_length, ← Nat.pow_mul, Nat.mul_comm] at this
  exact this

/-- The pixel at position `p` of word `k`. -/
theorem uvN_get {s : Nat → Nat} (hs : ∀ i, s i < 2 ^ f.bpp) (k : Nat) {p : Nat} (hp : p < f.D) :
    uvN f s k / 2 ^ (f.bpp * (f.D - 1 - stored f.D false false (!f.big) p)) % 2 ^ f.bpp = s (k * f.D + p) := by
  have hst : stored f.D false false (!f.big) p < (pixels f s k).length := by rw [pixels_length]; exact stored_lt hp
  have := num_get hst (pixels_lt hs k)
  rw [pixels_length] at this
  unfold uvN
  rw [this]
  have h2 := order_stored (ha := false) (af := false) (rv := !f.big) ((List.range f.D).map fun p => s (k * f.D + p)) p
    (by simpa using hp)
  rw [List.length_map, List.length_range, List.getElem?_map, List.getElem?_range hp] at h2
  rw [List.getElem?_eq_getElem (by simpa [pixels] using hst)] at h2
  injection h2

theorem pixels_upd (s : Nat → Nat) (k : Nat) {p : Nat} (hp : p < f.D) (x : Nat) :
    pixels f (upd s (k * f.D + p) 1 (fun _ => x)) k = (pixels f s k).set (stored f.D false false (!f.big) p) x := by
  unfold pixels
  have e : ((List.range f.D).map fun p' => upd s (k * f.D + p) 1 (fun _ => x) (k * f.D + p')) =
      ((List.range f.D).map fun p' => s (k * f.D + p')).set p x := by
    apply List.ext_getElem?
    intro j
    by_cases hj : j < f.D
    · rw [List.getElem?_set]
      simp only [List.getElem?_map, List.getElem?_range hj, Option.map_some, List.length_map, List.length_range]
      unfold upd
      by_cases hjp : p = j
      · subst hjp; simp [hj]
      · rw [if_neg (by omega), if_neg hjp]
    · rw [List.getElem?_eq_none (by simp; omega), List.getElem?_eq_none (by simp; omega)]
  rw [e, order_set _ _ _ (by simpa using hp), List.length_map, List.length_range]

theorem getPixel_spec (h : Spec.Ok f) {s : Nat → Nat} (hs : ∀ i, s i < 2 ^ f.bpp) (k : Nat) {p : Nat} (hp : p < f.D) :
    getPixel f (uvN f s k) p = some (Spec.transferred f (unpix f (s (k * f.D + p)))) := by
  unfold getPixel
  rw [mapPixelPos_eq p hp]
  have hg := uvN_get hs k hp
  generalize hq : f.D - 1 - stored f.D false false (!f.big) p = q at hg
  have hqn : q < f.D := by have := h.D; omega
  have hfl : q * f.bpp + f.bpp ≤ f.bpw := field_le hqn
  have e := extract h (q := q) (Nat.le_refl _) (uvN_lt hs k) (bpp_pos h) hfl
  have hw := vt_bits h
  have hww := bits_le_width f.vt
  have hB := bpp_pos h
  simp only [Option.bind_eq_bind, Option.bind_some] at e ⊢
  rw [shr_nat (by omega), mask_nat h (bpp_le h)] at e ⊢
  simp only [Option.bind_some] at e ⊢
  injection e with e
  rw [e, hg, readComps_spec h (hs _) _ _ (by omega)]
  unfold Spec.transferred unpix
  rw [List.map_map]
  congr 1
  apply List.map_congr_left
  intro j _
  rw [Nat.zero_add]; rfl

theorem doSetPixel_spec (h : Spec.Ok f) {s : Nat → Nat} (hs : ∀ i, s i < 2 ^ f.bpp) (k : Nat) {p : Nat} (hp : p < f.D) {x : Nat}
    (hx : x < 2 ^ f.bpp) :
    doSetPixel f x (uvN f s k) p = some (uvN f (upd s (k * f.D + p) 1 (fun _ => x)) k : Int) := by
  unfold doSetPixel
  rw [mapPixelPos_eq p hp]
  have hst : stored f.D false false (!f.big) p < (pixels f s k).length := by rw [pixels_length]; exact stored_lt hp
  have key := num_set_field (N := f.bpw) hst (pixels_lt hs k) hx (by rw [pixels_length, Nat.mul_comm]; exact Nat.le_refl _)
  rw [pixels_length, ← pixels_upd s k hp x] at key
  generalize hq : f.D - 1 - stored f.D false false (!f.big) p = q at key
  have hqn : q < f.D := by have := h.D; omega
  have hfl : q * f.bpp + f.bpp ≤ f.bpw := field_le hqn
  have hw := vt_bits h
  have hww := bits_le_width f.vt
  have hB := bpp_pos h
  have shifted : ∀ y, y < 2 ^ f.bpp → y * 2 ^ (q * f.bpp) < 2 ^ f.vt.bits := by
    intro y hy
    have : y * 2 ^ (q * f.bpp) < 2 ^ f.bpp * 2 ^ (q * f.bpp) := Nat.mul_lt_mul_of_pos_right hy (Nat.two_pow_pos _)
    rw [← Nat.pow_add] at this
    exact Nat.lt_of_lt_of_le this (Nat.pow_le_pow_right (by decide) (by omega))
  have hm : 2 ^ f.bpp - 1 < 2 ^ f.bpp := by have := Nat.two_pow_pos f.bpp; omega
  rw [mask_nat h (Nat.le_refl _), mask_nat h (bpp_le h)]
  simp only [Option.bind_eq_bind, Option.bind_some]
  rw [shl_nat (by omega) (shifted _ hm), shl_nat (by omega) (shifted _ hx)]
  simp only [Option.bind_some]
  have hu := lt_vt h (Nat.le_refl _) (uvN_lt hs k)
  have hxor := Nat.xor_lt_two_pow (mask_lt h (Nat.le_refl _)) (shifted _ hm)
  rw [bitXor_nat (mask_lt h (Nat.le_refl _)) (shifted _ hm), bitAnd_nat hu hxor,
    bitOr_nat (Nat.and_lt_two_pow _ hxor) (shifted _ hx)]
  rw [Nat.mul_comm q]
  unfold uvN
  rw [key]

/-! ### Encoding of pixels -/

theorem writeComps_spec (h : Spec.Ok f) {c : List Nat} (hc : Spec.ValidColor f c) : ∀ n i l, i + n = f.n → Spec.ValidPixel f l →
    (∀ j, i ≤ j → j < f.n → l[j]? = some 0) → (∀ j, j < i → l[j]? = (Spec.quantized f c)[j]?) →
    writeComps f (Spec.color f c) n i (Spec.pixelBits f l) = some (Spec.pixelBits f (Spec.quantized f c) : Int) := by
  intro n
  induction n with
  | zero =>
    intro i l hi hl _ hlt
    have : l = Spec.quantized f c := by
      apply List.ext_getElem?
      intro j
      by_cases hj : j < i
      · exact hlt j hj
      · rw [List.getElem?_eq_none (by rw [hl.1]; omega), List.getElem?_eq_none (by simp [Spec.quantized, hc.1]; omega)]
    rw [this]; rfl
  | succ n ih =>
    intro i l hi hl hz hlt
    unfold writeComps
    have hic : i < c.length := by rw [hc.1]; omega
    have hin : i < f.n := by omega
    rw [show (Spec.color f c)[i]? = some (BitMedium.Spec.packed f.comp (Spec.compBits f) c[i]) by
      unfold Spec.color; rw [List.getElem?_map, List.getElem?_eq_getElem hic]; rfl]
    simp only [Option.bind_eq_bind, Option.bind_some]
    unfold writeComp
    rw [compBits_eq, intToInt_spec h.I (compBits_pos f) h.B (comp_width h) (vt_width_B h) (hc.2 _ (List.getElem_mem hic)),
      packed_vt h, mapChannelPos_eq i hin]
    simp only [Option.bind_eq_bind, Option.bind_some]
    generalize hx : UnitFrac.Spec.convert c[i] (2 ^ Spec.compBits f - 1) (2 ^ f.B - 1) = x
    have hxlt : x < 2 ^ f.B := by
      have := Nat.two_pow_pos f.B
      rw [← hx]; unfold UnitFrac.Spec.convert; omega
    have hst : stored f.n f.hasAlpha f.alphaFirst f.reverse i <
        (PixelLoops.Spec.order f.hasAlpha f.alphaFirst f.reverse l).length := by
      rw [order_length, hl.1]; exact stored_lt hin
    have hzero : (PixelLoops.Spec.order f.hasAlpha f.alphaFirst f.reverse l)[stored f.n f.hasAlpha f.alphaFirst f.reverse i] = 0 := by
      have h2 := order_stored (ha := f.hasAlpha) (af := f.alphaFirst) (rv := f.reverse) l i (by rw [hl.1]; exact hin)
      rw [hl.1, hz i (Nat.le_refl _) hin, List.getElem?_eq_getElem hst] at h2
      injection h2
    have key := num_or_field hst (order_valid hl) hxlt hzero
    rw [order_length, hl.1] at key
    have hos := order_set (ha := f.hasAlpha) (af := f.alphaFirst) (rv := f.reverse) l i x (by rw [hl.1]; exact hin)
    rw [hl.1] at hos
    rw [← hos] at key
    generalize hq : f.n - 1 - stored f.n f.hasAlpha f.alphaFirst f.reverse i = q at key
    have hqn : q < f.n := by omega
    have hfl : q * f.B + f.B ≤ f.bpp := field_le hqn
    have hw := vt_bits h
    have hww := bits_le_width f.vt
    have hB := h.B
    have hbp := bpp_le h
    have shifted : x * 2 ^ (q * f.B) < 2 ^ f.vt.bits := by
      have : x * 2 ^ (q * f.B) < 2 ^ f.B * 2 ^ (q * f.B) := Nat.mul_lt_mul_of_pos_right hxlt (Nat.two_pow_pos _)
      rw [← Nat.pow_add] at this
      exact Nat.lt_of_lt_of_le this (Nat.pow_le_pow_right (by decide) (by omega))
    rw [shl_nat (by omega) shifted]
    simp only [Option.bind_some]
    rw [bitOr_nat (lt_vt h hbp (pixelBits_lt hl)) shifted, Nat.mul_comm q]
    rw [show Spec.pixelBits f l ||| x * 2 ^ (f.B * q) = Spec.pixelBits f (l.set i x) from key]
    apply ih (i + 1) (l.set i x) (by omega)
    · refine ⟨by rw [List.length_set, hl.1], fun d hd => ?_⟩
      rcases List.mem_or_eq_of_mem_set hd with hd | rfl
      · exact hl.2 d hd
      · exact hxlt
    · intro j hj hjn
      rw [List.getElem?_set_ne (by omega)]
      exact hz j (by omega) hjn
    · intro j hj
      by_cases hji : i = j
      · subst hji
        rw [List.getElem?_set_self (by rw [hl.1]; exact hin)]
        unfold Spec.quantized
        rw [List.getElem?_map, List.getElem?_eq_getElem hic, ← hx]; rfl
      · rw [List.getElem?_set_ne hji]
        exact hlt j (by omega)

theorem zeros_valid (f : Fmt) : Spec.ValidPixel f (List.replicate f.n 0) :=
  ⟨by simp, fun v hv => by rw [(List.mem_replicate.1 hv).2]; exact Nat.two_pow_pos _⟩

theorem order_zeros (n : Nat) (a b c : Bool) :
    PixelLoops.Spec.order a b c (List.replicate n 0) = List.replicate n 0 := by
  apply List.ext_getElem?
  intro j
  by_cases hj : j < n
  · rw [order_get _ _ (by simpa using hj), List.length_replicate, List.getElem?_replicate_of_lt hj,
      List.getElem?_replicate_of_lt (unstored_lt hj)]
  · rw [List.getElem?_eq_none (by rw [order_length]; simp; omega), List.getElem?_eq_none (by simp; omega)]

theorem zeros_bits (f : Fmt) : Spec.pixelBits f (List.replicate f.n 0) = 0 := by
  unfold Spec.pixelBits
  rw [order_zeros, num_replicate_zero]

theorem quantized_valid (h : Spec.Ok f) {c : List Nat} (hc : Spec.ValidColor f c) : Spec.ValidPixel f (Spec.quantized f c) := by
  refine ⟨by simp [Spec.quantized, hc.1], fun v hv => ?_⟩
  obtain ⟨w, _, rfl⟩ := List.mem_map.1 hv
  have := Nat.two_pow_pos f.B
  unfold UnitFrac.Spec.convert; omega

theorem encodePixel_spec (h : Spec.Ok f) {c : List Nat} (hc : Spec.ValidColor f c) :
    encodePixel f (Spec.color f c) = some (Spec.pixelBits f (Spec.quantized f c) : Int) := by
  have := writeComps_spec h hc f.n 0 (List.replicate f.n 0) (by omega) (zeros_valid f)
    (fun j _ hj => List.getElem?_replicate_of_lt hj) (fun j hj => absurd hj (by omega))
  rw [zeros_bits] at this
  exact this

/-! ### Words in buffers -/

/-- A buffer with the specified bits in the pixels. -/
def enc (f : Fmt) (m : Nat) (s : Nat → Nat) : List Int :=
  (List.range m).map fun k => BitMedium.Spec.packed f.word f.bpw (uvN f s k)

theorem enc_eq (f : Fmt) (m : Nat) (img : Nat → List Nat) :
    Spec.encode f m img = enc f m (fun i => Spec.pixelBits f (img i)) := by
  unfold Spec.encode enc
  apply List.map_congr_left
  intro k _
  rw [uvN_wordBits]; rfl

theorem uvN_congr {s s' : Nat → Nat} {k : Nat} (h : ∀ i, i / f.D = k → s i = s' i) : uvN f s k = uvN f s' k := by
  unfold uvN pixels
  congr 2
  apply List.map_congr_left
  intro p hp
  exact h _ (div_of (List.mem_range.1 hp))

theorem sem (h : Spec.Ok f) (m : Nat) :
    Sem (units f) m (enc f m) (fun s k => (uvN f s k : Int)) (fun v => v < 2 ^ f.bpp) where
  pos := h.D
  read := by
    intro s k hs hk
    show readWord f (enc f m s) k = _
    unfold readWord enc
    rw [List.getElem?_map, List.getElem?_range hk]
    simp only [Option.map_some, Option.bind_eq_bind, Option.bind_some]
    exact unpackInt_spec h.I (word_width h) (uvN_lt hs k)
  write := by
    intro s s' k hs hs' hk he
    show writeWord f _ (enc f m s) k = _
    unfold writeWord
    rw [if_pos (by simpa [enc] using hk), packInt_spec (word_width h) (uvN_lt hs' k)
      ((In_nonneg (by omega)).2 (by exact_mod_cast lt_vt h (Nat.le_refl _) (uvN_lt hs' k)))]
    simp only [Option.bind_eq_bind, Option.bind_some]
    congr 1
    apply List.ext_getElem?
    intro j
    unfold enc
    by_cases hj : j < m
    · rw [List.getElem?_set]
      simp only [List.getElem?_map, List.getElem?_range hj, Option.map_some, List.length_map, List.length_range]
      by_cases hkj : k = j
      · subst hkj; simp [hk]
      · rw [if_neg hkj, uvN_congr (s := s) (s' := s')]
        intro i hi
        exact (he i (by show i / f.D ≠ k; omega)).symm
    · rw [List.getElem?_eq_none (by simp; omega), List.getElem?_eq_none (by simp; omega)]
  congr := by
    intro s s' k he
    show ((uvN f s k : Nat) : Int) = _
    rw [uvN_congr he]
  zero := by
    intro k
    show ((uvN f (fun _ => 0) k : Nat) : Int) = 0
    unfold uvN pixels
    rw [show (List.range f.D).map (fun p => (fun _ => 0 : Nat → Nat) (k * f.D + p)) = List.replicate f.D 0 by
      rw [List.map_const', List.length_range], order_zeros, num_replicate_zero]; rfl
  vzero := Nat.two_pow_pos _

end Verif.SubwordPixel
