import Verif.PackedPixel.Model
import Verif.PackedPixel.Spec
import Verif.BitField.Props
import Verif.IndexedPixel.Main
import Verif.PixelGrid.Lemmas
/-!
Reading and writing of single pixels.
-/
namespace Verif.PackedPixel
open Verif.Integer Verif.PixelLoops Verif.BitMedium Verif.BitField

variable {f : Fmt}

/-! ### Order of channels -/

theorem unorder_length {α : Type} {ha af rv : Bool} (l : List α) : (Spec.unorder ha af rv l).length = l.length := by
  unfold Spec.unorder
  cases rv <;> cases (ha && af) <;> simp <;> omega

theorem unorder_get {α : Type} {ha af rv : Bool} (l : List α) (i : Nat) (hi : i < l.length) :
    (Spec.unorder ha af rv l)[i]? = l[stored l.length ha af rv i]? := by
  have rot : ∀ m : List α, m.length = l.length → (m.drop 1 ++ m.take 1)[i]? = m[(i + 1) % l.length]? := by
    intro m hm
    by_cases h : i + 1 < l.length
    · rw [List.getElem?_append_left (by rw [List.length_drop]; omega), List.getElem?_drop, Nat.mod_eq_of_lt h, Nat.add_comm]
    · have e : i + 1 = l.length := by omega
      rw [List.getElem?_append_right (by rw [List.length_drop]; omega), List.length_drop, e, Nat.mod_self,
        show i - (m.length - 1) = 0 by omega, List.getElem?_take_of_lt (by omega)]
  have hm := Nat.mod_lt (i + 1) (by omega : 0 < l.length)
  unfold Spec.unorder stored
  cases rv <;> cases (ha && af) <;> simp only [Bool.false_eq_true, if_false, if_true]
  · exact rot l rfl
  · rw [List.getElem?_reverse hi]
  · rw [rot l.reverse (by simp), List.getElem?_reverse hm]

theorem unorder_order {α : Type} {ha af rv : Bool} (l : List α) : Spec.unorder ha af rv (PixelLoops.Spec.order ha af rv l) = l := by
  apply List.ext_getElem?
  intro i
  by_cases hi : i < l.length
  · rw [unorder_get _ _ (by rw [order_length]; exact hi), order_length, order_stored _ _ hi]
  · rw [List.getElem?_eq_none (by rw [unorder_length, order_length]; omega), List.getElem?_eq_none (by omega)]

theorem mapChannelIndex_eq {i : Nat} (hi : i < f.n) : mapChannelIndex f i = some (stored f.n f.hasAlpha f.alphaFirst f.reverse i) := by
  unfold mapChannelIndex stored
  rw [if_pos hi]

/-! ### Sizes -/

theorem pos (h : Spec.Ok f) : Pos f.fields := h.fields.1

theorem total_lt (h : Spec.Ok f) : BitField.Spec.total f.fields < 2 ^ f.I := by
  have := h.fields.2
  have h2 : ((f.D * f.B : Nat) : Int) < 2 ^ f.I := by exact_mod_cast h.int
  omega

theorem compBits_eq (h : Spec.Ok f) : f.compBits = Spec.compBits f := by
  obtain ⟨h1, h2⟩ := C77_widest f.fields _ h.fields
  unfold Fmt.compBits Spec.compBits
  by_cases c : widestBitField f.fields ≤ 8
  · rw [if_pos c, if_pos (fun g hg => by have := h1 g hg; omega)]
  · rw [if_neg c, if_neg]
    intro hc
    rcases h2 with ⟨_, h2⟩ | ⟨g, hg, h2⟩
    · omega
    · have := hc g hg; omega

theorem compBits_pos (f : Fmt) : 0 < Spec.compBits f := by unfold Spec.compBits; split <;> omega

theorem width_le_compBits (h : Spec.Ok f) {j : Nat} (hj : j < f.n) : BitField.Spec.width f.fields j ≤ Spec.compBits f := by
  have hm := List.getElem_mem (l := f.fields) hj
  have := h.w16 _ hm
  unfold BitField.Spec.width Spec.compBits
  rw [List.getElem?_eq_getElem hj]
  simp only
  split
  · rename_i hc; have := hc _ hm; omega
  · omega

/-- The compound of an indexed pixel format has the same layout. -/
def lay (f : Fmt) : IndexedPixel.Fmt :=
  { I := f.I, compound := f.compound, word := f.word, comp := ⟨false, 8⟩, M := 1, N := 1, bigBits := true, B := f.B, D := f.D,
    bigWords := f.bigWords, aligned := true }

theorem lay_ok (h : Spec.Ok f) : IndexedPixel.Spec.Ok (lay f) where
  I := h.I
  M := Nat.one_pos
  M8 := by show 1 ≤ 8; omega
  N := Nat.one_pos
  B := h.B
  D := h.D
  fits := by
    have := Nat.mul_pos h.D h.B
    show 1 * 1 ≤ f.D * f.B
    omega
  word := h.word
  compound := h.compound
  comp := by show 8 ≤ 8; omega

theorem lay_bpc (f : Fmt) : (lay f).bpc = f.bpp := rfl
theorem lay_vt (f : Fmt) : (lay f).vt = f.vt := rfl

theorem vt_bits (h : Spec.Ok f) : f.bpp ≤ f.vt.bits := IndexedPixel.vt_bits (lay_ok h)

theorem field_le_bpp (h : Spec.Ok f) (j : Nat) : BitField.Spec.shift f.fields j + BitField.Spec.width f.fields j ≤ f.bpp := by
  have := (C77_disjoint f.fields _ h.fields).1 j
  exact_mod_cast this

/-! ### Words -/

theorem readLoop_eq (f : Fmt) (buf : List Int) (source : Nat) : ∀ n i v,
    readLoop f buf source n i v = IndexedPixel.readLoop (lay f) buf source n i v := by
  intro n
  induction n with
  | zero => intro i v; rfl
  | succ n ih =>
    intro i v
    unfold readLoop IndexedPixel.readLoop
    simp only [ih]; rfl

theorem writeLoop_eq (f : Fmt) (pixel : Int) (target : Nat) : ∀ n i buf,
    writeLoop f pixel target n i buf = IndexedPixel.writeLoop (lay f) pixel target n i buf := by
  intro n
  induction n with
  | zero => intro i v; rfl
  | succ n ih =>
    intro i buf
    unfold writeLoop IndexedPixel.writeLoop
    simp only [ih]; rfl

theorem readLoop_spec (h : Spec.Ok f) {buf : List Int} {source v : Nat} (hv : v < 2 ^ f.bpp)
    (hbuf : ∀ i, i < f.D → buf[source + i]? = some (BitMedium.Spec.packed f.word f.B (Spec.wordBits f v i))) :
    readLoop f buf source f.D 0 0 = some (v : Int) := by
  have hws : (IndexedPixel.words (lay f) v).length = (lay f).D ∧ ∀ d ∈ IndexedPixel.words (lay f) v, d < 2 ^ (lay f).B := by
    refine ⟨by simp [IndexedPixel.words], fun d hd => ?_⟩
    obtain ⟨i, _, rfl⟩ := List.mem_map.1 hd
    exact IndexedPixel.wordBits_lt v i
  have := IndexedPixel.readLoop_spec (lay_ok h) (buf := buf) (source := source) hws
    (fun i hi => by
      rw [hws.1] at hi
      rw [hbuf i hi]; simp [IndexedPixel.words]; rfl)
    (lay f).D 0 (List.replicate (lay f).D 0) (by omega)
    ⟨by simp, fun d hd => by rw [(List.mem_replicate.1 hd).2]; exact Nat.two_pow_pos _⟩
    (fun j _ hj => List.getElem?_replicate_of_lt hj) (fun j hj => absurd hj (by omega))
  rw [SubwordPixel.order_zeros, num_replicate_zero, IndexedPixel.words_num hv] at this
  rw [readLoop_eq]
  exact this

theorem writeLoop_spec (h : Spec.Ok f) {v : Nat} (hv : v < 2 ^ f.bpp) (target : Nat) (buf : List Int)
    (hb : target + f.D ≤ buf.length) : ∃ buf', writeLoop f v target f.D 0 buf = some buf' ∧ buf'.length = buf.length ∧
      ∀ j, buf'[j]? = if target ≤ j ∧ j < target + f.D then
          some (BitMedium.Spec.packed f.word f.B (Spec.wordBits f v (j - target))) else buf[j]? := by
  rw [writeLoop_eq]
  exact IndexedPixel.writeLoop_spec (lay_ok h) hv target f.D 0 buf (Nat.zero_add _) hb

/-! ### Components -/

theorem channel_width (h : Spec.Ok f) {i : Nat} (hi : i < f.n) :
    getChannelWidth f i = some (BitField.Spec.width f.fields (stored f.n f.hasAlpha f.alphaFirst f.reverse i) : Int) := by
  unfold getChannelWidth
  rw [mapChannelIndex_eq hi]
  exact getBitFieldWidth_spec (pos h) (stored_lt hi)

theorem channel_shift (h : Spec.Ok f) {i : Nat} (hi : i < f.n) :
    getChannelShift f i = some (BitField.Spec.shift f.fields (stored f.n f.hasAlpha f.alphaFirst f.reverse i) : Int) := by
  unfold getChannelShift
  rw [mapChannelIndex_eq hi]
  exact getBitFieldShift_spec (pos h) (total_lt h) (stored_lt hi)

theorem lt_vt (h : Spec.Ok f) {N v : Nat} (hN : N ≤ f.bpp) (hv : v < 2 ^ N) : v < 2 ^ f.vt.bits :=
  IndexedPixel.lt_vt (lay_ok h) hN hv

theorem comp_width (h : Spec.Ok f) : Spec.compBits f ≤ f.comp.width := by have := h.comp; rw [width_eq] at this; exact this

theorem packed_vt (h : Spec.Ok f) {N : Nat} (hN : N ≤ f.bpp) (v : Nat) : BitMedium.Spec.packed f.vt N v = v :=
  packed_of_le (by have := vt_bits h; omega)

theorem vt_width (h : Spec.Ok f) {N : Nat} (hN : N ≤ f.bpp) : N ≤ f.vt.width := by
  have := vt_bits h; have := bits_le_width f.vt; omega

theorem getComponent_spec (h : Spec.Ok f) {v i : Nat} (hv : v < 2 ^ f.bpp) (hi : i < f.n) :
    getComponent f v i = some (BitMedium.Spec.packed f.comp (Spec.compBits f) (UnitFrac.Spec.convert
      (BitField.Spec.extract f.fields v (stored f.n f.hasAlpha f.alphaFirst f.reverse i))
      (2 ^ BitField.Spec.width f.fields (stored f.n f.hasAlpha f.alphaFirst f.reverse i) - 1) (2 ^ Spec.compBits f - 1))) := by
  unfold getComponent
  rw [channel_width h hi, channel_shift h hi, compBits_eq h]
  have hj : stored f.n f.hasAlpha f.alphaFirst f.reverse i < f.n := stored_lt hi
  generalize stored f.n f.hasAlpha f.alphaFirst f.reverse i = j at *
  have hw := width_pos (pos h) hj
  have hfl := field_le_bpp h j
  have hb := vt_bits h
  have hbw := bits_le_width f.vt
  unfold BitField.Spec.extract
  generalize BitField.Spec.width f.fields j = w at *
  generalize BitField.Spec.shift f.fields j = s at *
  have hm : intMask f.I f.vt w = some ((2 ^ w - 1 : Nat) : Int) := IndexedPixel.mask_nat (lay_ok h) (by rw [lay_bpc]; omega)
  have h1 : v / 2 ^ s < 2 ^ f.vt.bits := Nat.lt_of_le_of_lt (Nat.div_le_self _ _) (lt_vt h (Nat.le_refl _) hv)
  have h2 : 2 ^ w - 1 < 2 ^ f.vt.bits := lt_vt (N := w) h (by omega) (by have := Nat.two_pow_pos w; omega)
  simp only [Option.bind_eq_bind, Option.bind_some, Int.toNat_natCast]
  rw [shr_nat (by omega), hm]
  simp only [Option.bind_some]
  rw [bitAnd_nat h1 h2, Nat.and_two_pow_sub_one_eq_mod]
  have h3 : v / 2 ^ s % 2 ^ w < 2 ^ w := Nat.mod_lt _ (Nat.two_pow_pos _)
  have := intToInt_spec h.I hw (compBits_pos f) (vt_width h (by omega : w ≤ f.bpp)) (comp_width h) h3
  rw [packed_vt h (by omega)] at this
  exact this

theorem getComponents_spec (h : Spec.Ok f) {v : Nat} (hv : v < 2 ^ f.bpp) : ∀ n i, i + n ≤ f.n →
    getComponents f v n i = some ((List.range n).map fun k => BitMedium.Spec.packed f.comp (Spec.compBits f) (UnitFrac.Spec.convert
      (BitField.Spec.extract f.fields v (stored f.n f.hasAlpha f.alphaFirst f.reverse (i + k)))
      (2 ^ BitField.Spec.width f.fields (stored f.n f.hasAlpha f.alphaFirst f.reverse (i + k)) - 1) (2 ^ Spec.compBits f - 1))) := by
  intro n
  induction n with
  | zero => intro i _; rfl
  | succ n ih =>
    intro i hi
    unfold getComponents
    rw [getComponent_spec h hv (by omega), ih (i + 1) (by omega)]
    simp only [Option.bind_eq_bind, Option.bind_some, List.range_succ_eq_map, List.map_cons, List.map_map, Nat.add_zero]
    congr 2
    apply List.map_congr_left
    intro k _
    simp only [Function.comp, Nat.succ_eq_add_one, show i + 1 + k = i + (k + 1) by omega]

theorem widths_length (f : Fmt) : (Spec.widths f).length = f.n := by unfold Spec.widths; rw [unorder_length]; simp [Fmt.n]

theorem widths_get {i : Nat} (hi : i < f.n) :
    (Spec.widths f)[i]? = some (BitField.Spec.width f.fields (stored f.n f.hasAlpha f.alphaFirst f.reverse i)) := by
  unfold Spec.widths
  have hl : (f.fields.map fun g => g.width.toNat).length = f.n := by simp [Fmt.n]
  rw [unorder_get _ _ (by rw [hl]; exact hi), hl, List.getElem?_map]
  have hj : stored f.n f.hasAlpha f.alphaFirst f.reverse i < f.fields.length := stored_lt hi
  unfold BitField.Spec.width
  rw [List.getElem?_eq_getElem hj]; rfl

theorem channels_length (f : Fmt) (v : Nat) : (Spec.channels f v).length = f.n := by
  unfold Spec.channels; rw [unorder_length]; simp [Fmt.n]

theorem channels_get {v i : Nat} (hi : i < f.n) :
    (Spec.channels f v)[i]? = some (BitField.Spec.extract f.fields v (stored f.n f.hasAlpha f.alphaFirst f.reverse i)) := by
  unfold Spec.channels
  have hl : ((List.range f.fields.length).map (BitField.Spec.extract f.fields v)).length = f.n := by simp [Fmt.n]
  have hj : stored f.n f.hasAlpha f.alphaFirst f.reverse i < f.fields.length := stored_lt hi
  rw [unorder_get _ _ (by rw [hl]; exact hi), hl, List.getElem?_map, List.getElem?_range hj]; rfl

theorem readPixel_spec (h : Spec.Ok f) : PixelGrid.Reads (fun v i => BitMedium.Spec.packed f.word f.B (Spec.wordBits f v i)) f.D
    (fun v => v < 2 ^ f.bpp) (readPixel f) (fun v => Spec.transferred f (Spec.channels f v)) := by
  intro buf source v hv hbuf
  unfold readPixel
  rw [readLoop_spec h hv hbuf]
  simp only [Option.bind_eq_bind, Option.bind_some]
  rw [getComponents_spec h hv f.n 0 (by omega)]
  congr 1
  apply List.ext_getElem?
  intro i
  unfold Spec.transferred
  by_cases hi : i < f.n
  · rw [List.getElem?_map, List.getElem?_range hi, List.getElem?_zipWith, widths_get hi, channels_get hi]
    simp
  · rw [List.getElem?_eq_none (by simp; omega), List.getElem?_eq_none (by simp [widths_length, channels_length]; omega)]

/-! ### Writing -/

theorem validPixel_iff {c : List Nat} : Spec.ValidPixel f c ↔
    BitField.Spec.Fits f.fields (PixelLoops.Spec.order f.hasAlpha f.alphaFirst f.reverse c) := by
  constructor
  · intro hc
    have hcn : c.length = f.n := hc.1
    refine ⟨by rw [order_length]; exact hc.1, fun j hj => ?_⟩
    have hj' : j < c.length := by rwa [order_length] at hj
    have hjn : j < f.n := by omega
    have hu : unstored f.n f.hasAlpha f.alphaFirst f.reverse j < f.n := unstored_lt hjn
    have hw := widths_get (f := f) hu
    rw [stored_unstored hjn] at hw
    have hg := order_get (ha := f.hasAlpha) (af := f.alphaFirst) (rv := f.reverse) c j hj'
    rw [hcn, List.getElem?_eq_getElem hj] at hg
    exact hc.2 _ _ _ hw hg.symm
  · intro hc
    have hcn : c.length = f.n := by have := hc.1; rwa [order_length] at this
    refine ⟨hcn, fun i w v hw hv => ?_⟩
    have hi : i < f.n := by
      by_contra hcon
      rw [List.getElem?_eq_none (by omega)] at hv; exact absurd hv (by simp)
    rw [widths_get hi] at hw
    injection hw with hw
    subst hw
    have hs := order_stored (ha := f.hasAlpha) (af := f.alphaFirst) (rv := f.reverse) c i (by omega)
    rw [hv, hcn] at hs
    have hlt : stored f.n f.hasAlpha f.alphaFirst f.reverse i < (PixelLoops.Spec.order f.hasAlpha f.alphaFirst f.reverse c).length := by
      rw [order_length, hcn]; exact stored_lt hi
    rw [List.getElem?_eq_getElem hlt] at hs
    injection hs with hs
    rw [← hs]
    exact hc.2 _ hlt

theorem pixelBits_lt (h : Spec.Ok f) {c : List Nat} (hc : Spec.ValidPixel f c) : Spec.pixelBits f c < 2 ^ f.bpp := by
  exact (C77_pack f.fields f.bpp h.fields _ (validPixel_iff.1 hc)).1

theorem channels_pixelBits (h : Spec.Ok f) {c : List Nat} (hc : Spec.ValidPixel f c) : Spec.channels f (Spec.pixelBits f c) = c := by
  unfold Spec.channels Spec.pixelBits
  conv_rhs => rw [← unorder_order (ha := f.hasAlpha) (af := f.alphaFirst) (rv := f.reverse) c]
  congr 1
  have hfit := validPixel_iff.1 hc
  apply List.ext_getElem?
  intro j
  by_cases hj : j < f.fields.length
  · have hj2 : j < (PixelLoops.Spec.order f.hasAlpha f.alphaFirst f.reverse c).length := by rw [hfit.1]; exact hj
    rw [List.getElem?_map, List.getElem?_range hj, List.getElem?_eq_getElem hj2, Option.map_some,
      extract_pack (pos h) hfit hj2]
  · rw [List.getElem?_eq_none (by simp; omega), List.getElem?_eq_none (by rw [hfit.1]; omega)]

theorem quantized_length {c : List Nat} (hc : Spec.ValidColor f c) : (Spec.quantized f c).length = f.n := by
  unfold Spec.quantized
  rw [List.length_zipWith, widths_length, hc.1]
  exact Nat.min_self _

theorem quantized_get {c : List Nat} (hc : Spec.ValidColor f c) {i : Nat} (hi : i < c.length) :
    (Spec.quantized f c)[i]? = some (UnitFrac.Spec.convert c[i] (2 ^ Spec.compBits f - 1)
      (2 ^ BitField.Spec.width f.fields (stored f.n f.hasAlpha f.alphaFirst f.reverse i) - 1)) := by
  unfold Spec.quantized
  rw [List.getElem?_zipWith, widths_get (by unfold Fmt.n; rw [← hc.1]; exact hi), List.getElem?_eq_getElem hi]

theorem convert_lt (v m w : Nat) : UnitFrac.Spec.convert v m (2 ^ w - 1) < 2 ^ w := by
  have := Nat.two_pow_pos w
  unfold UnitFrac.Spec.convert; omega

theorem quantized_valid {c : List Nat} (hc : Spec.ValidColor f c) : Spec.ValidPixel f (Spec.quantized f c) := by
  refine ⟨quantized_length hc, fun i w v hw hv => ?_⟩
  have hi : i < f.n := by
    by_contra hcon
    rw [List.getElem?_eq_none (by rw [quantized_length hc]; omega)] at hv; exact absurd hv (by simp)
  rw [quantized_get hc (by rw [hc.1]; exact hi)] at hv
  rw [widths_get hi] at hw
  injection hw with hw
  injection hv with hv
  rw [← hw, ← hv]
  exact convert_lt _ _ _

theorem setComponent_spec (h : Spec.Ok f) {l : List Nat} (hl : Spec.ValidPixel f l) {i x : Nat} (hi : i < f.n) (hz : l[i]? = some 0)
    (hx : x < 2 ^ Spec.compBits f) :
    setComponent f (Spec.pixelBits f l) (BitMedium.Spec.packed f.comp (Spec.compBits f) x) i =
      some (Spec.pixelBits f (l.set i (UnitFrac.Spec.convert x (2 ^ Spec.compBits f - 1)
        (2 ^ BitField.Spec.width f.fields (stored f.n f.hasAlpha f.alphaFirst f.reverse i) - 1))) : Int) := by
  unfold setComponent
  rw [channel_width h hi, channel_shift h hi, compBits_eq h]
  have hln : l.length = f.n := hl.1
  have hos := fun y => order_set (ha := f.hasAlpha) (af := f.alphaFirst) (rv := f.reverse) l i y (by rw [hln]; exact hi)
  have hz2 := order_stored (ha := f.hasAlpha) (af := f.alphaFirst) (rv := f.reverse) l i (by rw [hln]; exact hi)
  rw [hz] at hz2
  simp only [hln] at hos hz2
  unfold Spec.pixelBits
  rw [hos]
  have hj : stored f.n f.hasAlpha f.alphaFirst f.reverse i < f.n := stored_lt hi
  generalize stored f.n f.hasAlpha f.alphaFirst f.reverse i = j at *
  have hw := width_pos (pos h) hj
  have hfl := field_le_bpp h j
  have key := fun y => pack_set_or (x := y) (pos h) (validPixel_iff.1 hl) hj hz2
  have hb := vt_bits h
  have hbw := bits_le_width f.vt
  generalize BitField.Spec.width f.fields j = w at *
  generalize BitField.Spec.shift f.fields j = s at *
  simp only [Option.bind_eq_bind, Option.bind_some, Int.toNat_natCast]
  rw [intToInt_spec h.I (compBits_pos f) hw (comp_width h) (vt_width h (by omega : w ≤ f.bpp)) hx, packed_vt h (by omega)]
  have hy := convert_lt x (2 ^ Spec.compBits f - 1) w
  generalize UnitFrac.Spec.convert x (2 ^ Spec.compBits f - 1) (2 ^ w - 1) = y at *
  simp only [Option.bind_some]
  have hlt : y * 2 ^ s < 2 ^ f.vt.bits := by
    have h1 : y * 2 ^ s < 2 ^ w * 2 ^ s := Nat.mul_lt_mul_of_pos_right hy (Nat.two_pow_pos _)
    rw [← Nat.pow_add] at h1
    exact Nat.lt_of_lt_of_le h1 (Nat.pow_le_pow_right (by decide) (by omega))
  rw [shl_nat (by omega) hlt]
  simp only [Option.bind_some]
  have hpl := lt_vt h (Nat.le_refl _) (pixelBits_lt h hl)
  unfold Spec.pixelBits at hpl
  rw [bitOr_nat hpl hlt, ← key y hy]

theorem setComponents_spec (h : Spec.Ok f) {c : List Nat} (hc : Spec.ValidColor f c) : ∀ n i l, i + n = f.n → Spec.ValidPixel f l →
    (∀ j, i ≤ j → j < f.n → l[j]? = some 0) → (∀ j, j < i → l[j]? = (Spec.quantized f c)[j]?) →
    setComponents f (Spec.color f c) n i (Spec.pixelBits f l) = some (Spec.pixelBits f (Spec.quantized f c) : Int) := by
  intro n
  induction n with
  | zero =>
    intro i l hi hl _ hlt
    have : l = Spec.quantized f c := by
      apply List.ext_getElem?
      intro j
      by_cases hj : j < i
      · exact hlt j hj
      · have hln : l.length = f.n := hl.1
        rw [List.getElem?_eq_none (by omega), List.getElem?_eq_none (by rw [quantized_length hc]; omega)]
    rw [this]; rfl
  | succ n ih =>
    intro i l hi hl hz hlt
    unfold setComponents
    have hin : i < f.n := by omega
    have hic : i < c.length := by rw [hc.1]; exact hin
    have hln : l.length = f.n := hl.1
    rw [show (Spec.color f c)[i]? = some (BitMedium.Spec.packed f.comp (Spec.compBits f) c[i]) by
      unfold Spec.color; rw [List.getElem?_map, List.getElem?_eq_getElem hic]; rfl]
    simp only [Option.bind_eq_bind, Option.bind_some]
    rw [setComponent_spec h hl hin (hz i (Nat.le_refl _) hin) (hc.2 _ (List.getElem_mem hic))]
    simp only [Option.bind_some]
    have hq := quantized_get hc hic
    have hy := convert_lt c[i] (2 ^ Spec.compBits f - 1) (BitField.Spec.width f.fields (stored f.n f.hasAlpha f.alphaFirst f.reverse i))
    have hw := widths_get (f := f) hin
    generalize UnitFrac.Spec.convert c[i] (2 ^ Spec.compBits f - 1)
      (2 ^ BitField.Spec.width f.fields (stored f.n f.hasAlpha f.alphaFirst f.reverse i) - 1) = y at *
    apply ih (i + 1) (l.set i y) (by omega)
    · refine ⟨by rw [List.length_set]; exact hl.1, fun j w v hjw hjv => ?_⟩
      by_cases hji : i = j
      · subst hji
        rw [List.getElem?_set_self (by omega)] at hjv
        injection hjv with hjv
        rw [hw] at hjw
        injection hjw with hjw
        rw [← hjv, ← hjw]; exact hy
      · rw [List.getElem?_set_ne hji] at hjv
        exact hl.2 j w v hjw hjv
    · intro j hj hjn
      rw [List.getElem?_set_ne (by omega)]
      exact hz j (by omega) hjn
    · intro j hj
      by_cases hji : i = j
      · subst hji
        rw [List.getElem?_set_self (by omega), hq]
      · rw [List.getElem?_set_ne hji]
        exact hlt j (by omega)

theorem zeros_valid (f : Fmt) : Spec.ValidPixel f (List.replicate f.n 0) := by
  refine ⟨by simp [Fmt.n], fun i w v _ hv => ?_⟩
  have := (List.mem_replicate.1 (List.mem_of_getElem? hv)).2
  rw [this]; exact Nat.two_pow_pos _

theorem encodePixel (h : Spec.Ok f) {c : List Nat} (hc : Spec.ValidColor f c) :
    setComponents f (Spec.color f c) f.n 0 0 = some (Spec.pixelBits f (Spec.quantized f c) : Int) := by
  have := setComponents_spec h hc f.n 0 (List.replicate f.n 0) (by omega) (zeros_valid f)
    (fun j _ hj => List.getElem?_replicate_of_lt hj) (fun j hj => absurd hj (by omega))
  unfold Spec.pixelBits at this
  rw [SubwordPixel.order_zeros, pack_zeros] at this
  exact this

/-- The bits that are stored for a color. -/
def stores (f : Fmt) (a : List Int) : Nat := ((setComponents f a f.n 0 0).getD 0).toNat

theorem stores_eq (h : Spec.Ok f) {c : List Nat} (hc : Spec.ValidColor f c) :
    stores f (Spec.color f c) = Spec.pixelBits f (Spec.quantized f c) := by
  unfold stores; rw [encodePixel h hc]; simp

theorem writePixel_spec (h : Spec.Ok f) : PixelGrid.Writes (fun v i => BitMedium.Spec.packed f.word f.B (Spec.wordBits f v i)) f.D
    (fun a => ∃ c, Spec.ValidColor f c ∧ a = Spec.color f c) (writePixel f) (stores f) := by
  rintro buf target a ⟨c, hc, rfl⟩ hb
  rw [stores_eq h hc]
  unfold writePixel
  rw [encodePixel h hc]
  simp only [Option.bind_eq_bind, Option.bind_some]
  exact writeLoop_spec h (pixelBits_lt h (quantized_valid hc)) target buf hb

end Verif.PackedPixel
