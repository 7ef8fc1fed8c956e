import Verif.IntegerPixel.Model
import Verif.IntegerPixel.Spec
import Verif.PixelGrid.Lemmas
/-!
Reading and writing of single pixels.
-/
namespace Verif.IntegerPixel
open Verif.Integer Verif.PixelLoops Verif.BitMedium
open Verif.SubwordPixel (field_le)

variable {f : Fmt}

/-! ### Sizes -/

theorem depth_eq (f : Fmt) : f.depth = Spec.depth f := rfl
theorem compBits_eq (f : Fmt) : f.compBits = Spec.compBits f := rfl

theorem vt_bits (h : Spec.Accepted f) : Spec.depth f ≤ f.vt.bits :=
  unpacked_bits _ _ _ (by have := h.compType; rw [width_eq] at this; exact this)

theorem B_le (h : Spec.Accepted f) : f.B ≤ Spec.depth f := by
  have := field_le (k := f.B) h.D
  unfold Spec.depth; omega

theorem depth_pos (h : Spec.Accepted f) : 0 < Spec.depth f := by have := B_le h; have := h.B; omega

theorem word_width (h : Spec.Accepted f) : f.B ≤ f.word.width := by have := h.word; rw [width_eq] at this; exact this

/-- When the shift operation in the loop of `read_comp()` is defined. -/
theorem shift_ok_iff (h : Spec.Accepted f) : f.B < f.vt.width ↔ f.B ≤ f.I ∨ f.B < BitMedium.Spec.width f.compType := by
  have h1 := h.compType
  have h2 := B_le h
  have hI := h.I
  unfold Fmt.vt unpackedType wide promote
  rw [depth_eq]
  unfold BitMedium.Spec.width at *
  generalize Spec.depth f = d at *
  generalize f.compType = ct at *
  obtain ⟨s, b⟩ := ct
  unfold unsignedOf intTy Ty.width
  by_cases c1 : b ≤ f.I
  · simp only [c1, if_true]
    cases s <;> simp only [Bool.false_eq_true, if_false, if_true] at h1 ⊢
    · rw [if_pos (show f.I ≥ d by omega)]; simp; omega
    · by_cases c2 : f.I ≥ d
      · rw [if_pos c2]; simp; omega
      · rw [if_neg c2]; simp; omega
  · simp only [c1, if_false]
    cases s <;> simp only [Bool.false_eq_true, if_false, if_true] at h1 ⊢
    · simp; omega
    · by_cases c2 : b ≥ d
      · rw [if_pos c2]; simp; omega
      · rw [if_neg c2]; simp; omega

theorem lt_vt (h : Spec.Accepted f) {N v : Nat} (hN : N ≤ Spec.depth f) (hv : v < 2 ^ N) : v < 2 ^ f.vt.bits :=
  Nat.lt_of_lt_of_le hv (Nat.pow_le_pow_right (by decide) (by have := vt_bits h; omega))

theorem mapWordIndex_eq {i : Nat} (hi : i < f.D) : mapWordIndex f i = some (if f.bigWords then i else f.D - 1 - i) := by
  unfold mapWordIndex; rw [if_pos hi]

/-- The position, in order of decreasing significance, of word `t`. -/
def sig (f : Fmt) (t : Nat) : Nat := if f.bigWords then t else f.D - 1 - t

theorem sig_lt {t : Nat} (h : t < f.D) : sig f t < f.D := by unfold sig; split <;> omega

theorem sig_sig {t : Nat} (h : t < f.D) : sig f (sig f t) = t := by unfold sig; split <;> omega

theorem wordBits_sig {v i : Nat} (hi : i < f.D) : Spec.wordBits f v (sig f i) = v / 2 ^ (f.B * (f.D - 1 - i)) % 2 ^ f.B := by
  unfold Spec.wordBits sig
  cases f.bigWords
  · simp
  · simp

theorem wordBits_lt (f : Fmt) (v i : Nat) : Spec.wordBits f v i < 2 ^ f.B := Nat.mod_lt _ (Nat.two_pow_pos _)

theorem top_step (v B k : Nat) : v / 2 ^ (B * (k + 1)) * 2 ^ B + v / 2 ^ (B * k) % 2 ^ B = v / 2 ^ (B * k) := by
  rw [Nat.mul_add, Nat.mul_one, Nat.pow_add, ← Nat.div_div_eq_div_mul]
  exact Nat.div_add_mod' _ _

/-! ### Reading -/

theorem readLoop_spec (h : Spec.Accepted f) (hs : f.B < f.vt.width) {buf : List Int} {chan v : Nat} (hv : v < 2 ^ Spec.depth f)
    (hbuf : ∀ t, t < f.D → buf[chan + t]? = some (BitMedium.Spec.packed f.word f.B (Spec.wordBits f v t))) :
    ∀ n i, i + n = f.D → readLoop f buf chan n i ((v / 2 ^ (f.B * (f.D - i)) : Nat) : Int) = some (v : Int) := by
  intro n
  induction n with
  | zero =>
    intro i hi
    unfold readLoop
    rw [show f.D - i = 0 by omega]; simp
  | succ n ih =>
    intro i hi
    unfold readLoop
    have hin : i < f.D := by omega
    rw [mapWordIndex_eq hin]
    simp only [Option.bind_eq_bind, Option.bind_some]
    have hst := top_step v f.B (f.D - 1 - i)
    have hvb : v < 2 ^ f.vt.bits := lt_vt h (Nat.le_refl _) hv
    have hz : v / 2 ^ (f.B * (f.D - 1 - i)) ≤ v := Nat.div_le_self _ _
    have hy : v / 2 ^ (f.B * (f.D - 1 - i)) % 2 ^ f.B < 2 ^ f.B := Nat.mod_lt _ (Nat.two_pow_pos _)
    have hbj := hbuf (sig f i) (sig_lt hin)
    rw [wordBits_sig hin] at hbj
    rw [show f.D - 1 - i + 1 = f.D - i by omega] at hst
    have ih' := ih (i + 1) (by omega)
    rw [show f.D - (i + 1) = f.D - 1 - i by omega] at ih'
    generalize v / 2 ^ (f.B * (f.D - i)) = x at *
    generalize hzz : v / 2 ^ (f.B * (f.D - 1 - i)) = z at *
    generalize z % 2 ^ f.B = y at *
    rw [shl_nat hs (by omega)]
    simp only [Option.bind_some]
    unfold sig at hbj
    rw [hbj]
    simp only [Option.bind_some]
    rw [unpackInt_spec h.I (word_width h) hy]
    simp only [Option.bind_some]
    obtain ⟨hc1, _⟩ := common_bits f.vt (unpackedType f.I f.word f.B)
    generalize common f.vt (unpackedType f.I f.word f.B) = ty at *
    have hle : 2 ^ f.vt.bits ≤ 2 ^ ty.bits := Nat.pow_le_pow_right (by decide) hc1
    have hx2 : x * 2 ^ f.B < 2 ^ ty.bits := by omega
    have hy2 : y < 2 ^ ty.bits := by omega
    rw [cast_id (t := ty) (x := ((x * 2 ^ f.B : Nat) : Int)) ((In_nonneg (by omega)).2 (by exact_mod_cast hx2)),
      cast_id (t := ty) (x := (y : Int)) ((In_nonneg (by omega)).2 (by exact_mod_cast hy2)),
      bitOr_nat hx2 hy2, Nat.mul_comm x, ← Nat.two_pow_add_eq_or_of_lt hy, Nat.mul_comm, hst,
      cast_id ((In_nonneg (by omega)).2 (by exact_mod_cast (by omega : z < 2 ^ f.vt.bits)))]
    exact ih'

theorem assemble (h : Spec.Accepted f) (hs : f.B < f.vt.width) {buf : List Int} {chan v : Nat} (hv : v < 2 ^ Spec.depth f)
    (hbuf : ∀ t, t < f.D → buf[chan + t]? = some (BitMedium.Spec.packed f.word f.B (Spec.wordBits f v t))) :
    readLoop f buf chan f.D 0 0 = some (v : Int) := by
  have := readLoop_spec h hs hv hbuf f.D 0 (by omega)
  rw [Nat.sub_zero, Nat.div_eq_of_lt (by rw [Nat.mul_comm]; exact hv)] at this
  exact this

theorem undefined {buf : List Int} {chan : Nat} (hD : 0 < f.D) (hs : ¬ f.B < f.vt.width) : readLoop f buf chan f.D 0 0 = none := by
  obtain ⟨d, hd⟩ : ∃ d, f.D = d + 1 := ⟨f.D - 1, by omega⟩
  rw [hd]
  unfold readLoop
  rw [mapWordIndex_eq hD]
  simp only [Option.bind_eq_bind, Option.bind_some]
  unfold shl
  rw [if_neg hs]; rfl

theorem mapChannelIndex_eq {i : Nat} (hi : i < f.n) : mapChannelIndex f i = some (stored f.n f.hasAlpha f.alphaFirst f.reverse i) := by
  unfold mapChannelIndex stored
  rw [if_pos hi]

theorem convert_self {v N : Nat} (hv : v < 2 ^ N) (hN : 0 < N) : UnitFrac.Spec.convert v (2 ^ N - 1) (2 ^ N - 1) = v := by
  have h2 : 2 ≤ 2 ^ N := by
    calc 2 = 2 ^ 1 := rfl
      _ ≤ 2 ^ N := Nat.pow_le_pow_right (by decide) hN
  unfold UnitFrac.Spec.convert
  generalize hm : 2 ^ N - 1 = m at *
  have e : v * (m + 1) / m = v + v / m := by
    rw [Nat.mul_add, Nat.mul_one, Nat.add_comm, Nat.add_mul_div_right _ _ (by omega), Nat.add_comm]
  rw [e]
  by_cases c : v = m
  · subst c; rw [Nat.div_self (by omega)]; omega
  · rw [Nat.div_eq_of_lt (by omega)]; omega

theorem match_iff (f : Fmt) : f.match = true ↔ f.D = 1 ∧ f.same = true ∧ Spec.compBits f = Spec.depth f := by
  unfold Fmt.match
  rw [compBits_eq, depth_eq]
  simp [and_assoc]

theorem compBits_pos (f : Fmt) : 0 < Spec.compBits f := by unfold Spec.compBits; split <;> omega

theorem comp_width (h : Spec.Ok f) : Spec.compBits f ≤ f.comp.width := by have := h.comp; rw [width_eq] at this; exact this

theorem depth_le_compBits (h : Spec.Ok f) : Spec.depth f ≤ Spec.compBits f := by
  have := h.depth; unfold Spec.compBits; split <;> omega

theorem shift_ok (h : Spec.Ok f) : f.B < f.vt.width :=
  (shift_ok_iff h.toAccepted).2 (Or.inl (by have := B_le h.toAccepted; have := h.depth; have := h.I16; omega))

theorem packed_vt (h : Spec.Accepted f) (v : Nat) : BitMedium.Spec.packed f.vt (Spec.depth f) v = v := packed_of_le (vt_bits h)

theorem vt_width (h : Spec.Accepted f) : Spec.depth f ≤ f.vt.width := by
  have := vt_bits h; have := bits_le_width f.vt; omega

theorem wordBits_one {v : Nat} (hD : f.D = 1) (hv : v < 2 ^ Spec.depth f) : Spec.wordBits f v 0 = v := by
  unfold Spec.depth at hv
  rw [hD, Nat.one_mul] at hv
  unfold Spec.wordBits
  rw [hD]; simp
  exact Nat.mod_eq_of_lt hv

theorem order_get_stored {c : List Nat} (hc : c.length = f.n) {i : Nat} (hi : i < c.length) :
    (PixelLoops.Spec.order f.hasAlpha f.alphaFirst f.reverse c).getD (stored f.n f.hasAlpha f.alphaFirst f.reverse i) 0 = c[i] := by
  have := order_stored (ha := f.hasAlpha) (af := f.alphaFirst) (rv := f.reverse) c i hi
  rw [hc, List.getElem?_eq_getElem hi] at this
  rw [List.getD_eq_getElem?_getD, this]; rfl

theorem readComp_spec (h : Spec.Ok f) {buf : List Int} {source : Nat} {c : List Nat} (hc : Spec.ValidPixel f c)
    (hbuf : ∀ t, t < f.n * f.D → buf[source + t]? = some (Spec.pixelWord f c t)) {i : Nat} (hi : i < c.length) :
    readComp f buf source i = some (BitMedium.Spec.packed f.comp (Spec.compBits f)
      (UnitFrac.Spec.convert c[i] (2 ^ Spec.depth f - 1) (2 ^ Spec.compBits f - 1))) := by
  have hin : i < f.n := by rw [← hc.1]; exact hi
  have hv : c[i] < 2 ^ Spec.depth f := hc.2 _ (List.getElem_mem hi)
  have hog := order_get_stored (f := f) hc.1 hi
  have hj : stored f.n f.hasAlpha f.alphaFirst f.reverse i < f.n := stored_lt hin
  unfold readComp
  rw [mapChannelIndex_eq hin]
  generalize stored f.n f.hasAlpha f.alphaFirst f.reverse i = j at *
  simp only [Option.bind_eq_bind, Option.bind_some]
  have hw : ∀ t, t < f.D → buf[source + j * f.D + t]? = some (BitMedium.Spec.packed f.word f.B (Spec.wordBits f c[i] t)) := by
    intro t ht
    have := field_le (k := f.D) hj
    rw [Nat.add_assoc, hbuf _ (by omega)]
    unfold Spec.pixelWord
    rw [div_of ht, hog, show (j * f.D + t) % f.D = t by rw [Nat.mul_comm, Nat.mul_add_mod, Nat.mod_eq_of_lt ht]]
  split
  · rename_i hm
    obtain ⟨m1, m2, m3⟩ := (match_iff f).1 hm
    have h0 := hw 0 h.D
    rw [Nat.add_zero] at h0
    have hB : f.B = Spec.depth f := by unfold Spec.depth; rw [m1, Nat.one_mul]
    rw [h0, wordBits_one m1 hv, m3, convert_self hv (depth_pos h.toAccepted), h.same m2, ← hB]
  · rw [assemble h.toAccepted (shift_ok h) hv hw]
    simp only [Option.bind_some]
    rw [depth_eq, compBits_eq]
    have := intToInt_spec h.I (depth_pos h.toAccepted) (compBits_pos f) (vt_width h.toAccepted) (comp_width h) hv
    rw [packed_vt h.toAccepted] at this
    exact this

theorem readComps_spec (h : Spec.Ok f) {buf : List Int} {source : Nat} {c : List Nat} (hc : Spec.ValidPixel f c)
    (hbuf : ∀ t, t < f.n * f.D → buf[source + t]? = some (Spec.pixelWord f c t)) : ∀ n i, i + n = f.n →
    readComps f buf source n i = some ((Spec.transferred f c).drop i) := by
  intro n
  induction n with
  | zero =>
    intro i hi
    rw [List.drop_eq_nil_of_le (by simp [Spec.transferred, hc.1]; omega)]; rfl
  | succ n ih =>
    intro i hi
    have hic : i < c.length := by rw [hc.1]; omega
    unfold readComps
    rw [readComp_spec h hc hbuf hic, ih (i + 1) (by omega)]
    simp only [Option.bind_eq_bind, Option.bind_some]
    rw [List.drop_eq_getElem_cons (show i < (Spec.transferred f c).length by simpa [Spec.transferred] using hic)]
    congr 2
    simp [Spec.transferred]

theorem readPixel_spec (h : Spec.Ok f) :
    PixelGrid.Reads (Spec.pixelWord f) (f.n * f.D) (Spec.ValidPixel f) (readPixel f) (Spec.transferred f) := by
  intro buf source c hc hbuf
  exact readComps_spec h hc hbuf f.n 0 (by omega)

/-! ### Writing -/

/-- A channel value as it is stored. -/
def storesComp (f : Fmt) (x : Int) : Nat := ((intToInt f.I f.compBits f.vt f.depth f.comp x).getD 0).toNat

/-- The channel values that are stored for a color. -/
def stores (f : Fmt) (a : List Int) : List Nat := a.map (storesComp f)

theorem convert_lt (v m w : Nat) : UnitFrac.Spec.convert v m (2 ^ w - 1) < 2 ^ w := by
  have := Nat.two_pow_pos w
  unfold UnitFrac.Spec.convert; omega

theorem toStored (h : Spec.Ok f) {x : Nat} (hx : x < 2 ^ Spec.compBits f) :
    intToInt f.I f.compBits f.vt f.depth f.comp (BitMedium.Spec.packed f.comp (Spec.compBits f) x) =
      some ((UnitFrac.Spec.convert x (2 ^ Spec.compBits f - 1) (2 ^ Spec.depth f - 1) : Nat) : Int) := by
  have := intToInt_spec h.I (compBits_pos f) (depth_pos h.toAccepted) (comp_width h) (vt_width h.toAccepted) hx
  rw [packed_vt h.toAccepted] at this
  exact this

theorem stores_eq (h : Spec.Ok f) {c : List Nat} (hc : Spec.ValidColor f c) : stores f (Spec.color f c) = Spec.quantized f c := by
  unfold stores Spec.color Spec.quantized
  rw [List.map_map]
  apply List.map_congr_left
  intro v hv
  simp only [Function.comp]
  unfold storesComp
  rw [toStored h (hc.2 v hv)]; simp

theorem writeLoop_spec (h : Spec.Accepted f) {v : Nat} (hv : v < 2 ^ Spec.depth f) (chan : Nat) : ∀ n i buf, i + n = f.D →
    chan + f.D ≤ buf.length → ∃ buf', writeLoop f v chan n i buf = some buf' ∧ buf'.length = buf.length ∧
      ∀ k, buf'[k]? = if chan ≤ k ∧ k < chan + f.D ∧ i ≤ sig f (k - chan) then
          some (BitMedium.Spec.packed f.word f.B (Spec.wordBits f v (k - chan))) else buf[k]? := by
  intro n
  induction n with
  | zero =>
    intro i buf hi _
    refine ⟨buf, rfl, rfl, fun k => ?_⟩
    rw [if_neg]
    rintro ⟨h1, h2, h3⟩
    have := sig_lt (f := f) (t := k - chan) (by omega)
    omega
  | succ n ih =>
    intro i buf hi hb
    have hin : i < f.D := by omega
    have hvb := vt_bits h
    have hbw := bits_le_width f.vt
    have hBd := B_le h
    have hB := h.B
    have hfl := field_le (k := f.B) (show f.D - 1 - i < f.D by omega)
    have hm : intMask f.I f.vt f.B = some ((2 ^ f.B - 1 : Nat) : Int) := by
      have hp := Nat.two_pow_pos f.B
      rw [intMask_spec h.I, Int.toNat_natCast, Nat.min_eq_left (by omega)]
      push_cast [hp]; rfl
    have h1 : v / 2 ^ ((f.D - 1 - i) * f.B) < 2 ^ f.vt.bits := Nat.lt_of_le_of_lt (Nat.div_le_self _ _) (lt_vt h (Nat.le_refl _) hv)
    have h2 : 2 ^ f.B - 1 < 2 ^ f.vt.bits := lt_vt h hBd (by have := Nat.two_pow_pos f.B; omega)
    unfold writeLoop
    rw [mapWordIndex_eq hin, hm]
    simp only []
    rw [shr_nat (by unfold Spec.depth at *; omega)]
    simp only [Option.bind_eq_bind, Option.bind_some]
    rw [bitAnd_nat h1 h2, Nat.and_two_pow_sub_one_eq_mod, Nat.mul_comm (f.D - 1 - i) f.B, ← wordBits_sig hin]
    have hlt := wordBits_lt f v (sig f i)
    rw [packInt_spec (word_width h) hlt ((In_nonneg (by omega)).2 (by exact_mod_cast lt_vt h hBd hlt))]
    simp only [Option.bind_some]
    have hsl := sig_lt hin
    change ∃ buf', (if chan + sig f i < buf.length then writeLoop f v chan n (i + 1) (buf.set (chan + sig f i) _) else none) = _ ∧ _
    rw [if_pos (by omega)]
    obtain ⟨buf', e1, e2, e3⟩ := ih (i + 1)
      (buf.set (chan + sig f i) (BitMedium.Spec.packed f.word f.B (Spec.wordBits f v (sig f i)))) (by omega)
      (by rw [List.length_set]; exact hb)
    refine ⟨buf', e1, by rw [e2, List.length_set], fun k => ?_⟩
    rw [e3 k]
    by_cases c1 : chan ≤ k ∧ k < chan + f.D ∧ i + 1 ≤ sig f (k - chan)
    · rw [if_pos c1, if_pos ⟨c1.1, c1.2.1, by omega⟩]
    · rw [if_neg c1]
      by_cases c2 : k = chan + sig f i
      · subst c2
        rw [Nat.add_sub_cancel_left, sig_sig hin, if_pos ⟨by omega, by omega, Nat.le_refl _⟩, List.getElem?_set_self (by omega)]
      · rw [List.getElem?_set_ne (by omega), if_neg]
        rintro ⟨d1, d2, d3⟩
        have : sig f (k - chan) = i := by
          by_contra hne
          exact c1 ⟨d1, d2, by omega⟩
        apply c2
        rw [← this, sig_sig (by omega)]; omega

theorem writeComp_spec (h : Spec.Ok f) {x : Nat} (hx : x < 2 ^ Spec.compBits f) {i : Nat} (hi : i < f.n) (buf : List Int)
    (target : Nat) (hb : target + f.n * f.D ≤ buf.length) :
    ∃ buf', writeComp f (BitMedium.Spec.packed f.comp (Spec.compBits f) x) buf target i = some buf' ∧ buf'.length = buf.length ∧
      ∀ k, buf'[k]? = if target ≤ k ∧ k < target + f.n * f.D ∧ (k - target) / f.D = stored f.n f.hasAlpha f.alphaFirst f.reverse i then
          some (BitMedium.Spec.packed f.word f.B (Spec.wordBits f
            (UnitFrac.Spec.convert x (2 ^ Spec.compBits f - 1) (2 ^ Spec.depth f - 1)) ((k - target) % f.D))) else buf[k]? := by
  unfold writeComp
  rw [mapChannelIndex_eq hi]
  have hj : stored f.n f.hasAlpha f.alphaFirst f.reverse i < f.n := stored_lt hi
  generalize stored f.n f.hasAlpha f.alphaFirst f.reverse i = j at *
  simp only [Option.bind_eq_bind, Option.bind_some]
  have hfl := field_le (k := f.D) hj
  have hD := h.D
  have hpos : ∀ k, (target ≤ k ∧ k < target + f.n * f.D ∧ (k - target) / f.D = j) ↔ (target + j * f.D ≤ k ∧ k < target + j * f.D + f.D) := by
    intro k
    have hdm := Nat.div_add_mod' (k - target) f.D
    have hml := Nat.mod_lt (k - target) hD
    constructor
    · rintro ⟨d1, d2, d3⟩
      rw [d3] at hdm
      omega
    · rintro ⟨d1, d2⟩
      refine ⟨by omega, by omega, ?_⟩
      rw [show k - target = j * f.D + (k - target - j * f.D) by omega, div_of (by omega)]
  have hmod : ∀ k, target + j * f.D ≤ k → k < target + j * f.D + f.D → (k - target) % f.D = k - (target + j * f.D) := by
    intro k d1 d2
    rw [show k - target = f.D * j + (k - (target + j * f.D)) by rw [Nat.mul_comm]; omega, Nat.mul_add_mod,
      Nat.mod_eq_of_lt (by omega)]
  have hy := convert_lt x (2 ^ Spec.compBits f - 1) (Spec.depth f)
  split
  · rename_i hm
    obtain ⟨m1, m2, m3⟩ := (match_iff f).1 hm
    have hB : f.B = Spec.depth f := by unfold Spec.depth; rw [m1, Nat.one_mul]
    rw [if_pos (by omega)]
    refine ⟨_, rfl, List.length_set, fun k => ?_⟩
    simp only [hpos]
    by_cases c : k = target + j * f.D
    · subst c
      rw [List.getElem?_set_self (by omega), if_pos (by omega), hmod _ (by omega) (by omega), Nat.sub_self, wordBits_one m1 hy,
        m3, convert_self (by rw [← m3]; exact hx) (depth_pos h.toAccepted), h.same m2, ← hB]
    · rw [List.getElem?_set_ne (by omega), if_neg (by omega)]
  · rw [toStored h hx]
    simp only [Option.bind_some]
    obtain ⟨buf', e1, e2, e3⟩ := writeLoop_spec h.toAccepted hy (target + j * f.D) f.D 0 buf (by omega) (by omega)
    refine ⟨buf', e1, e2, fun k => ?_⟩
    rw [e3 k]
    simp only [hpos, Nat.zero_le, and_true]
    split
    · rename_i hc
      rw [hmod _ hc.1 hc.2]
    · rfl

theorem writeComps_spec (h : Spec.Ok f) {c : List Nat} (hc : Spec.ValidColor f c) (target : Nat) : ∀ n i buf, i + n = f.n →
    target + f.n * f.D ≤ buf.length → ∃ buf', writeComps f (Spec.color f c) target n i buf = some buf' ∧ buf'.length = buf.length ∧
      ∀ k, buf'[k]? = if target ≤ k ∧ k < target + f.n * f.D ∧
          i ≤ unstored f.n f.hasAlpha f.alphaFirst f.reverse ((k - target) / f.D) then
          some (Spec.pixelWord f (Spec.quantized f c) (k - target)) else buf[k]? := by
  intro n
  induction n with
  | zero =>
    intro i buf hi _
    refine ⟨buf, rfl, rfl, fun k => ?_⟩
    rw [if_neg]
    rintro ⟨d1, d2, d3⟩
    have : (k - target) / f.D < f.n := by
      rw [Nat.div_lt_iff_lt_mul h.D]; omega
    have := unstored_lt (ha := f.hasAlpha) (af := f.alphaFirst) (rv := f.reverse) this
    omega
  | succ n ih =>
    intro i buf hi hb
    have hin : i < f.n := by omega
    have hic : i < c.length := by rw [hc.1]; exact hin
    unfold writeComps
    rw [show (Spec.color f c)[i]? = some (BitMedium.Spec.packed f.comp (Spec.compBits f) c[i]) by
      unfold Spec.color; rw [List.getElem?_map, List.getElem?_eq_getElem hic]; rfl]
    simp only [Option.bind_eq_bind, Option.bind_some]
    obtain ⟨buf1, e1, e2, e3⟩ := writeComp_spec h (hc.2 _ (List.getElem_mem hic)) hin buf target hb
    rw [e1]
    simp only [Option.bind_some]
    obtain ⟨buf', g1, g2, g3⟩ := ih (i + 1) buf1 (by omega) (by omega)
    refine ⟨buf', g1, by omega, fun k => ?_⟩
    rw [g3 k, e3 k]
    by_cases c1 : target ≤ k ∧ k < target + f.n * f.D
    · have hq : (k - target) / f.D < f.n := by rw [Nat.div_lt_iff_lt_mul h.D]; omega
      simp only [c1, true_and]
      by_cases c2 : i + 1 ≤ unstored f.n f.hasAlpha f.alphaFirst f.reverse ((k - target) / f.D)
      · rw [if_pos c2, if_pos (by omega)]
      · rw [if_neg c2]
        by_cases c3 : (k - target) / f.D = stored f.n f.hasAlpha f.alphaFirst f.reverse i
        · rw [if_pos c3, if_pos (by rw [c3, unstored_stored hin])]
          unfold Spec.pixelWord
          have hqi : i < (Spec.quantized f c).length := by simpa [Spec.quantized] using hic
          rw [c3, order_get_stored (by simpa [Spec.quantized] using hc.1) hqi]
          simp [Spec.quantized]
        · rw [if_neg c3, if_neg]
          intro c4
          apply c3
          rw [show i = unstored f.n f.hasAlpha f.alphaFirst f.reverse ((k - target) / f.D) by omega, stored_unstored hq]
    · rw [if_neg (fun hc => c1 ⟨hc.1, hc.2.1⟩), if_neg (fun hc => c1 ⟨hc.1, hc.2.1⟩), if_neg (fun hc => c1 ⟨hc.1, hc.2.1⟩)]

theorem writePixel_spec (h : Spec.Ok f) : PixelGrid.Writes (Spec.pixelWord f) (f.n * f.D)
    (fun a => ∃ c, Spec.ValidColor f c ∧ a = Spec.color f c) (writePixel f) (stores f) := by
  rintro buf target a ⟨c, hc, rfl⟩ hb
  rw [stores_eq h hc]
  obtain ⟨buf', e1, e2, e3⟩ := writeComps_spec h hc target f.n 0 buf (by omega) hb
  refine ⟨buf', e1, e2, fun k => ?_⟩
  rw [e3 k]
  simp only [Nat.zero_le, and_true]

theorem quantized_valid {c : List Nat} (hc : Spec.ValidColor f c) : Spec.ValidPixel f (Spec.quantized f c) := by
  refine ⟨by simp [Spec.quantized, hc.1], fun v hv => ?_⟩
  obtain ⟨w, _, rfl⟩ := List.mem_map.1 hv
  exact convert_lt _ _ _

end Verif.IntegerPixel
