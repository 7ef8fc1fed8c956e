import Verif.IndexedPixel.Model
import Verif.IndexedPixel.Spec
import Verif.SubwordPixel.Props
/-!
Reading, writing and filling in terms of encoded images.
-/
namespace Verif.IndexedPixel
open Verif.Integer Verif.PixelLoops Verif.BitMedium
open Verif.SubwordPixel (bitXor bitXor_nat field_le order_zeros)

variable {f : Fmt}

/-! ### Sizes -/

theorem vt_bits (h : Spec.Ok f) : f.bpc ≤ f.vt.bits :=
  unpacked_bits _ _ _ (by have := h.compound; rw [width_eq] at this; exact this)

theorem word_width (h : Spec.Ok f) : f.B ≤ f.word.width := by have := h.word; rw [width_eq] at this; exact this

theorem comp_width (h : Spec.Ok f) : indexBits ≤ f.comp.width := by have := h.comp; rw [width_eq] at this; exact this

theorem M_le (h : Spec.Ok f) : f.M ≤ f.bpc := by
  have := field_le (k := f.M) h.N
  have := h.fits
  unfold Fmt.bpc; omega

theorem B_le (h : Spec.Ok f) : f.B ≤ f.bpc := by
  have := field_le (k := f.B) h.D
  unfold Fmt.bpc; omega

theorem mask_nat (h : Spec.Ok f) {N : Nat} (hN : N ≤ f.bpc) : intMask f.I f.vt N = some ((2 ^ N - 1 : Nat) : Int) := by
  have := vt_bits h
  have hp := Nat.two_pow_pos N
  rw [intMask_spec h.I, Int.toNat_natCast, Nat.min_eq_left (by omega)]
  push_cast [hp]; rfl

theorem lt_vt (h : Spec.Ok f) {N v : Nat} (hN : N ≤ f.bpc) (hv : v < 2 ^ N) : v < 2 ^ f.vt.bits :=
  Nat.lt_of_lt_of_le hv (Nat.pow_le_pow_right (by decide) (by have := vt_bits h; omega))

theorem mask_lt (h : Spec.Ok f) {N : Nat} (hN : N ≤ f.bpc) : 2 ^ N - 1 < 2 ^ f.vt.bits :=
  lt_vt h hN (by have := Nat.two_pow_pos N; omega)

/-- Extraction of a field. -/
theorem extract (h : Spec.Ok f) {v q k : Nat} (hv : v < 2 ^ f.bpc) (hk : 0 < k) (hq : q * k + k ≤ f.bpc) :
    shr f.vt v (q * k) = some ((v / 2 ^ (q * k) : Nat) : Int) ∧ intMask f.I f.vt k = some ((2 ^ k - 1 : Nat) : Int) ∧
      bitAnd f.vt ((v / 2 ^ (q * k) : Nat) : Int) ((2 ^ k - 1 : Nat) : Int) = ((v / 2 ^ (k * q) % 2 ^ k : Nat) : Int) := by
  have hb := vt_bits h
  have hw := bits_le_width f.vt
  refine ⟨shr_nat (by omega), mask_nat h (by omega), ?_⟩
  have h1 : v / 2 ^ (q * k) < 2 ^ f.vt.bits := Nat.lt_of_le_of_lt (Nat.div_le_self _ _) (lt_vt h (Nat.le_refl _) hv)
  rw [bitAnd_nat h1 (mask_lt h (by omega)), Nat.and_two_pow_sub_one_eq_mod, Nat.mul_comm q k]

/-- A shifted field. -/
theorem shift_lt (h : Spec.Ok f) {x q k : Nat} (hx : x < 2 ^ k) (hq : q * k + k ≤ f.bpc) : x * 2 ^ (q * k) < 2 ^ f.vt.bits := by
  have hb := vt_bits h
  have : x * 2 ^ (q * k) < 2 ^ k * 2 ^ (q * k) := Nat.mul_lt_mul_of_pos_right hx (Nat.two_pow_pos _)
  rw [← Nat.pow_add] at this
  exact Nat.lt_of_lt_of_le this (Nat.pow_le_pow_right (by decide) (by omega))

theorem shift_nat (h : Spec.Ok f) {x q k : Nat} (hk : 0 < k) (hx : x < 2 ^ k) (hq : q * k + k ≤ f.bpc) :
    shl f.vt x (q * k) = some ((x * 2 ^ (q * k) : Nat) : Int) :=
  shl_nat (by have := vt_bits h; have := bits_le_width f.vt; omega) (shift_lt h hx hq)

theorem mapPixelPos_eq (p : Nat) (hp : p < f.N) :
    mapPixelPos f p = some (f.N - 1 - stored f.N false false (!f.bigBits) p) := by
  unfold mapPixelPos stored
  rw [if_pos hp]
  cases f.bigBits <;> simp <;> omega

theorem mapWordIndex_eq (i : Nat) (hi : i < f.D) :
    mapWordIndex f i = some (f.D - 1 - stored f.D false false (!f.bigWords) i) := by
  unfold mapWordIndex stored
  rw [if_pos hi]
  cases f.bigWords <;> simp <;> omega

theorem wordBits_eq (v i : Nat) (hi : i < f.D) :
    Spec.wordBits f v i = v / 2 ^ (f.B * (f.D - 1 - stored f.D false false (!f.bigWords) i)) % 2 ^ f.B := by
  unfold Spec.wordBits stored
  cases f.bigWords <;> simp
  rw [show f.D - 1 - (f.D - 1 - i) = i by omega]

theorem wordBits_lt (v i : Nat) : Spec.wordBits f v i < 2 ^ f.B := Nat.mod_lt _ (Nat.two_pow_pos _)

/-! ### Compounds -/

/-- The pixels of compound `k` in order of decreasing significance. -/
def pixels (f : Fmt) (s : Nat → Nat) (k : Nat) : List Nat :=
  PixelLoops.Spec.order false false (!f.bigBits) ((List.range f.N).map fun p => s (k * f.N + p))

theorem compoundBits_eq (f : Fmt) (s : Nat → Nat) (k : Nat) :
    Spec.compoundBits f s k = PixelLoops.Spec.num (2 ^ f.M) (pixels f s k) := by
  unfold Spec.compoundBits pixels PixelLoops.Spec.order
  cases f.bigBits <;> simp

theorem pixels_length (f : Fmt) (s : Nat → Nat) (k : Nat) : (pixels f s k).length = f.N := by
  unfold pixels; rw [order_length]; simp

theorem pixels_lt {s : Nat → Nat} (hs : ∀ i, s i < 2 ^ f.M) (k : Nat) : ∀ d ∈ pixels f s k, d < 2 ^ f.M := by
  intro d hd
  obtain ⟨i, _, rfl⟩ := List.mem_map.1 (order_mem hd)
  exact hs _

theorem compound_lt (h : Spec.Ok f) {s : Nat → Nat} (hs : ∀ i, s i < 2 ^ f.M) (k : Nat) : Spec.compoundBits f s k < 2 ^ f.bpc := by
  have := num_lt (pixels_lt hs k)
  rw [pixels_length, ← Nat.pow_mul, Nat.mul_comm, ← compoundBits_eq] at this
  exact Nat.lt_of_lt_of_le this (Nat.pow_le_pow_right (by decide) h.fits)

theorem compound_get {s : Nat → Nat} (hs : ∀ i, s i < 2 ^ f.M) (k : Nat) {p : Nat} (hp : p < f.N) :
    Spec.compoundBits f s k / 2 ^ (f.M * (f.N - 1 - stored f.N false false (!f.bigBits) p)) % 2 ^ f.M = s (k * f.N + p) := by
  have hst : stored f.N false false (!f.bigBits) p < (pixels f s k).length := by rw [pixels_length]; exact stored_lt hp
  have := num_get hst (pixels_lt hs k)
  rw [pixels_length] at this
  rw [compoundBits_eq, this]
  have h2 := order_stored (ha := false) (af := false) (rv := !f.bigBits) ((List.range f.N).map fun p => s (k * f.N + p)) p
    (by simpa using hp)
  rw [List.length_map, List.length_range, List.getElem?_map, List.getElem?_range hp] at h2
  rw [List.getElem?_eq_getElem (by simpa [pixels] using hst)] at h2
  injection h2

theorem pixels_upd (s : Nat → Nat) (k : Nat) {p : Nat} (hp : p < f.N) (x : Nat) :
    pixels f (upd s (k * f.N + p) 1 (fun _ => x)) k = (pixels f s k).set (stored f.N false false (!f.bigBits) p) x := by
  unfold pixels
  have e : ((List.range f.N).map fun p' => upd s (k * f.N + p) 1 (fun _ => x) (k * f.N + p')) =
      ((List.range f.N).map fun p' => s (k * f.N + p')).set p x := by
    apply List.ext_getElem?
    intro j
    by_cases hj : j < f.N
    · rw [List.getElem?_set]
      simp only [List.getElem?_map, List.getElem?_range hj, Option.map_some, List.length_map, List.length_range]
      unfold upd
      by_cases hjp : p = j
      · subst hjp; simp [hj]
      · rw [if_neg (by omega), if_neg hjp]
    · rw [List.getElem?_eq_none (by simp; omega), List.getElem?_eq_none (by simp; omega)]
  rw [e, order_set _ _ _ (by simpa using hp), List.length_map, List.length_range]

theorem index_lt8 (h : Spec.Ok f) {v : Nat} (hv : v < 2 ^ f.M) : v < 2 ^ indexBits :=
  Nat.lt_of_lt_of_le hv (Nat.pow_le_pow_right (by decide) h.M8)

theorem getPixel_spec (h : Spec.Ok f) {s : Nat → Nat} (hs : ∀ i, s i < 2 ^ f.M) (k : Nat) {p : Nat} (hp : p < f.N) :
    getPixel f (Spec.compoundBits f s k) p = some (Spec.color f (s (k * f.N + p))) := by
  unfold getPixel
  rw [mapPixelPos_eq p hp]
  have hg := compound_get hs k hp
  generalize hq : f.N - 1 - stored f.N false false (!f.bigBits) p = q at hg
  have hqn : q < f.N := by have := h.N; omega
  have hfl : q * f.M + f.M ≤ f.bpc := Nat.le_trans (field_le hqn) h.fits
  obtain ⟨e1, e2, e3⟩ := extract h (compound_lt h hs k) h.M hfl
  simp only [Option.bind_eq_bind, Option.bind_some]
  rw [e1, e2]
  simp only [Option.bind_some]
  rw [e3, hg, packInt_spec (comp_width h) (index_lt8 h (hs _))]
  · rfl
  · rw [In_nonneg (by omega)]
    exact_mod_cast lt_vt h (M_le h) (hs _)

theorem setPixel_spec (h : Spec.Ok f) {s : Nat → Nat} (hs : ∀ i, s i < 2 ^ f.M) (k : Nat) {p : Nat} (hp : p < f.N) {x : Nat}
    (hx : x < 2 ^ f.M) :
    setPixel f (Spec.color f x) (Spec.compoundBits f s k) p =
      some (Spec.compoundBits f (upd s (k * f.N + p) 1 (fun _ => x)) k : Int) := by
  unfold setPixel
  rw [show unpackInt f.I indexBits f.comp (Spec.color f x) = some (x : Int) from
    unpackInt_spec h.I (comp_width h) (index_lt8 h hx), mapPixelPos_eq p hp]
  have hst : stored f.N false false (!f.bigBits) p < (pixels f s k).length := by rw [pixels_length]; exact stored_lt hp
  have key := num_set_field (N := f.bpc) hst (pixels_lt hs k) hx (by rw [pixels_length, Nat.mul_comm]; exact h.fits)
  rw [pixels_length, ← pixels_upd s k hp x, ← compoundBits_eq, ← compoundBits_eq] at key
  generalize hq : f.N - 1 - stored f.N false false (!f.bigBits) p = q at key
  have hqn : q < f.N := by have := h.N; omega
  have hfl : q * f.M + f.M ≤ f.bpc := Nat.le_trans (field_le hqn) h.fits
  have hm : 2 ^ f.M - 1 < 2 ^ f.M := by have := Nat.two_pow_pos f.M; omega
  rw [mask_nat h (Nat.le_refl _), mask_nat h (M_le h)]
  simp only [Option.bind_eq_bind, Option.bind_some]
  rw [cast_id ((In_nonneg (by omega)).2 (by exact_mod_cast lt_vt h (M_le h) hx)), shift_nat h h.M hm hfl, shift_nat h h.M hx hfl]
  simp only [Option.bind_some]
  have hu := lt_vt h (Nat.le_refl _) (compound_lt h hs k)
  have hxor := Nat.xor_lt_two_pow (mask_lt h (Nat.le_refl _)) (shift_lt h hm hfl)
  rw [bitXor_nat (mask_lt h (Nat.le_refl _)) (shift_lt h hm hfl), bitAnd_nat hu hxor,
    bitOr_nat (Nat.and_lt_two_pow _ hxor) (shift_lt h hx hfl)]
  rw [Nat.mul_comm q, key]

/-! ### Words of a compound -/

theorem ws_valid {n B : Nat} {ws : List Nat} (hw : ws.length = n ∧ ∀ d ∈ ws, d < 2 ^ B) {a b c : Bool} :
    PixelLoops.Spec.num (2 ^ B) (PixelLoops.Spec.order a b c ws) < 2 ^ (n * B) := by
  have := num_lt (b := 2 ^ B) (l := PixelLoops.Spec.order a b c ws) (fun d hd => hw.2 d (order_mem hd))
  rw [order_length, hw.1, ← Nat.pow_mul, Nat.mul_comm] at this
  exact this

theorem readLoop_spec (h : Spec.Ok f) {buf : List Int} {source : Nat} {ws : List Nat} (hws : ws.length = f.D ∧ ∀ d ∈ ws, d < 2 ^ f.B)
    (hbuf : ∀ i (hi : i < ws.length), buf[source + i]? = some (BitMedium.Spec.packed f.word f.B ws[i])) :
    ∀ n i l, i + n = f.D → (l.length = f.D ∧ ∀ d ∈ l, d < 2 ^ f.B) →
      (∀ j, i ≤ j → j < f.D → l[j]? = some 0) → (∀ j, j < i → l[j]? = ws[j]?) →
      readLoop f buf source n i
        (PixelLoops.Spec.num (2 ^ f.B) (PixelLoops.Spec.order false false (!f.bigWords) l) : Nat) =
      some (PixelLoops.Spec.num (2 ^ f.B) (PixelLoops.Spec.order false false (!f.bigWords) ws) : Nat) := by
  intro n
  induction n with
  | zero =>
    intro i l hi hl _ hlt
    have : l = ws := by
      apply List.ext_getElem?
      intro j
      by_cases hj : j < i
      · exact hlt j hj
      · rw [List.getElem?_eq_none (by rw [hl.1]; omega), List.getElem?_eq_none (by rw [hws.1]; omega)]
    rw [this]; rfl
  | succ n ih =>
    intro i l hi hl hz hlt
    unfold readLoop
    have hin : i < f.D := by omega
    have hiw : i < ws.length := by rw [hws.1]; exact hin
    have hx : ws[i] < 2 ^ f.B := hws.2 _ (List.getElem_mem hiw)
    rw [mapWordIndex_eq i hin, hbuf i hiw]
    simp only [Option.bind_eq_bind, Option.bind_some]
    rw [unpackInt_spec h.I (word_width h) hx]
    simp only [Option.bind_some]
    rw [cast_id ((In_nonneg (by omega)).2 (by exact_mod_cast lt_vt h (B_le h) hx))]
    have hst : stored f.D false false (!f.bigWords) i < (PixelLoops.Spec.order false false (!f.bigWords) l).length := by
      rw [order_length, hl.1]; exact stored_lt hin
    have hzero : (PixelLoops.Spec.order false false (!f.bigWords) l)[stored f.D false false (!f.bigWords) i] = 0 := by
      have h2 := order_stored (ha := false) (af := false) (rv := !f.bigWords) l i (by rw [hl.1]; exact hin)
      rw [hl.1, hz i (Nat.le_refl _) hin, List.getElem?_eq_getElem hst] at h2
      injection h2
    have key := num_or_field hst (fun d hd => hl.2 d (order_mem hd)) hx hzero
    rw [order_length, hl.1] at key
    have hos := order_set (ha := false) (af := false) (rv := !f.bigWords) l i ws[i] (by rw [hl.1]; exact hin)
    rw [hl.1] at hos
    rw [← hos] at key
    generalize hq : f.D - 1 - stored f.D false false (!f.bigWords) i = q at key
    have hqn : q < f.D := by omega
    have hfl : q * f.B + f.B ≤ f.bpc := field_le hqn
    rw [shift_nat h h.B hx hfl]
    simp only [Option.bind_some]
    rw [bitOr_nat (lt_vt h (Nat.le_refl _) (ws_valid hl)) (shift_lt h hx hfl), Nat.mul_comm q, key]
    apply ih (i + 1) (l.set i ws[i]) (by omega)
    · refine ⟨by rw [List.length_set, hl.1], fun d hd => ?_⟩
      rcases List.mem_or_eq_of_mem_set hd with hd | rfl
      · exact hl.2 d hd
      · exact hx
    · intro j hj hjn
      rw [List.getElem?_set_ne (by omega)]
      exact hz j (by omega) hjn
    · intro j hj
      by_cases hji : i = j
      · subst hji
        rw [List.getElem?_set_self (by rw [hl.1]; exact hin), List.getElem?_eq_getElem hiw]
      · rw [List.getElem?_set_ne hji]
        exact hlt j (by omega)

/-- The words of a compound. -/
def words (f : Fmt) (v : Nat) : List Nat := (List.range f.D).map (Spec.wordBits f v)

theorem words_num {v : Nat} (hv : v < 2 ^ f.bpc) :
    PixelLoops.Spec.num (2 ^ f.B) (PixelLoops.Spec.order false false (!f.bigWords) (words f v)) = v := by
  unfold words
  rw [show (List.range f.D).map (Spec.wordBits f v) = (List.range f.D).map fun i =>
      (fun j => v / 2 ^ (f.B * (f.D - 1 - j)) % 2 ^ f.B) (stored f.D false false (!f.bigWords) i) from
    List.map_congr_left (fun i hi => wordBits_eq v i (List.mem_range.1 hi)),
    order_digits (fun j => v / 2 ^ (f.B * (f.D - 1 - j)) % 2 ^ f.B)]
  exact num_digits (by rw [Nat.mul_comm]; exact hv)

theorem readCompound_spec (h : Spec.Ok f) {buf : List Int} {k v : Nat} (hv : v < 2 ^ f.bpc)
    (hbuf : ∀ i, i < f.D → buf[k * f.D + i]? = some (BitMedium.Spec.packed f.word f.B (Spec.wordBits f v i))) :
    readCompound f buf k = some (v : Int) := by
  have hws : (words f v).length = f.D ∧ ∀ d ∈ words f v, d < 2 ^ f.B := by
    refine ⟨by simp [words], fun d hd => ?_⟩
    obtain ⟨i, _, rfl⟩ := List.mem_map.1 hd
    exact wordBits_lt v i
  have := readLoop_spec h (buf := buf) (source := k * f.D) hws
    (fun i hi => by
      rw [hws.1] at hi
      rw [hbuf i hi]; simp [words])
    f.D 0 (List.replicate f.D 0) (by omega)
    ⟨by simp, fun d hd => by rw [(List.mem_replicate.1 hd).2]; exact Nat.two_pow_pos _⟩
    (fun j _ hj => List.getElem?_replicate_of_lt hj) (fun j hj => absurd hj (by omega))
  rw [order_zeros, num_replicate_zero, words_num hv] at this
  exact this

theorem writeLoop_spec (h : Spec.Ok f) {v : Nat} (hv : v < 2 ^ f.bpc) (target : Nat) : ∀ n i buf, i + n = f.D →
    target + f.D ≤ buf.length → ∃ buf', writeLoop f v target n i buf = some buf' ∧ buf'.length = buf.length ∧
      ∀ j, buf'[j]? = if target + i ≤ j ∧ j < target + f.D then
          some (BitMedium.Spec.packed f.word f.B (Spec.wordBits f v (j - target))) else buf[j]? := by
  intro n
  induction n with
  | zero => intro i buf hi _; exact ⟨buf, rfl, rfl, fun j => by rw [if_neg (by omega)]⟩
  | succ n ih =>
    intro i buf hi hb
    unfold writeLoop
    have hin : i < f.D := by omega
    rw [mapWordIndex_eq i hin]
    have hwb := wordBits_eq v i hin
    generalize hq : f.D - 1 - stored f.D false false (!f.bigWords) i = q at hwb
    have hqn : q < f.D := by omega
    have hfl : q * f.B + f.B ≤ f.bpc := field_le hqn
    obtain ⟨e1, e2, e3⟩ := extract h hv h.B hfl
    simp only [Option.bind_eq_bind, Option.bind_some]
    rw [e1, e2]
    simp only [Option.bind_some]
    rw [e3, ← hwb, packInt_spec (word_width h) (wordBits_lt v i)
      ((In_nonneg (by omega)).2 (by exact_mod_cast lt_vt h (B_le h) (wordBits_lt v i)))]
    simp only [Option.bind_some]
    rw [if_pos (by omega)]
    obtain ⟨buf', h1, h2, h3⟩ := ih (i + 1) (buf.set (target + i) (BitMedium.Spec.packed f.word f.B (Spec.wordBits f v i))) (by omega)
      (by rw [List.length_set]; exact hb)
    refine ⟨buf', h1, by rw [h2, List.length_set], fun j => ?_⟩
    rw [h3 j]
    by_cases c1 : target + (i + 1) ≤ j ∧ j < target + f.D
    · rw [if_pos c1, if_pos (by omega)]
    · rw [if_neg c1]
      by_cases c2 : j = target + i
      · subst c2
        rw [if_pos (by omega), List.getElem?_set_self (by omega), Nat.add_sub_cancel_left]
      · rw [if_neg (by omega), List.getElem?_set_ne (by omega)]

theorem encode_get (f : Fmt) {m : Nat} (s : Nat → Nat) {j : Nat} (hj : j < m * f.D) : (Spec.encode f m s)[j]? =
    some (BitMedium.Spec.packed f.word f.B (Spec.wordBits f (Spec.compoundBits f s (j / f.D)) (j % f.D))) := by
  unfold Spec.encode
  rw [List.getElem?_map, List.getElem?_range hj]; rfl

theorem encode_length (f : Fmt) (m : Nat) (s : Nat → Nat) : (Spec.encode f m s).length = m * f.D := by
  unfold Spec.encode; simp

theorem compound_congr {s s' : Nat → Nat} {k : Nat} (h : ∀ i, i / f.N = k → s i = s' i) :
    Spec.compoundBits f s k = Spec.compoundBits f s' k := by
  rw [compoundBits_eq, compoundBits_eq]
  unfold pixels
  congr 2
  apply List.map_congr_left
  intro p hp
  exact h _ (div_of (List.mem_range.1 hp))

theorem sem (h : Spec.Ok f) (m : Nat) :
    Sem (units f) m (Spec.encode f m) (fun s k => (Spec.compoundBits f s k : Int)) (fun v => v < 2 ^ f.M) where
  pos := h.N
  read := by
    intro s k hs hk
    apply readCompound_spec h (compound_lt h hs k)
    intro i hi
    have hle : (k + 1) * f.D ≤ m * f.D := Nat.mul_le_mul_right _ hk
    rw [Nat.add_mul] at hle
    rw [encode_get f s (by omega), div_of hi, show (k * f.D + i) % f.D = i by
      rw [Nat.mul_comm, Nat.mul_add_mod, Nat.mod_eq_of_lt hi]]
  write := by
    intro s s' k hs hs' hk he
    show writeCompound f _ (Spec.encode f m s) k = _
    unfold writeCompound
    have hle : (k + 1) * f.D ≤ m * f.D := Nat.mul_le_mul_right _ hk
    rw [Nat.add_mul] at hle
    obtain ⟨buf', h1, h2, h3⟩ := writeLoop_spec h (compound_lt h hs' k) (k * f.D) f.D 0 (Spec.encode f m s) (by omega)
      (by rw [encode_length]; omega)
    rw [h1]
    congr 1
    apply List.ext_getElem?
    intro j
    rw [h3 j]
    by_cases hj : j < m * f.D
    · rw [encode_get f s' hj]
      have hdm := Nat.div_add_mod' j f.D
      have hml := Nat.mod_lt j h.D
      by_cases c : k * f.D + 0 ≤ j ∧ j < k * f.D + f.D
      · rw [if_pos c]
        have hjk : j / f.D = k := by
          rw [show j = k * f.D + (j - k * f.D) by omega, div_of (by omega)]
        rw [hjk] at hdm
        rw [hjk, show j - k * f.D = j % f.D by omega]
      · rw [if_neg c, encode_get f s hj]
        have hjk : j / f.D ≠ k := by
          intro hjk
          rw [hjk] at hdm; omega
        rw [compound_congr (s := s) (s' := s')]
        intro i hi
        exact (he i (by show i / f.N ≠ k; omega)).symm
    · have hD := h.D
      rw [if_neg (by omega), List.getElem?_eq_none (by rw [encode_length]; omega),
        List.getElem?_eq_none (by rw [encode_length]; omega)]
  congr := by
    intro s s' k he
    show ((Spec.compoundBits f s k : Nat) : Int) = _
    rw [compound_congr he]
  zero := by
    intro k
    show ((Spec.compoundBits f (fun _ => 0) k : Nat) : Int) = 0
    rw [compoundBits_eq]
    unfold pixels
    rw [show (List.range f.N).map (fun p => (fun _ => 0 : Nat → Nat) (k * f.N + p)) = List.replicate f.N 0 by
      rw [List.map_const', List.length_range], order_zeros, num_replicate_zero]; rfl
  vzero := Nat.two_pow_pos _

end Verif.IndexedPixel
