import Verif.Colormap.Init

/-!
# Properties of colormaps and of the packing of color components (C178 - C184)
-/

namespace Verif.Colormap

/-! ## C178: channel masks -/

/-- Masks are accepted if, and only if each one is a nonempty contiguous sequence of bits, and they
have no bits in common. The fields that come out are those of the masks. -/
theorem C178_masks (red green blue : Nat) (hr : red < 2 ^ 64) (hg : green < 2 ^ 64)
    (hb : blue < 2 ^ 64) (f : BitFields) :
    recordBitFields red green blue = some f ↔
      IsField red f.redShift f.redWidth ∧ IsField green f.greenShift f.greenWidth ∧
      IsField blue f.blueShift f.blueWidth ∧
      Disjoint f.redShift f.redWidth f.greenShift f.greenWidth ∧
      Disjoint f.redShift f.redWidth f.blueShift f.blueWidth ∧
      Disjoint f.greenShift f.greenWidth f.blueShift f.blueWidth := by
  have key : ∀ {a b s1 w1 s2 w2 : Nat}, IsField a s1 w1 → IsField b s2 w2 →
      (a &&& b = 0 ↔ Disjoint s1 w1 s2 w2) := by
    intro a b s1 w1 s2 w2 ha hb
    rw [and_eq_zero_iff]
    unfold Disjoint
    refine forall_congr' fun i => not_congr ?_
    rw [ha.2 i, hb.2 i, and_assoc]
  unfold recordBitFields
  constructor
  · intro h
    split_ifs at h with hd
    cases h1 : record red with
    | none => rw [h1] at h; cases h
    | some r =>
      cases h2 : record green with
      | none => rw [h1, h2] at h; cases h
      | some g =>
        cases h3 : record blue with
        | none => rw [h1, h2, h3] at h; cases h
        | some b =>
          rw [h1, h2, h3] at h
          simp only [Option.some.injEq] at h
          subst h
          have f1 := (record_iff red r.1 r.2 hr).1 h1
          have f2 := (record_iff green g.1 g.2 hg).1 h2
          have f3 := (record_iff blue b.1 b.2 hb).1 h3
          exact ⟨f1, f2, f3, (key f1 f2).1 hd.1, (key f1 f3).1 hd.2.1, (key f2 f3).1 hd.2.2⟩
  · rintro ⟨f1, f2, f3, d1, d2, d3⟩
    rw [if_pos ⟨(key f1 f2).2 d1, (key f1 f3).2 d2, (key f2 f3).2 d3⟩,
      (record_iff red _ _ hr).2 f1, (record_iff green _ _ hg).2 f2, (record_iff blue _ _ hb).2 f3]

example : recordBitFields 0xFF0000 0x00FF00 0x0000FF = some ⟨16, 8, 8, 8, 0, 8⟩ ∧
    recordBitFields 0xF800 0x07E0 0x001F = some ⟨11, 5, 5, 6, 0, 5⟩ ∧
    recordBitFields 0xF800 0x0FE0 0x001F = none ∧ recordBitFields 0xF900 0x06E0 0x001F = none ∧
    recordBitFields 0xF800 0x07E0 0 = none := by decide

/-! ## C179: packing and unpacking -/

/-- What was packed is recovered by unpacking. The number of fields, and the type of the compound are
arbitrary. `Nested` and the bound on the value are what is required of a field specification. -/
theorem C179_unpack_pack (s : Spec) (c : Nat → Nat) (ho : SortedDown s.mult s.numFields s.order)
    (hn : Nested s.mult s.max s.order) (hc : ∀ i, i < s.numFields → c i ≤ s.max i)
    (hm : value s.offset s.mult s.numFields s.max < s.modulus) :
    s.pack c = value s.offset s.mult s.numFields c ∧
    ∃ e, s.unpack (s.pack c) = some e ∧ ∀ i, i < s.numFields → e i = c i := by
  have hle : value s.offset s.mult s.numFields c < s.modulus := by
    refine Nat.lt_of_le_of_lt ?_ hm
    exact Nat.add_le_add_left (sum_le _ _ _ _ fun j hj => hc j (List.mem_range.1 hj)) _
  exact ⟨pack_eq s c hle, unpack_pack s c ho.1 hn hc hle⟩

/-- Whatever the compound is, the components are in range after unpacking. If the compound was not
made from components, they are all zero, and otherwise, the compound is recovered by packing. -/
theorem C179_pack_unpack (s : Spec) (compound : Nat)
    (ho : SortedDown s.mult s.numFields s.order) (hM : compound < s.modulus)
    (hoff : s.offset < s.modulus) (hone : ∃ i, i < s.numFields ∧ s.mult i = 1) (e : Nat → Nat)
    (h : s.unpack compound = some e) :
    (∀ i, i < s.numFields → e i ≤ s.max i) ∧ ((∀ i, e i = 0) ∨ s.pack e = compound) := by
  obtain ⟨h1, h2⟩ := pack_unpack s compound e ho.1 hM hoff h
  exact ⟨h1, h2.imp id fun g => g hone⟩

/-- The same with permuted pixel values, provided that no two colors share a pixel value. Pixel values
outside the permutation are unpacked as zeros. -/
theorem C179_permuted (s : Spec) (perm : List Nat) (c : Nat → Nat)
    (ho : SortedDown s.mult s.numFields s.order) (hn : Nested s.mult s.max s.order)
    (hc : ∀ i, i < s.numFields → c i ≤ s.max i)
    (hm : value s.offset s.mult s.numFields s.max < s.modulus) (hd : perm.Nodup)
    (h16 : ∀ p ∈ perm, p < 2 ^ 16) (hlen : value s.offset s.mult s.numFields s.max < perm.length) :
    (∃ p e, s.permPack perm c = some p ∧ p ∈ perm ∧ s.permUnpack perm p = some e ∧
      ∀ i, i < s.numFields → e i = c i) ∧
    ∀ p, p ∉ perm → s.permUnpack perm p = some fun _ => 0 := by
  obtain ⟨h1, e, h2, h3⟩ := C179_unpack_pack s c ho hn hc hm
  have hle : value s.offset s.mult s.numFields c < perm.length := by
    refine Nat.lt_of_le_of_lt ?_ hlen
    exact Nat.add_le_add_left (sum_le _ _ _ _ fun j hj => hc j (List.mem_range.1 hj)) _
  refine ⟨?_, ?_⟩
  · rw [← h1] at hle
    have hp : perm[s.pack c]? = some perm[s.pack c] := List.getElem?_eq_getElem hle
    have hmem : perm[s.pack c] ∈ perm := List.getElem_mem hle
    refine ⟨perm[s.pack c], e, hp, hmem, ?_, h3⟩
    unfold Spec.permUnpack
    rw [if_pos (h16 _ hmem), revPerm_eq perm _ _ hd hp]
    exact h2
  · intro p hp
    unfold Spec.permUnpack
    split_ifs
    · rw [revPerm_none perm p hp]
    · rfl

/-- A specification with levels 0 to 2 for the first channel, 0 to 3 for the second one. -/
def example2 : Spec := ⟨256, 2, 10, fun i => if i = 0 then 1 else 3, fun i => if i = 0 then 2 else 3, [1, 0]⟩

example : SortedDown example2.mult 2 example2.order ∧ Nested example2.mult example2.max example2.order ∧
    value 10 example2.mult 2 example2.max < 256 ∧
    example2.pack (triple 2 3 0) = 21 ∧
    (example2.unpack 21).map (fun e => (e 0, e 1)) = some (2, 3) ∧
    (example2.unpack 22).map (fun e => (e 0, e 1)) = some (0, 0) ∧
    (example2.unpack 9).map (fun e => (e 0, e 1)) = some (0, 0) := by
  refine ⟨⟨?_, by decide⟩, ⟨by decide, by decide, trivial⟩, by decide, by decide, by decide, by decide,
    by decide⟩
  exact List.Perm.swap 0 1 []

/-! ## C180: valid and compact fields -/

/-- If fields pass the check, colors and the entries of a contiguous section of the colormap are in
one-to-one correspondence. -/
theorem C180_one_to_one (d : Digest) (n : Nat) (ho : IsOrder d.o0 d.o1 d.o2)
    (hv : d.isValidAndCompact n = true) :
    d.fields.offset + numColors d.fields ≤ n ∧
    (∀ r g b, InRange d.fields r g b → d.fields.offset ≤ pixelOf d.fields r g b ∧
      pixelOf d.fields r g b < d.fields.offset + numColors d.fields) ∧
    (∀ k, d.fields.offset ≤ k → k < d.fields.offset + numColors d.fields →
      ∃ r g b, InRange d.fields r g b ∧ pixelOf d.fields r g b = k) ∧
    ∀ r g b r' g' b', InRange d.fields r g b → InRange d.fields r' g' b' →
      pixelOf d.fields r g b = pixelOf d.fields r' g' b' → r = r' ∧ g = g' ∧ b = b' := by
  obtain ⟨h0, m0, m1, m2, hn⟩ := valid_facts d n hv
  refine ⟨?_, ?_, ?_, ?_⟩
  · rw [numColors_order ho]; omega
  · intro r g b hc
    refine ⟨by unfold pixelOf; omega, pixel_lt d n ho hv (triple r g b) hc⟩
  · intro k hk1 hk2
    obtain ⟨c, hc1, hc2⟩ := position_color d n ho hv (k - d.fields.offset) (by omega)
    exact ⟨c 0, c 1, c 2, hc1, by rw [hc2]; omega⟩
  · intro r g b r' g' b' hc hc' he
    have e1 := pixel_order ho d.fields (triple r g b)
    have e2 := pixel_order ho d.fields (triple r' g' b')
    obtain ⟨a0, a1, _⟩ := (inRange_order ho d.fields (triple r g b)).1 hc
    obtain ⟨b0, b1, _⟩ := (inRange_order ho d.fields (triple r' g' b')).1 hc'
    simp only [triple] at e1 e2
    rw [m0, m1, m2] at e1 e2
    rw [e1, e2] at he
    have he := Nat.add_left_cancel he
    obtain ⟨p1, p2, p3⟩ := radix_digits (z := triple r g b d.o2) a0 a1
    obtain ⟨q1, q2, q3⟩ := radix_digits (z := triple r' g' b' d.o2) b0 b1
    have x2 := p1.symm.trans ((congrArg (· / _) he).trans q1)
    have x1 := p2.symm.trans ((congrArg (· % _ / _) he).trans q2)
    have x0 := p3.symm.trans ((congrArg (· % _ % _) he).trans q3)
    rcases order_cases ho with ⟨o0, o1, o2⟩ | ⟨o0, o1, o2⟩ | ⟨o0, o1, o2⟩ | ⟨o0, o1, o2⟩ |
      ⟨o0, o1, o2⟩ | ⟨o0, o1, o2⟩ <;> rw [o0] at x0 <;> rw [o1] at x1 <;> rw [o2] at x2 <;>
      simp only [triple] at x0 x1 x2 <;> exact ⟨by assumption, by assumption, by assumption⟩

/-- Conversely, fields with such a correspondence pass the check, if each channel has at least two
levels. -/
theorem C180_complete (d : Digest) (n : Nat) (ho : IsOrder d.o0 d.o1 d.o2)
    (hs1 : d.fields.mult d.o0 ≤ d.fields.mult d.o1) (hs2 : d.fields.mult d.o1 ≤ d.fields.mult d.o2)
    (hpos : ∀ i, i < 3 → 0 < d.fields.max i) (hfit : d.fields.offset + numColors d.fields ≤ n)
    (hsurj : ∀ k, d.fields.offset ≤ k → k < d.fields.offset + numColors d.fields →
      ∃ r g b, InRange d.fields r g b ∧ pixelOf d.fields r g b = k)
    (hinj : ∀ r g b r' g' b', InRange d.fields r g b → InRange d.fields r' g' b' →
      pixelOf d.fields r g b = pixelOf d.fields r' g' b' → r = r' ∧ g = g' ∧ b = b') :
    d.isValidAndCompact n = true := by
  have hlt : d.o0 < 3 ∧ d.o1 < 3 ∧ d.o2 < 3 ∧ d.o1 ≠ d.o0 ∧ d.o2 ≠ d.o0 ∧ d.o2 ≠ d.o1 := by
    rcases order_cases ho with ⟨h0, h1, h2⟩ | ⟨h0, h1, h2⟩ | ⟨h0, h1, h2⟩ | ⟨h0, h1, h2⟩ |
      ⟨h0, h1, h2⟩ | ⟨h0, h1, h2⟩ <;> omega
  obtain ⟨l0, l1, l2, n10, n20, n21⟩ := hlt
  have pA := hpos _ l0
  have pB := hpos _ l1
  have pC := hpos _ l2
  -- the same, in the order of the channels
  have surj : ∀ k, k < numColors d.fields → ∃ x y z, x ≤ d.fields.max d.o0 ∧ y ≤ d.fields.max d.o1 ∧
      z ≤ d.fields.max d.o2 ∧
      x * d.fields.mult d.o0 + (y * d.fields.mult d.o1 + z * d.fields.mult d.o2) = k := by
    intro k hk
    obtain ⟨r, g, b, hc, he⟩ := hsurj (d.fields.offset + k) (by omega) (by omega)
    obtain ⟨a0, a1, a2⟩ := (inRange_order ho d.fields (triple r g b)).1 hc
    have e1 := pixel_order ho d.fields (triple r g b)
    simp only [triple] at e1
    refine ⟨_, _, _, a0, a1, a2, ?_⟩
    rw [e1] at he
    exact Nat.add_left_cancel he
  have mk : ∀ x y z : Nat, ∃ c : Nat → Nat, c d.o0 = x ∧ c d.o1 = y ∧ c d.o2 = z := fun x y z =>
    ⟨fun i => if i = d.o0 then x else if i = d.o1 then y else z, by simp, by simp [n10],
      by simp [n20, n21]⟩
  have inj : ∀ x y z x' y' z', x ≤ d.fields.max d.o0 → y ≤ d.fields.max d.o1 →
      z ≤ d.fields.max d.o2 → x' ≤ d.fields.max d.o0 → y' ≤ d.fields.max d.o1 →
      z' ≤ d.fields.max d.o2 →
      x * d.fields.mult d.o0 + (y * d.fields.mult d.o1 + z * d.fields.mult d.o2) =
      x' * d.fields.mult d.o0 + (y' * d.fields.mult d.o1 + z' * d.fields.mult d.o2) →
      x = x' ∧ y = y' ∧ z = z' := by
    intro x y z x' y' z' hx hy hz hx' hy' hz' he
    obtain ⟨c, c0, c1, c2⟩ := mk x y z
    obtain ⟨c', c0', c1', c2'⟩ := mk x' y' z'
    have h := hinj (c 0) (c 1) (c 2) (c' 0) (c' 1) (c' 2)
      ((inRange_order ho _ c).2 ⟨by omega, by omega, by omega⟩)
      ((inRange_order ho _ c').2 ⟨by omega, by omega, by omega⟩)
      (by rw [pixel_order ho, pixel_order ho, c0, c1, c2, c0', c1', c2', he])
    have hall : ∀ i, i < 3 → c i = c' i := by
      intro i hi
      rcases (show i = 0 ∨ i = 1 ∨ i = 2 by omega) with rfl | rfl | rfl
      · exact h.1
      · exact h.2.1
      · exact h.2.2
    exact ⟨by rw [← c0, ← c0', hall _ l0], by rw [← c1, ← c1', hall _ l1],
      by rw [← c2, ← c2', hall _ l2]⟩
  rw [numColors_order ho] at hfit surj
  unfold Digest.isValidAndCompact
  simp only [decide_eq_true_eq]
  generalize d.fields.max d.o0 = A at *
  generalize d.fields.max d.o1 = B at *
  generalize d.fields.max d.o2 = C at *
  generalize d.fields.mult d.o0 = m0 at *
  generalize d.fields.mult d.o1 = m1 at *
  generalize d.fields.mult d.o2 = m2 at *
  have hN1 : (A + 1) * (B + 1) < (A + 1) * ((B + 1) * (C + 1)) := by
    have : (A + 1) * ((B + 1) * (C + 1)) = (A + 1) * (B + 1) + C * ((A + 1) * (B + 1)) := by ring
    have : 0 < C * ((A + 1) * (B + 1)) := by positivity
    omega
  have hN2 : A + 1 < (A + 1) * (B + 1) := by
    have : (A + 1) * (B + 1) = (A + 1) + B * (A + 1) := by ring
    have : 0 < B * (A + 1) := by positivity
    omega
  have hm0 : m0 = 1 := by
    have h0 : m0 ≠ 0 := by
      intro h
      have := inj 1 0 0 0 0 0 (by omega) (by omega) (by omega) (by omega) (by omega) (by omega)
        (by rw [h])
      omega
    obtain ⟨x, y, z, hx, hy, hz, he⟩ := surj 1 (by omega)
    have k0 : m0 ≤ x * m0 + (y * m1 + z * m2) := by
      rcases Nat.eq_zero_or_pos x with rfl | hx
      · rcases Nat.eq_zero_or_pos y with rfl | hy
        · rcases Nat.eq_zero_or_pos z with rfl | hz
          · simp at he
          · have := Nat.le_mul_of_pos_left m2 hz; omega
        · have := Nat.le_mul_of_pos_left m1 hy; omega
      · have := Nat.le_mul_of_pos_left m0 hx; omega
    omega
  subst hm0
  have hm1 : m1 = A + 1 := by
    apply Nat.le_antisymm
    · obtain ⟨x, y, z, hx, hy, hz, he⟩ := surj (A + 1) (by omega)
      rcases Nat.eq_zero_or_pos y with rfl | hy
      · rcases Nat.eq_zero_or_pos z with rfl | hz
        · simp at he; omega
        · have := Nat.le_mul_of_pos_left m2 hz; omega
      · have := Nat.le_mul_of_pos_left m1 hy; omega
    · by_contra hc
      have := inj m1 0 0 0 1 0 (by omega) (by omega) (by omega) (by omega) (by omega) (by omega)
        (by omega)
      omega
  subst hm1
  have hm2 : m2 = (A + 1) * (B + 1) := by
    apply Nat.le_antisymm
    · obtain ⟨x, y, z, hx, hy, hz, he⟩ := surj ((A + 1) * (B + 1)) hN1
      rcases Nat.eq_zero_or_pos z with rfl | hz
      · have h1 := Nat.mul_le_mul_right (A + 1) hy
        have : (A + 1) * (B + 1) = (A + 1) + B * (A + 1) := by ring
        omega
      · have := Nat.le_mul_of_pos_left m2 hz
        omega
    · by_contra hc
      have hq : m2 / (A + 1) < B + 1 := by
        rw [Nat.div_lt_iff_lt_mul (by omega), Nat.mul_comm]; omega
      have hr := Nat.mod_lt m2 (show 0 < A + 1 by omega)
      have hdm := Nat.div_add_mod m2 (A + 1)
      have := inj (m2 % (A + 1)) (m2 / (A + 1)) 0 0 0 1 (by omega) (by omega) (by omega) (by omega)
        (by omega) (by omega) (by rw [Nat.mul_comm (m2 / _)]; omega)
      omega
  subst hm2
  refine ⟨by omega, by omega, ?_, ?_, rfl, rfl, by ring⟩
  · rw [Nat.mul_div_cancel_left _ (by omega)]; omega
  · rw [Nat.lt_iff_add_one_le, Nat.le_div_iff_mul_le (by positivity)]
    have : (C + 1) * ((A + 1) * (B + 1)) = (A + 1) * ((B + 1) * (C + 1)) := by ring
    omega

/-- Fields of a standard colormap: 6 levels per channel, red is the most significant channel. -/
def sixLevels (offset : Nat) : Fields :=
  ⟨offset, fun i => if i = 0 then 36 else if i = 1 then 6 else 1, fun _ => 5⟩

example : Digest.isValidAndCompact ⟨sixLevels 16, 2, 1, 0⟩ 256 = true ∧ IsOrder 2 1 0 ∧
    Digest.isValidAndCompact ⟨sixLevels 41, 2, 1, 0⟩ 256 = false ∧
    numColors (sixLevels 16) = 216 ∧ pixelOf (sixLevels 16) 5 5 5 = 231 := by
  refine ⟨by decide, ?_, by decide, by decide, by decide⟩
  unfold IsOrder
  decide

/-! ## C181: initialization of colormaps -/

/-- A `PseudoColor` colormap is initialized as it should if the section begins at zero, every channel
has at least two levels, and no more than 256 entries are to be initialized. The full statement is
without those conditions on the offset, on the levels, and on the number of entries. -/
theorem C181_pseudocolor_partial (d : Digest) (n : Nat) (fill weird : Bool) (cm : Nat → RGB)
    (ho : IsOrder d.o0 d.o1 d.o2) (hoff : d.fields.offset = 0)
    (hmax : ∀ i, i < 3 → 0 < d.fields.max i ∧ d.fields.max i ≤ 65535)
    (hv : d.isValidAndCompact n = true) (h256 : (if fill then n else numColors d.fields) ≤ 256) :
    ∃ cm', initPseudo d n fill weird cm = some cm' ∧
      (∀ r g b, InRange d.fields r g b → ∃ r' g' b', Nearest16 r (d.fields.max 0) r' ∧
        Nearest16 g (d.fields.max 1) g' ∧ Nearest16 b (d.fields.max 2) b' ∧ r' ≤ 65535 ∧
        g' ≤ 65535 ∧ b' ≤ 65535 ∧
        cm' (pixelOf d.fields r g b) = (if weird then 65535 - r' else r', g', b')) ∧
      ∀ k, numColors d.fields ≤ k → cm' k = if fill = true ∧ k < n then (0, 0, 0) else cm k :=
  initPseudo_spec d n fill weird cm ho hoff hmax hv h256

/-- The same for `GrayScale`. -/
theorem C181_grayscale_partial (max n : Nat) (fill weird : Bool) (cm : Nat → RGB) (h0 : 0 < max)
    (hm : max ≤ 65535) (hn : max < n) (h256 : (if fill then n else max + 1) ≤ 256) :
    ∃ cm', initGray 0 max n fill weird cm = some cm' ∧
      (∀ v, v ≤ max → ∃ s, Nearest16 v max s ∧ s ≤ 65535 ∧
        cm' v = if weird then (65535 - s, 65535 - s, 65535 - s) else (s, s, s)) ∧
      ∀ k, max < k → cm' k = if fill = true ∧ k < n then (0, 0, 0) else cm k :=
  initGray_spec max n fill weird cm h0 hm hn h256

theorem or_pixel (r g b rw gw : Nat) (hr : r < 2 ^ rw) (hg : g < 2 ^ gw) :
    r ||| g <<< rw ||| b <<< (rw + gw) = r + g * 2 ^ rw + b * 2 ^ (rw + gw) := by
  have h1 : r ||| g <<< rw = r + g * 2 ^ rw := by
    rw [Nat.or_comm, ← Nat.shiftLeft_add_eq_or_of_lt hr, Nat.shiftLeft_eq, Nat.add_comm]
  have h2 : r + g * 2 ^ rw < 2 ^ (rw + gw) := by
    rw [Nat.pow_add]
    have h3 : (g + 1) * 2 ^ rw ≤ 2 ^ gw * 2 ^ rw := Nat.mul_le_mul_right _ hg
    have h4 : (g + 1) * 2 ^ rw = g * 2 ^ rw + 2 ^ rw := by ring
    rw [Nat.mul_comm (2 ^ rw)]
    omega
  rw [h1, Nat.or_comm, ← Nat.shiftLeft_add_eq_or_of_lt h2, Nat.shiftLeft_eq, Nat.add_comm]

/-- A standard colormap for a `PseudoColor` visual of depth 3 to 8. The bits of a pixel are divided as
evenly as possible. The full statement is about all depths. -/
theorem C181_standard_partial (depth : Nat) (h3 : 3 ≤ depth) (h8 : depth ≤ 8) (o0 o1 o2 : Nat)
    (ho : IsOrder o0 o1 o2)
    (hs : ∀ f, Fields.ofBits (standardFields depth) = some f →
      f.mult o0 ≤ f.mult o1 ∧ f.mult o1 ≤ f.mult o2) (weird : Bool) (cm : Nat → RGB) :
    let f := standardFields depth
    f.redWidth + f.greenWidth + f.blueWidth = depth ∧ f.blueWidth ≤ f.redWidth ∧
    f.redWidth ≤ f.greenWidth ∧ f.greenWidth ≤ f.blueWidth + 1 ∧
    ∃ cm', setupPseudo depth (2 ^ depth) o0 o1 o2 weird cm = some cm' ∧
      ∀ r g b, r < 2 ^ f.redWidth → g < 2 ^ f.greenWidth → b < 2 ^ f.blueWidth →
        ∃ r' g' b', Nearest16 r (2 ^ f.redWidth - 1) r' ∧ Nearest16 g (2 ^ f.greenWidth - 1) g' ∧
        Nearest16 b (2 ^ f.blueWidth - 1) b' ∧
        cm' (r ||| g <<< f.redWidth ||| b <<< (f.redWidth + f.greenWidth)) =
          (if weird then 65535 - r' else r', g', b') := by
  have main : ∃ F, Fields.ofBits (standardFields depth) = some F ∧ F.offset = 0 ∧
      F.mult 0 = 1 ∧ F.mult 1 = 2 ^ (standardFields depth).redWidth ∧
      F.mult 2 = 2 ^ ((standardFields depth).redWidth + (standardFields depth).greenWidth) ∧
      F.max 0 = 2 ^ (standardFields depth).redWidth - 1 ∧
      F.max 1 = 2 ^ (standardFields depth).greenWidth - 1 ∧
      F.max 2 = 2 ^ (standardFields depth).blueWidth - 1 ∧
      (∀ i, i < 3 → 0 < F.max i ∧ F.max i ≤ 65535) ∧ F.mult 0 < F.mult 1 ∧ F.mult 1 < F.mult 2 ∧
      Digest.isValidAndCompact ⟨F, 0, 1, 2⟩ (2 ^ depth) = true := by
    rcases (show depth = 3 ∨ depth = 4 ∨ depth = 5 ∨ depth = 6 ∨ depth = 7 ∨ depth = 8 by omega) with
      rfl | rfl | rfl | rfl | rfl | rfl <;>
      exact ⟨_, rfl, rfl, rfl, rfl, rfl, rfl, rfl, rfl, by decide, by decide, by decide, by decide⟩
  obtain ⟨F, hF, hoff, m0, m1, m2, x0, x1, x2, hmax, lt1, lt2, hv⟩ := main
  have hord : o0 = 0 ∧ o1 = 1 ∧ o2 = 2 := by
    obtain ⟨s1, s2⟩ := hs F hF
    rcases order_cases ho with ⟨rfl, rfl, rfl⟩ | ⟨rfl, rfl, rfl⟩ | ⟨rfl, rfl, rfl⟩ |
      ⟨rfl, rfl, rfl⟩ | ⟨rfl, rfl, rfl⟩ | ⟨rfl, rfl, rfl⟩ <;> first | exact ⟨rfl, rfl, rfl⟩ | omega
  obtain ⟨rfl, rfl, rfl⟩ := hord
  have hw : (standardFields depth).redWidth + (standardFields depth).greenWidth +
      (standardFields depth).blueWidth = depth ∧
      (standardFields depth).blueWidth ≤ (standardFields depth).redWidth ∧
      (standardFields depth).redWidth ≤ (standardFields depth).greenWidth ∧
      (standardFields depth).greenWidth ≤ (standardFields depth).blueWidth + 1 := by
    simp only [standardFields]
    omega
  obtain ⟨w1, w2, w3, w4⟩ := hw
  obtain ⟨cm', c1, c2, _⟩ := C181_pseudocolor_partial ⟨F, 0, 1, 2⟩ (2 ^ depth) true weird cm ho hoff
    hmax hv (by
      rw [if_pos rfl]
      exact Nat.pow_le_pow_right (n := 2) (by omega) h8)
  refine ⟨w1, w2, w3, w4, cm', by unfold setupPseudo; rw [hF]; exact c1, ?_⟩
  intro r g b hr hg hb
  simp only at c2
  obtain ⟨r', g', b', n1, n2, n3, _, _, _, he⟩ := c2 r g b
    ⟨by rw [x0]; omega, by rw [x1]; omega, by rw [x2]; omega⟩
  rw [x0] at n1
  rw [x1] at n2
  rw [x2] at n3
  refine ⟨r', g', b', n1, n2, n3, ?_⟩
  rw [or_pixel r g b _ _ hr hg, ← he]
  unfold pixelOf
  rw [hoff, m0, m1, m2, Nat.zero_add, Nat.mul_one]

/-- No entry beyond the first 256 is ever initialized. -/
theorem C181_beyond_256 (d : Digest) (n : Nat) (fill weird : Bool) (cm cm' : Nat → RGB)
    (h : initPseudo d n fill weird cm = some cm') (k : Nat) (hk : 256 ≤ k) : cm' k = cm k := by
  unfold initPseudo at h
  simp only at h
  split_ifs at h
  · exact chunkLoop_high _ _ _ _ _ _ _ _ h k hk
  · exact chunkLoop_high _ _ _ _ _ _ _ _ h k hk

/-- The colors of a section that does not begin at zero are stored in the wrong place, and not all of
them are stored. Two gray levels, which belong at entries 1 and 2. -/
theorem C181_offset_violated :
    (initGray 1 1 4 false false fun _ => (7, 7, 7)).map (fun cm => (cm 0, cm 1, cm 2)) =
      some ((0, 0, 0), (7, 7, 7), (7, 7, 7)) := by decide

/-- Division by zero when a channel has only one level, as for a `PseudoColor` visual of depth 2. -/
theorem C181_single_level : setupPseudo 2 4 0 1 2 false (fun _ => (0, 0, 0)) = none := by decide

example : (setupPseudo 3 8 0 1 2 false fun _ => (7, 7, 7)).map (fun cm => (cm 0, cm 3, cm 7, cm 8)) =
    some ((0, 0, 0), (65535, 65535, 0), (65535, 65535, 65535), (7, 7, 7)) := by decide

example : (initGray 0 2 8 true true fun _ => (7, 7, 7)).map (fun cm => (cm 0, cm 1, cm 2, cm 3)) =
    some ((65535, 65535, 65535), (32768, 32768, 32768), (0, 0, 0), (0, 0, 0)) := by decide

/-! ## C182: `DirectColor` -/

/-- Every level of every channel gets the corresponding intensity, and nothing else is changed. -/
theorem C182_directcolor (conv : Nat → Nat → Nat) (f : BitFields) (n : Nat) (weird : Bool)
    (cm cm' : Direct) (hs : Disjoint f.redShift f.redWidth f.greenShift f.greenWidth ∧
      Disjoint f.redShift f.redWidth f.blueShift f.blueWidth ∧
      Disjoint f.greenShift f.greenWidth f.blueShift f.blueWidth)
    (h : initDirect conv f n weird cm = some cm') :
    (∀ k, cm'.red k = if k < 2 ^ f.redWidth then
      (if weird then 65535 - conv f.redWidth k else conv f.redWidth k) else cm.red k) ∧
    (∀ k, cm'.green k = if k < 2 ^ f.greenWidth then conv f.greenWidth k else cm.green k) ∧
    (∀ k, cm'.blue k = if k < 2 ^ f.blueWidth then conv f.blueWidth k else cm.blue k) := by
  unfold initDirect at h
  split_ifs at h with h1
  simp only at h
  split_ifs at h with h2
  have h := Option.some.inj h
  subst h
  obtain ⟨g1, g2, g3⟩ := direct_loop conv f weird cm hs
    (Nat.max (Nat.max (2 ^ f.redWidth) (2 ^ f.greenWidth)) (2 ^ f.blueWidth))
  have l1 : 2 ^ f.redWidth ≤ Nat.max (Nat.max (2 ^ f.redWidth) (2 ^ f.greenWidth)) (2 ^ f.blueWidth) :=
    Nat.le_trans (Nat.le_max_left _ _) (Nat.le_max_left _ _)
  have l2 : 2 ^ f.greenWidth ≤
      Nat.max (Nat.max (2 ^ f.redWidth) (2 ^ f.greenWidth)) (2 ^ f.blueWidth) :=
    Nat.le_trans (Nat.le_max_right _ _) (Nat.le_max_left _ _)
  have l3 : 2 ^ f.blueWidth ≤
      Nat.max (Nat.max (2 ^ f.redWidth) (2 ^ f.greenWidth)) (2 ^ f.blueWidth) := Nat.le_max_right _ _
  have key : ∀ {k m w : Nat}, w ≤ m → ((k < m ∧ k < w) ↔ k < w) := by
    intro k m w h
    omega
  refine ⟨fun k => ?_, fun k => ?_, fun k => ?_⟩
  · rw [g1 k]; simp only [key l1]
  · rw [g2 k]; simp only [key l2]
  · rw [g3 k]; simp only [key l3]

/-- The initialization takes place if the colormap is big enough for each of the channels. -/
theorem C182_defined (conv : Nat → Nat → Nat) (f : BitFields) (n : Nat) (weird : Bool) (cm : Direct)
    (hsh : f.redShift < 31 ∧ f.greenShift < 31 ∧ f.blueShift < 31)
    (hw : f.redWidth ≤ 16 ∧ f.greenWidth ≤ 16 ∧ f.blueWidth ≤ 16)
    (hn : 2 ^ f.redWidth ≤ n ∧ 2 ^ f.greenWidth ≤ n ∧ 2 ^ f.blueWidth ≤ n) :
    (initDirect conv f n weird cm).isSome = true := by
  unfold initDirect
  rw [if_pos ⟨hsh.1, hsh.2.1, hsh.2.2, hw.1, hw.2.1, hw.2.2⟩]
  simp only
  rw [if_pos (Nat.max_le.2 ⟨Nat.max_le.2 ⟨hn.1, hn.2.1⟩, hn.2.2⟩)]
  rfl

example : (initDirect (fun w v => v * 65535 / (2 ^ w - 1)) ⟨3, 2, 1, 2, 0, 1⟩ 4 false
    ⟨fun _ => 7, fun _ => 7, fun _ => 7⟩).map
    (fun cm => (cm.red 2, cm.green 3, cm.blue 0, cm.blue 1, cm.blue 2)) =
    some (43690, 65535, 0, 65535, 7) := by decide

/-! ## C183: interned colors -/

/-- The pixel value of an interned color is the same as the one used in images if, and only if the
fields have no offset. The full statement is that they are always the same. -/
theorem C183_intern_partial (f : Fields) (order : List Nat) (r g b : Nat)
    (hm : pixelOf f r g b < 2 ^ 64) :
    (f.spec order).pack (triple r g b) = pixelOf f r g b ∧
    (f.pack r g b = (f.spec order).pack (triple r g b) ↔ f.offset = 0) := by
  have hval : value (f.spec order).offset (f.spec order).mult (f.spec order).numFields (triple r g b) =
      pixelOf f r g b := by
    simp [value, Fields.spec, pixelOf, triple, List.range_succ, Nat.add_assoc]
  have h1 : (f.spec order).pack (triple r g b) = pixelOf f r g b := by
    rw [pack_eq _ _ (by rw [hval]; exact hm), hval]
  refine ⟨h1, ?_⟩
  rw [h1]
  unfold Fields.pack
  unfold pixelOf at hm ⊢
  rw [Nat.mod_eq_of_lt (by omega)]
  omega

/-- A color that is wrong, and even outside the section of the colormap. -/
theorem C183_intern_violated : Digest.isValidAndCompact ⟨sixLevels 40, 2, 1, 0⟩ 256 = true ∧
    (sixLevels 40).pack 0 0 0 = 0 ∧ ((sixLevels 40).spec [0, 1, 2]).pack (triple 0 0 0) = 40 := by
  decide

/-! ## C184: allocation of gray levels -/

/-- If all the allocations succeed, the pixel values are those that were allocated. -/
theorem C184_success (alloc : Nat → Option Nat) (perm : List Nat) (h : allocGray alloc = .inl perm) :
    perm.length = 16 ∧ ∀ i, i < 16 → perm[i]? = alloc i := by
  unfold allocGray at h
  cases hl : allocLoop alloc 16 0 [] with
  | mk r ok =>
    rw [hl] at h
    cases ok with
    | false => cases h
    | true =>
      simp only [Sum.inl.injEq] at h
      subst h
      obtain ⟨l, h1, h2, h3⟩ := allocLoop_ok alloc 16 0 [] r hl
      rw [List.nil_append] at h1
      subst h1
      exact ⟨h2, fun i hi => by rw [h3 i hi, Nat.zero_add]⟩

/-- If an allocation fails, as many colors are released as were allocated, and they are the right ones
if the pixel values that were allocated are 0, 1, and so on. The full statement is without that
condition. -/
theorem C184_failure_partial (alloc : Nat → Option Nat) (released : List Nat)
    (h : allocGray alloc = .inr released) :
    ∃ n, n < 16 ∧ alloc n = none ∧ (∀ i, i < n → (alloc i).isSome = true) ∧ released.length = n ∧
      ((∀ i, i < n → alloc i = some i) →
        released.Perm ((List.range n).filterMap alloc)) := by
  unfold allocGray at h
  cases hl : allocLoop alloc 16 0 [] with
  | mk r ok =>
    rw [hl] at h
    cases ok with
    | true => cases h
    | false =>
      simp only [Sum.inr.injEq] at h
      subst h
      obtain ⟨l, h1, h2, h3, h4⟩ := allocLoop_fail alloc 16 0 [] r hl
      rw [List.nil_append] at h1
      subst h1
      refine ⟨r.length, h2, by simpa using h3, ?_, by simp, ?_⟩
      · intro i hi
        have := h4 i hi
        rw [Nat.zero_add, List.getElem?_eq_getElem hi] at this
        rw [← this]
        rfl
      · intro ha
        have e1 : (List.range r.length).filterMap alloc = List.range r.length := by
          rw [← List.filterMap_some (l := List.range r.length), List.filterMap_filterMap]
          apply List.filterMap_congr
          intro i hi
          exact ha i (List.mem_range.1 hi)
        have e2 : (List.range r.length).map (fun j => r.length - 1 - j) =
            (List.range r.length).reverse := by
          apply List.ext_getElem
          · simp
          · intro i h1 h2
            simp
        rw [e1, e2]
        exact List.reverse_perm _

/-- The wrong colors are released. -/
theorem C184_violated : allocGray (fun i => if i < 2 then some (i + 10) else none) = .inr [1, 0] := by
  decide

example : allocGray (fun i => some (200 - i)) =
    .inl [200, 199, 198, 197, 196, 195, 194, 193, 192, 191, 190, 189, 188, 187, 186, 185] := by decide

end Verif.Colormap
