import Verif.PixelSize.Lemmas
/-!
Properties C196 - C199: sizes and positions in numbers of pixels.
-/
namespace Verif.PixelSize
open Verif.Integer Spec

/-- The value is one of type `int`. -/
def IsInt' (I : Nat) (v : Int) : Prop := -2 ^ I ≤ v ∧ v < 2 ^ I

/-! ### C196 -/

/-- A size is formatted as documented: one numeral if the components are equal, otherwise two numerals with a comma between them. -/
theorem C196_format (I M : Nat) (hI : 7 ≤ I) (hM : I + 2 ≤ M) (mem : List Char) (hm : mem.length ≤ M) (s : Size) (hw : IsInt' I s.width)
    (hh : IsInt' I s.height) :
    formatSize I M mem s = if s.width = s.height then decimal s.width else decimal s.width ++ ',' :: decimal s.height := by
  have e1 := (formatInt_ok hI hM hm hw).2
  have e2 := (formatInt_ok hI hM hm hh).2
  unfold formatSize AsList.formatListA
  by_cases h : s.width = s.height
  · rw [if_pos h]
    have : AsList.elide (0 : Int) true (max 1 1) [s.width, s.height] [s.width, s.height].length = 1 := by
      simp [AsList.elide, h]
    rw [this]
    simp [AsList.formatAsList, AsList.formatElems, AsList.formatRest, config, e1]
  · rw [if_neg h]
    have : AsList.elide (0 : Int) true (max 1 1) [s.width, s.height] [s.width, s.height].length = 2 := by
      simp [AsList.elide, Ne.symm h]
    rw [this]
    simp [AsList.formatAsList, AsList.formatElems, AsList.formatRest, config, e1, e2, AsList.spaceIf, AsList.spaceAfterSeparator]

/-- Formatting of the components succeeds. -/
theorem C196_format_succeeds (I M : Nat) (hI : 7 ≤ I) (hM : I + 2 ≤ M) (mem : List Char) (hm : mem.length ≤ M) (v : Int) (hv : IsInt' I v) :
    ∃ mem', IntText.format I (intTy I) M ' ' Char.ofNat false 10 1 v mem = .ok (mem', formatInt I M mem v) := by
  obtain ⟨⟨mem', h⟩, e⟩ := formatInt_ok hI hM hm hv
  exact ⟨mem', by rw [h, e]⟩

theorem parseListA_size (I : Nat) (hI : 7 ≤ I) (text : List Char) (s : Size) (w h : Int) :
    ((IsInt I text w ∧ h = w) ∨ IsPair I text w h) → parseSize I text s = (true, ⟨w, h⟩) := by
  obtain ⟨-, h2, h3⟩ := AsList.parseAsList_spec config (parseInt I) text [0, 0] (by simp)
  rintro (⟨ha, rfl⟩ | ⟨a, b, n, rfl, ha, hb⟩)
  · have hsyn := syntax_one ha
    have hp := (parseInt_iff hI text h).mpr ha
    have hok := h2.mpr ⟨[text], hsyn, by simp, by intro p hp'; rw [List.mem_singleton] at hp'; rw [hp', hp]; rfl⟩
    obtain ⟨k1, k2, k3⟩ := h3 hok _ hsyn
    unfold parseSize AsList.parseListA
    simp only [hok, if_true]
    generalize AsList.parseAsList config (parseInt I) text [0, 0] = r at *
    obtain ⟨r1, r2, r3⟩ := r
    simp only at hok k1 k2 k3
    subst k1
    rcases r3 with _ | ⟨x, _ | ⟨y, z⟩⟩
    · simp at k2
    · simp at k3
    · simp [hp] at k2 k3
      subst k2
      simp
  · have hsyn := syntax_two n ha hb
    have hp := (parseInt_iff hI a w).mpr ha
    have hq := (parseInt_iff hI b h).mpr hb
    have hok := h2.mpr ⟨[a, b], hsyn, by simp, by
      intro p hp'
      rcases List.mem_cons.mp hp' with e | e
      · rw [e, hp]; rfl
      · rw [List.mem_singleton] at e; rw [e, hq]; rfl⟩
    obtain ⟨k1, k2, k3⟩ := h3 hok _ hsyn
    unfold parseSize AsList.parseListA
    simp only [hok, if_true]
    generalize AsList.parseAsList config (parseInt I) (a ++ ',' :: (List.replicate n ' ' ++ b)) [0, 0] = r at *
    obtain ⟨r1, r2, r3⟩ := r
    simp only at hok k1 k2 k3
    subst k1
    rcases r3 with _ | ⟨x, _ | ⟨y, z⟩⟩
    · simp at k2
    · simp at k2
    · simp [hp, hq] at k2 k3
      obtain ⟨rfl, rfl⟩ := k2
      subst k3
      simp

/-- A size is parsed as documented: one numeral for both components, or two numerals that are separated by a comma, with space allowed after the
comma. -/
theorem C196_parse (I : Nat) (hI : 7 ≤ I) (text : List Char) (s : Size) :
    (∀ w h, parseSize I text s = (true, ⟨w, h⟩) ↔ (IsInt I text w ∧ h = w) ∨ IsPair I text w h) ∧
    ((∃ w h, parseSize I text s = (true, ⟨w, h⟩)) ∨ parseSize I text s = (false, s)) := by
  have key := parseListA_size I hI text s
  have second : (∃ w h, parseSize I text s = (true, ⟨w, h⟩)) ∨ parseSize I text s = (false, s) := by
    unfold parseSize
    split
    · exact Or.inl ⟨_, _, rfl⟩
    · exact Or.inr rfl
  refine ⟨fun w h => ⟨fun hps => ?_, key w h⟩, second⟩
  obtain ⟨-, h2, h3⟩ := AsList.parseAsList_spec config (parseInt I) text [0, 0] (by simp)
  have hok : (AsList.parseAsList config (parseInt I) text [0, 0]).1 = true := by
    by_contra hne
    rw [Bool.not_eq_true] at hne
    unfold parseSize AsList.parseListA at hps
    simp only [hne, Bool.false_eq_true, if_false] at hps
    simp at hps
  obtain ⟨ps, hsyn, hl, hall⟩ := h2.mp hok
  rcases syntax_inv hsyn hl with rfl | ⟨a, b, n, rfl, rfl⟩
  · obtain ⟨v, hv⟩ := Option.isSome_iff_exists.mp (hall text (by simp))
    have hi := (parseInt_iff hI text v).mp hv
    have := key v v (Or.inl ⟨hi, rfl⟩)
    rw [this] at hps
    simp only [Prod.mk.injEq, true_and, Size.mk.injEq] at hps
    obtain ⟨rfl, rfl⟩ := hps
    exact Or.inl ⟨hi, rfl⟩
  · obtain ⟨v, hv⟩ := Option.isSome_iff_exists.mp (hall a (by simp))
    obtain ⟨u, hu⟩ := Option.isSome_iff_exists.mp (hall b (by simp))
    have hi : IsPair I (a ++ ',' :: (List.replicate n ' ' ++ b)) v u :=
      ⟨a, b, n, rfl, (parseInt_iff hI a v).mp hv, (parseInt_iff hI b u).mp hu⟩
    have := key v u (Or.inr hi)
    rw [this] at hps
    simp only [Prod.mk.injEq, true_and, Size.mk.injEq] at hps
    obtain ⟨rfl, rfl⟩ := hps
    exact Or.inr hi

/-- What is formatted can be parsed, and the result is the original size. -/
theorem C196_round_trip (I M : Nat) (hI : 7 ≤ I) (hM : I + 2 ≤ M) (mem : List Char) (hm : mem.length ≤ M) (s s0 : Size) (hw : IsInt' I s.width)
    (hh : IsInt' I s.height) : parseSize I (formatSize I M mem s) s0 = (true, s) := by
  rw [C196_format I M hI hM mem hm s hw hh]
  apply ((C196_parse I hI _ s0).1 s.width s.height).mpr
  by_cases h : s.width = s.height
  · rw [if_pos h]; exact Or.inl ⟨decimal_isInt hw, h.symm⟩
  · rw [if_neg h]; exact Or.inr ⟨_, _, 0, by simp, decimal_isInt hw, decimal_isInt hh⟩

example : formatSize 31 100 [] ⟨16, 16⟩ = "16".toList := by
  rw [C196_format 31 100 (by decide) (by decide) [] (by decide) _ ⟨by decide, by decide⟩ ⟨by decide, by decide⟩]
  simp [decimal, IntText.Spec.numeral, IntText.Spec.digits]; decide
example : formatSize 31 100 [] ⟨16, -17⟩ = "16,-17".toList := by
  rw [C196_format 31 100 (by decide) (by decide) [] (by decide) _ ⟨by decide, by decide⟩ ⟨by decide, by decide⟩]
  simp [decimal, IntText.Spec.numeral, IntText.Spec.digits]; decide
example : parseSize 31 "16".toList ⟨1, 2⟩ = (true, ⟨16, 16⟩) := by decide +kernel
example : parseSize 31 "16,  -17".toList ⟨1, 2⟩ = (true, ⟨16, -17⟩) := by decide +kernel
example : parseSize 31 "16 ,17".toList ⟨1, 2⟩ = (false, ⟨1, 2⟩) := by decide +kernel
example : parseSize 31 "2147483648".toList ⟨1, 2⟩ = (false, ⟨1, 2⟩) := by decide +kernel
example : parseSize 31 "1,2,3".toList ⟨1, 2⟩ = (false, ⟨1, 2⟩) := by decide +kernel

/-! ### C197 -/

/-- A position is formatted as documented: two numerals with a comma between them. -/
theorem C197_format (I M : Nat) (hI : 7 ≤ I) (hM : I + 2 ≤ M) (mem : List Char) (hm : mem.length ≤ M) (p : Pos) (hx : IsInt' I p.x) (hy : IsInt' I p.y) :
    formatPos I M mem p = decimal p.x ++ ',' :: decimal p.y := by
  have e1 := (formatInt_ok hI hM hm hx).2
  have e2 := (formatInt_ok hI hM hm hy).2
  simp [formatPos, AsList.formatAsList, AsList.formatElems, AsList.formatRest, config, e1, e2, AsList.spaceIf, AsList.spaceAfterSeparator]

/-- A position is parsed as documented: two numerals that are separated by a comma, with space allowed after the comma. -/
theorem C197_parse (I : Nat) (hI : 7 ≤ I) (text : List Char) (p : Pos) :
    (∀ x y, parsePos I text p = (true, ⟨x, y⟩) ↔ IsPair I text x y) ∧
    ((∃ x y, parsePos I text p = (true, ⟨x, y⟩)) ∨ parsePos I text p = (false, p)) := by
  obtain ⟨h1, h2⟩ := AsList.C144_parse_partial config (parseInt I) text [0, 0] (by simp)
  have key : ∀ x y, IsPair I text x y → parsePos I text p = (true, ⟨x, y⟩) := by
    rintro x y ⟨a, b, n, rfl, ha, hb⟩
    have hsyn := syntax_two n ha hb
    have hp := (parseInt_iff hI a x).mpr ha
    have hq := (parseInt_iff hI b y).mpr hb
    have hok := h1.mpr ⟨[a, b], hsyn, by simp, by
      intro p hp'
      rcases List.mem_cons.mp hp' with e | e
      · rw [e, hp]; rfl
      · rw [List.mem_singleton] at e; rw [e, hq]; rfl⟩
    have hv := h2 _ hok hsyn
    unfold parsePos
    generalize AsList.parseList config (parseInt I) (a ++ ',' :: (List.replicate n ' ' ++ b)) [0, 0] = r at *
    obtain ⟨r1, r2⟩ := r
    simp only at hok hv
    subst hok
    rcases r2 with _ | ⟨u, _ | ⟨v, _ | ⟨z, t⟩⟩⟩
    · simp at hv
    · simp at hv
    · simp [hp, hq] at hv
      obtain ⟨rfl, rfl⟩ := hv
      rfl
    · simp at hv
  have second : (∃ x y, parsePos I text p = (true, ⟨x, y⟩)) ∨ parsePos I text p = (false, p) := by
    unfold parsePos
    split
    · exact Or.inl ⟨_, _, rfl⟩
    · exact Or.inr rfl
  refine ⟨fun x y => ⟨fun hps => ?_, key x y⟩, second⟩
  have hok : (AsList.parseList config (parseInt I) text [0, 0]).1 = true := by
    by_contra hne
    rw [Bool.not_eq_true] at hne
    unfold parsePos at hps
    generalize AsList.parseList config (parseInt I) text [0, 0] = r at *
    obtain ⟨r1, r2⟩ := r
    simp only at hne
    subst hne
    simp at hps
  obtain ⟨ps, hsyn, hl, hall⟩ := h1.mp hok
  simp only [List.length_cons, List.length_nil] at hl
  rcases syntax_inv hsyn (by omega) with rfl | ⟨a, b, n, rfl, rfl⟩
  · simp at hl
  · obtain ⟨v, hv⟩ := Option.isSome_iff_exists.mp (hall a (by simp))
    obtain ⟨u, hu⟩ := Option.isSome_iff_exists.mp (hall b (by simp))
    have hi : IsPair I (a ++ ',' :: (List.replicate n ' ' ++ b)) v u :=
      ⟨a, b, n, rfl, (parseInt_iff hI a v).mp hv, (parseInt_iff hI b u).mp hu⟩
    have := key v u hi
    rw [this] at hps
    simp only [Prod.mk.injEq, true_and, Pos.mk.injEq] at hps
    obtain ⟨rfl, rfl⟩ := hps
    exact hi

/-- What is formatted can be parsed, and the result is the original position. -/
theorem C197_round_trip (I M : Nat) (hI : 7 ≤ I) (hM : I + 2 ≤ M) (mem : List Char) (hm : mem.length ≤ M) (p p0 : Pos) (hx : IsInt' I p.x)
    (hy : IsInt' I p.y) : parsePos I (formatPos I M mem p) p0 = (true, p) := by
  rw [C197_format I M hI hM mem hm p hx hy]
  exact ((C197_parse I hI _ p0).1 p.x p.y).mpr ⟨_, _, 0, by simp, decimal_isInt hx, decimal_isInt hy⟩

example : parsePos 31 "-16, 17".toList ⟨1, 2⟩ = (true, ⟨-16, 17⟩) := by decide +kernel
example : parsePos 31 "16".toList ⟨1, 2⟩ = (false, ⟨1, 2⟩) := by decide +kernel

/-! ### C198 -/

/-- Comparison of sizes is lexicographical, and the operators are consistent with each other. -/
theorem C198_compare_sizes (s t : Size) : (s.lt t = true ↔ Before (s.width, s.height) (t.width, t.height)) ∧ (s.eq t = true ↔ s = t) ∧
    (s.ne t = true ↔ s ≠ t) ∧ (s.gt t = true ↔ t.lt s = true) ∧ (s.le t = true ↔ s.lt t = true ∨ s = t) ∧ (s.ge t = true ↔ t.lt s = true ∨ s = t) := by
  obtain ⟨a, b⟩ := s
  obtain ⟨c, d⟩ := t
  simp only [Size.lt, Size.eq, Size.ne, Size.gt, Size.le, Size.ge, Before, Bool.not_eq_true', decide_eq_true_eq, decide_eq_false_iff_not, Size.mk.injEq,
    ne_eq, true_and]
  omega

/-- Comparison of positions is lexicographical, and the operators are consistent with each other. -/
theorem C198_compare_positions (p q : Pos) : (p.lt q = true ↔ Before (p.x, p.y) (q.x, q.y)) ∧ (p.eq q = true ↔ p = q) ∧
    (p.ne q = true ↔ p ≠ q) ∧ (p.gt q = true ↔ q.lt p = true) ∧ (p.le q = true ↔ p.lt q = true ∨ p = q) ∧ (p.ge q = true ↔ q.lt p = true ∨ p = q) := by
  obtain ⟨a, b⟩ := p
  obtain ⟨c, d⟩ := q
  simp only [Pos.lt, Pos.eq, Pos.ne, Pos.gt, Pos.le, Pos.ge, Before, Bool.not_eq_true', decide_eq_true_eq, decide_eq_false_iff_not, Pos.mk.injEq,
    ne_eq, true_and]
  omega

/-- The lexicographical order is a strict total order, so sizes and positions can be used as keys and be sorted. -/
theorem C198_strict_total (a b c : Int × Int) : ¬ Before a a ∧ (Before a b → Before b c → Before a c) ∧ (Before a b ∨ a = b ∨ Before b a) := by
  obtain ⟨a1, a2⟩ := a
  obtain ⟨b1, b2⟩ := b
  obtain ⟨c1, c2⟩ := c
  simp only [Before, Prod.mk.injEq]
  omega

/-- Whether a box contains anything, and whether it can contain another box, in terms of the pixels of the boxes. -/
theorem C198_boxes (s t : Size) (hs : s.isValid = true) (ht : t.isValid = true) :
    (s.isEmpty = false ↔ ∃ x y : Int, 0 ≤ x ∧ x < s.width ∧ 0 ≤ y ∧ y < s.height) ∧
    (s.isZero = true ↔ s = ⟨0, 0⟩) ∧
    (s.contains t = true ↔ t.containedIn s = true) ∧
    (t.isEmpty = false → (s.contains t = true ↔ ∀ x y : Int, 0 ≤ x → x < t.width → 0 ≤ y → y < t.height → x < s.width ∧ y < s.height)) := by
  obtain ⟨a, b⟩ := s
  obtain ⟨c, d⟩ := t
  simp only [Size.isValid, Size.isEmpty, Size.isZero, Size.contains, Size.containedIn, decide_eq_true_eq, decide_eq_false_iff_not, Size.mk.injEq] at *
  refine ⟨⟨fun h => ⟨0, 0, by omega⟩, fun ⟨x, y, h⟩ => by omega⟩, trivial, trivial, fun he => ⟨fun h x y => by omega, fun h => ?_⟩⟩
  have := h (c - 1) (d - 1) (by omega) (by omega) (by omega) (by omega)
  omega

/-- An addition is possible precisely when it is said to be, and likewise for subtraction. -/
theorem C198_can_add (I : Nat) (p : Pos) (s : Size) (hx : IsInt' I p.x) (hy : IsInt' I p.y) (hw : IsInt' I s.width) (hh : IsInt' I s.height) :
    p.canAdd I s = some (p.add I s).isSome ∧ p.canSub I s = some (p.sub I s).isSome := by
  have f1 := Integer.fits_iff.mp (int_fits.mpr hx)
  have f2 := Integer.fits_iff.mp (int_fits.mpr hy)
  have f3 := Integer.fits_iff.mp (int_fits.mpr hw)
  have f4 := Integer.fits_iff.mp (int_fits.mpr hh)
  have ar : ∀ v : Int, arith I (intTy I) v = if (intTy I).In v then some v else none := by
    intro v
    simp [arith, promote, intTy]
  constructor
  · unfold Pos.canAdd Pos.add
    rw [tryAdd_spec I _ _ _ _ f1 f3, tryAdd_spec I _ _ _ _ f2 f4, ar, ar]
    by_cases h1 : (intTy I).In (p.x + s.width) <;> by_cases h2 : (intTy I).In (p.y + s.height) <;> simp [Integer.checked, h1, h2, Pos.of]
  · unfold Pos.canSub Pos.sub
    rw [trySub_spec I _ _ _ _ f1 f3, trySub_spec I _ _ _ _ f2 f4, ar, ar]
    by_cases h1 : (intTy I).In (p.x - s.width) <;> by_cases h2 : (intTy I).In (p.y - s.height) <;> simp [Integer.checked, h1, h2, Pos.of]

theorem arith_eq {I : Nat} (v : Int) : arith I (intTy I) v = if (intTy I).In v then some v else none := by
  simp [arith, promote, intTy]

theorem sizeOf_some {a b : Option Int} {s : Size} : Size.of a b = some s ↔ a = some s.width ∧ b = some s.height := by
  obtain ⟨w, h⟩ := s
  cases a <;> cases b <;> simp [Size.of]

theorem posOf_some {a b : Option Int} {p : Pos} : Pos.of a b = some p ↔ a = some p.x ∧ b = some p.y := by
  obtain ⟨x, y⟩ := p
  cases a <;> cases b <;> simp [Pos.of]

theorem arith_some {I : Nat} {v r : Int} : arith I (intTy I) v = some r ↔ (intTy I).In v ∧ r = v := by
  rw [arith_eq]
  by_cases h : (intTy I).In v
  · simp [h]; exact eq_comm
  · simp [h]

/-- Subtraction of positions and sizes undoes addition. -/
theorem C198_inverse (I : Nat) (p q : Pos) (s : Size) (hx : IsInt' I p.x) (hy : IsInt' I p.y) (hw : IsInt' I s.width) (hh : IsInt' I s.height)
    (h : p.add I s = some q) : q.sub I s = some p ∧ q.diff I p = some s := by
  have f1 := Integer.fits_iff.mp (int_fits.mpr hx)
  have f2 := Integer.fits_iff.mp (int_fits.mpr hy)
  have f3 := Integer.fits_iff.mp (int_fits.mpr hw)
  have f4 := Integer.fits_iff.mp (int_fits.mpr hh)
  unfold Pos.add at h
  rw [posOf_some, arith_some, arith_some] at h
  obtain ⟨⟨-, h1⟩, -, h2⟩ := h
  unfold Pos.sub Pos.diff
  rw [posOf_some, sizeOf_some, arith_some, arith_some, arith_some, arith_some]
  have e1 : q.x - s.width = p.x := by omega
  have e2 : q.y - s.height = p.y := by omega
  have e3 : q.x - p.x = s.width := by omega
  have e4 : q.y - p.y = s.height := by omega
  rw [e1, e2, e3, e4]
  exact ⟨⟨⟨f1, rfl⟩, f2, rfl⟩, ⟨f3, rfl⟩, f4, rfl⟩

/-- Addition, subtraction, and scaling of sizes have the mathematical results, when these are representable. -/
theorem C198_arithmetic (I : Nat) (s t r : Size) (f : Int) :
    (s.add I t = some r ↔ r = ⟨s.width + t.width, s.height + t.height⟩ ∧ IsInt' I r.width ∧ IsInt' I r.height) ∧
    (s.sub I t = some r ↔ r = ⟨s.width - t.width, s.height - t.height⟩ ∧ IsInt' I r.width ∧ IsInt' I r.height) ∧
    (s.scale I f = some r ↔ r = ⟨f * s.width, f * s.height⟩ ∧ IsInt' I r.width ∧ IsInt' I r.height) := by
  have hin : ∀ v, (intTy I).In v ↔ IsInt' I v := fun v => Integer.fits_iff.symm.trans int_fits
  obtain ⟨rw', rh⟩ := r
  refine ⟨?_, ?_, ?_⟩
  · unfold Size.add
    rw [sizeOf_some, arith_some, arith_some, hin, hin]
    simp only [Size.mk.injEq]
    constructor
    · rintro ⟨⟨a, rfl⟩, b, rfl⟩; exact ⟨⟨rfl, rfl⟩, a, b⟩
    · rintro ⟨⟨rfl, rfl⟩, a, b⟩; exact ⟨⟨a, rfl⟩, b, rfl⟩
  · unfold Size.sub
    rw [sizeOf_some, arith_some, arith_some, hin, hin]
    simp only [Size.mk.injEq]
    constructor
    · rintro ⟨⟨a, rfl⟩, b, rfl⟩; exact ⟨⟨rfl, rfl⟩, a, b⟩
    · rintro ⟨⟨rfl, rfl⟩, a, b⟩; exact ⟨⟨a, rfl⟩, b, rfl⟩
  · unfold Size.scale
    rw [sizeOf_some, arith_some, arith_some, hin, hin]
    simp only [Size.mk.injEq]
    constructor
    · rintro ⟨⟨a, rfl⟩, b, rfl⟩; exact ⟨⟨rfl, rfl⟩, a, b⟩
    · rintro ⟨⟨rfl, rfl⟩, a, b⟩; exact ⟨⟨a, rfl⟩, b, rfl⟩

example : (⟨1, 5⟩ : Size).lt ⟨2, 0⟩ = true ∧ (⟨1, 5⟩ : Size).contains ⟨2, 0⟩ = false ∧ (⟨2, 0⟩ : Size).contains ⟨1, 5⟩ = false := by decide
example : (⟨127, 0⟩ : Pos).canAdd 7 ⟨1, 0⟩ = some false ∧ (⟨126, -128⟩ : Pos).canAdd 7 ⟨1, 3⟩ = some true := by decide
example : (⟨5, -3⟩ : Pos).add 7 ⟨-7, 4⟩ = some ⟨-2, 1⟩ := by decide

/-! ### C199 -/

/-- Division rounds down when nothing is negative, and also when the divisor is positive and the components are divisible by it. -/
theorem C199_divide_partial (I : Nat) (s : Size) (f : Int) (hw : IsInt' I s.width) (hh : IsInt' I s.height) (hf : 0 < f)
    (h1 : 0 ≤ s.width ∨ f ∣ s.width) (h2 : 0 ≤ s.height ∨ f ∣ s.height) :
    ∃ r, s.div I f = some r ∧ f * r.width ≤ s.width ∧ s.width < f * (r.width + 1) ∧ f * r.height ≤ s.height ∧ s.height < f * (r.height + 1) := by
  have key : ∀ v : Int, IsInt' I v → (0 ≤ v ∨ f ∣ v) → divOp I (intTy I) v f = some (v / f) := by
    intro v hv h
    have ht : Int.tdiv v f = v / f := by
      rcases h with h | h
      · exact Int.tdiv_eq_ediv_of_nonneg h
      · exact Int.tdiv_eq_ediv_of_dvd h
    unfold divOp
    rw [if_neg (by omega), ht, arith_some]
    refine ⟨Integer.fits_iff.mp (int_fits.mpr ?_), rfl⟩
    obtain ⟨a1, a2⟩ := hv
    have hP : (0 : Int) < 2 ^ I := by positivity
    constructor
    · exact (Int.le_ediv_iff_mul_le hf).mpr (by nlinarith)
    · exact Int.ediv_lt_of_lt_mul hf (by nlinarith)
  refine ⟨⟨s.width / f, s.height / f⟩, ?_, ?_⟩
  · unfold Size.div
    rw [sizeOf_some]
    exact ⟨key _ hw h1, key _ hh h2⟩
  · have e1 := Int.mul_ediv_add_emod s.width f
    have e2 := Int.mul_ediv_add_emod s.height f
    have e3 := Int.emod_nonneg s.width (show f ≠ 0 by omega)
    have e4 := Int.emod_nonneg s.height (show f ≠ 0 by omega)
    have e5 := Int.emod_lt_of_pos s.width hf
    have e6 := Int.emod_lt_of_pos s.height hf
    simp only [mul_add, mul_one]
    refine ⟨?_, ?_, ?_, ?_⟩ <;> linarith

/-- Contrary to the documentation, division rounds up when a negative component is divided by a positive number. -/
theorem C199_negative_rounds_up : (⟨-3, 3⟩ : Size).div 31 2 = some ⟨-1, 1⟩ ∧ ¬ (2 * (-1 : Int) ≤ -3) := by decide +kernel

example : (⟨7, 9⟩ : Size).div 31 2 = some ⟨3, 4⟩ ∧ (⟨7, 9⟩ : Size).div 31 0 = none := by decide +kernel

end Verif.PixelSize
