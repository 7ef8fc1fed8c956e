import Verif.Palette.Spec
import Verif.ColorSlot.Lemmas
import Verif.ImageReader.Reads
import Verif.Integer.Bits
import Verif.Integer.Mul
/-!
Lemmas about the model of palettes.
-/
namespace Verif.Palette
open Verif.Integer Verif.ImageIter Verif.ImageReader Verif.ColorSlot Verif.PixelBox.Spec Spec

variable {α φ β : Type}

/-! ### The size -/

theorem cast_nat {Z : Nat} {x : Int} (h0 : 0 ≤ x) (h : x < 2 ^ Z) : cast (sizeTy Z) x = x := by
  simp only [Integer.cast, sizeTy, Bool.false_eq_true, if_false]
  exact Int.emod_eq_of_lt h0 h

theorem opTy_eq {I Z : Nat} (h : I < Z) : opTy I Z = sizeTy Z := by
  unfold opTy promote
  rw [if_neg (by simp only [sizeTy]; omega)]

theorem promote_size {I Z : Nat} (h : I < Z) : promote I (sizeTy Z) = sizeTy Z := opTy_eq h

theorem arith_size {I Z : Nat} (h : I < Z) {x : Int} : arith I (sizeTy Z) x = some (x % 2 ^ Z) := by
  unfold arith
  rw [promote_size h]
  simp [sizeTy]

theorem arith_size' {I Z : Nat} (h : I < Z) {x : Int} (h0 : 0 ≤ x) (h1 : x < 2 ^ Z) : arith I (sizeTy Z) x = some x := by
  rw [arith_size h, Int.emod_eq_of_lt h0 h1]

theorem two_pow_lt {a b : Nat} (h : a < b) : (2 : Int) ^ a * 2 ≤ 2 ^ b := by
  have h1 : (2 : Int) ^ (a + 1) ≤ 2 ^ b := pow_le_pow_right₀ (by norm_num) h
  rw [pow_succ] at h1
  exact h1

theorem two_pow_le {a b : Nat} (h : a ≤ b) : (2 : Int) ^ a ≤ 2 ^ b := pow_le_pow_right₀ (by norm_num) h

theorem cast_int {I : Nat} {x : Int} (h0 : 0 ≤ x) (h : x < 2 ^ I) : cast (intTy I) x = x := by
  simp only [Integer.cast, intTy, if_true]
  rw [Int.emod_eq_of_lt (by omega) (by rw [pow_succ]; omega)]
  omega

theorem numPixels_eq {I Z : Nat} (h : I < Z) {w h' : Int} (hw : w < 2 ^ I) (hh : h' < 2 ^ I) :
    numPixels I Z w h' = some (min (max w 0 * max h' 0) (2 ^ Z - 1)) := by
  have hp := two_pow_lt h
  have hI : (0 : Int) < 2 ^ I := by positivity
  have ht : ∀ x : Int, 0 ≤ x → x ≤ 2 ^ Z - 1 → (sizeTy Z).In x := by
    intro x h0 h1
    simp only [Ty.In, Ty.min, Ty.max, sizeTy, Bool.false_eq_true, if_false]
    exact ⟨h0, h1⟩
  have hi : ∀ x : Int, x < 2 ^ I → (intTy I).In (max x 0) := by
    intro x h1
    simp only [Ty.In, Ty.min, Ty.max, intTy, if_true]
    omega
  have e1 : tryMul I (sizeTy Z) (intTy I) 1 (max w 0) = some (some (max w 0)) := by
    rw [tryMul_spec _ _ _ _ _ (ht 1 (by omega) (by omega)) (hi w hw), one_mul, checked_yes (ht _ (by omega) (by omega))]
  unfold numPixels
  simp only [Option.bind_eq_bind]
  rw [e1]
  simp only [Option.bind_some]
  rw [tryMul_spec _ _ _ _ _ (ht _ (by omega) (by omega)) (hi h' hh)]
  have h0 : 0 ≤ max w 0 * max h' 0 := mul_nonneg (by omega) (by omega)
  by_cases hc : max w 0 * max h' 0 ≤ 2 ^ Z - 1
  · rw [checked_yes (ht _ h0 hc)]
    simp [hc]
  · rw [checked_no (by
      simp only [Ty.In, Ty.min, Ty.max, sizeTy]
      intro h
      exact hc h.2)]
    simp only [Option.bind_some, Ty.max, sizeTy]
    congr 1
    omega

theorem determineSize_eq {I Z : Nat} (hI : 1 ≤ I) (h : I < Z) (hZ : 9 ≤ Z) {p : Option (Int × Int)}
    (hp : ∀ w h', p = some (w, h') → w < 2 ^ I ∧ h' < 2 ^ I) : determineSize I Z p = some (numColors p : Int) := by
  cases p with
  | none => rfl
  | some q =>
    obtain ⟨w, h'⟩ := q
    obtain ⟨hw, hh⟩ := hp w h' rfl
    have hz := two_pow_le hZ
    have e0 : ((w.toNat * h'.toNat : Nat) : Int) = max w 0 * max h' 0 := by
      push_cast
      simp
    generalize hs : max w 0 * max h' 0 = s at e0
    have h0 : 0 ≤ s := by rw [← hs]; exact mul_nonneg (by omega) (by omega)
    have em : intMask I (sizeTy Z) (min indexBits Z) = some 255 := by
      rw [intMask_spec hI]
      have : min (min indexBits (Z : Int)).toNat (sizeTy Z).bits = 8 := by simp [sizeTy, indexBits]; omega
      rw [this]
      rfl
    simp only [determineSize, Option.bind_eq_bind]
    rw [numPixels_eq h hw hh, Option.bind_some, em, Option.bind_some, arith_size h, Option.bind_some, hs]
    simp only [numColors]
    by_cases hz0 : s = 0
    · subst hz0
      rw [if_pos (by left; omega)]
      congr 1
      push_cast
      omega
    · have h1 : cast (sizeTy Z) ((min s (2 ^ Z - 1) - 1) % 2 ^ Z) = min s (2 ^ Z - 1) - 1 := by
        rw [Int.emod_eq_of_lt (by omega) (by omega), cast_nat (by omega) (by omega)]
      rw [h1]
      by_cases hc : min s (2 ^ Z - 1) = 0 ∨ 255 ≥ min s (2 ^ Z - 1) - 1
      · rw [if_pos hc]
        congr 1
        push_cast
        omega
      · rw [if_neg hc]
        rw [arith_size' h (by omega) (by omega)]
        simp only [Option.bind_some]
        rw [cast_nat (by omega) (by omega)]
        congr 1
        push_cast
        omega

/-! ### The cache -/

/-- The colors are in the specified memory, one after the other. -/
def Filled (k : Nat) (m : Mem β) (l : List (List β)) : Prop :=
  (∀ p ∈ l, p.length = k) ∧ ∀ (i c : Nat) (p : List β), l[i]? = some p → c < k → m (i * k + c : Nat) = some p[c]?

theorem Filled.load {k : Nat} {m : Mem β} {l : List (List β)} (h : Filled k m l) {i : Nat} {p : List β} (hp : l[i]? = some p) {n : Nat}
    (hn : n ≤ k) : loadColor m (i * k) n = some (p.take n) := by
  have hl := h.1 p (List.mem_of_getElem? hp)
  refine mapM_range (by rw [List.length_take]; omega) fun c hc => ?_
  have := h.2 i c p hp (by omega)
  push_cast at this
  rw [ImageIter.load, this, List.getElem?_take, if_pos hc]
  rfl

theorem Filled.all {k : Nat} {m : Mem β} {l : List (List β)} (h : Filled k m l) : allColors m l.length k = some l := by
  refine mapM_range rfl fun i hi => ?_
  rw [h.load (List.getElem?_eq_getElem hi) (le_refl _), List.getElem?_eq_getElem hi]
  congr 1
  rw [List.take_of_length_le]
  exact (h.1 _ (List.getElem_mem hi)).le

/-- The grid of a part of a row. -/
theorem row_grid {base k vs w : Int} {n : Nat} {m : Mem β} (hn : (n : Int) ≤ k) (hm : ∀ a : Int, base ≤ a → a < base + w * k → m a ≠ none) :
    ImageIter.Spec.Grid ⟨base, k, vs⟩ n ⟨0, 0, w, 1⟩ m := by
  have g := C91_layout base k (w * k) w 1 n m hn (le_refl _) (by simpa using hm)
  constructor
  · rintro x y c hp hc
    have hy : y = 0 := by obtain ⟨_, h3, h4⟩ := hp; simp only at h3 h4; omega
    subst hy
    simpa [ImageIter.Spec.addr] using g.cell x 0 c hp hc
  · rintro x y c x' y' c' hp hc hp' hc' h
    have hy : y = 0 := by obtain ⟨_, h3, h4⟩ := hp; simp only at h3 h4; omega
    have hy' : y' = 0 := by obtain ⟨_, h3, h4⟩ := hp'; simp only at h3 h4; omega
    subst hy; subst hy'
    exact g.distinct x 0 c x' 0 c' hp hc hp' hc' (by simpa [ImageIter.Spec.addr] using h)

theorem instantiate_ok {I Z : Nat} (hI : 9 ≤ I) (hIZ : I < Z) {block : Int → Int → Tray → Mem α → Option (Mem α)} {w h : Int} {k : Nat}
    {img : Int → Int → List α} (hr : Reads k block w h img) (hl : ∀ x y : Int, 0 ≤ x → x < w → 0 ≤ y → y < h → (img x y).length = k)
    (hw : 0 < w) (hh : 0 ≤ h) (hwk : w * k < 2 ^ I) (hwI : w < 2 ^ I) :
    ∃ m, instantiate I Z block w (numColors (some (w, h))) k = some m ∧ Filled k m (colors img (some (w, h))) := by
  have hp := two_pow_lt hIZ
  have hp9 := two_pow_le hI
  obtain ⟨W, rfl⟩ := Int.eq_ofNat_of_zero_le hw.le
  obtain ⟨H, rfl⟩ := Int.eq_ofNat_of_zero_le hh
  have hW : 0 < W := by omega
  obtain ⟨S, hS⟩ : ∃ S, numColors (some ((W : Int), (H : Int))) = S := ⟨_, rfl⟩
  have hS1 : S = min (W * H) 256 := by rw [← hS]; simp [numColors]
  have hS2 : S ≤ W * H := by omega
  have hrow : S / W * W + S % W = S := by rw [Nat.mul_comm]; exact Nat.div_add_mod S W
  have hmod : S % W < W := Nat.mod_lt _ hW
  obtain ⟨R, hR⟩ : ∃ R, S / W = R := ⟨_, rfl⟩
  obtain ⟨M, hM⟩ : ∃ M, S % W = M := ⟨_, rfl⟩
  rw [hR, hM] at hrow
  rw [hM] at hmod
  have hRS : R ≤ S := by rw [← hR]; exact Nat.div_le_self _ _
  have hRH : R ≤ H := by rw [← hR]; exact Nat.div_le_of_le_mul hS2
  have hRH' : 0 < M → R < H := by
    intro hM0
    by_contra hc
    have : W * H ≤ R * W := by rw [Nat.mul_comm]; exact Nat.mul_le_mul_right _ (by omega)
    omega
  have e1 : divOp I (sizeTy Z) S W = some (R : Int) := by
    unfold divOp
    rw [if_neg (by omega)]
    have : Int.tdiv (S : Int) W = ((S / W : Nat) : Int) := by simp [Int.tdiv_eq_ediv]
    rw [this, hR, arith_size' hIZ (by omega) (by omega)]
  have e2 : arith I (intTy I) ((W : Int) * k) = some ((W : Int) * k) := by
    have : (0 : Int) ≤ (W : Int) * k := by positivity
    unfold arith
    simp only [promote, intTy, le_refl, if_true, Ty.In, Ty.min, Ty.max]
    rw [if_pos (by omega)]
  have e3 : arith I (sizeTy Z) ((R : Int) * W) = some ((R * W : Nat) : Int) := by
    rw [arith_size' hIZ (by positivity) (by have : R * W ≤ S := by omega
                                            zify at this; omega)]
    push_cast; rfl
  have e4 : arith I (sizeTy Z) ((S : Int) - (R * W : Nat)) = some (M : Int) := by
    rw [arith_size' hIZ (by omega) (by omega)]
    congr 1
    omega
  have hkS : R * (W * k) + M * k = k * S := by rw [← hrow]; ring
  -- Full rows
  obtain ⟨m1, b1, s1, o1⟩ := hr 0 0 ⟨⟨0, k, (W : Int) * k⟩, W, R⟩ (workspace (k * S)) (le_refl _) (by simp) (by simp) (le_refl _) (by simp)
    (by simp; exact hRH) (by
      refine C91_layout _ _ _ _ _ _ _ (le_refl _) (le_refl _) ?_
      intro a h1 h2
      unfold workspace
      have : (R : Int) * (W * k) ≤ k * S := by exact_mod_cast (by omega : R * (W * k) ≤ k * S)
      rw [zero_add] at h2
      rw [if_pos ⟨h1, lt_of_lt_of_le h2 this⟩]
      simp)
  have f1 : ∀ (i c : Nat) , i < R * W → c < k → ∃ v, (entry img W i)[c]? = some v ∧ m1 (i * k + c : Nat) = some (some v) := by
    intro i c hi hc
    have hdm : i / W * W + i % W = i := by rw [Nat.mul_comm]; exact Nat.div_add_mod i W
    have hlt := Nat.mod_lt i hW
    have hdiv : i / W < R := Nat.div_lt_of_lt_mul (by rw [Nat.mul_comm]; exact hi)
    obtain ⟨v, v1, v2⟩ := s1 (i % W : Nat) (i / W : Nat) c
      ⟨⟨Int.natCast_nonneg _, by simpa only [zero_add] using Int.ofNat_lt.mpr hlt⟩, Int.natCast_nonneg _, by simpa only [zero_add] using Int.ofNat_lt.mpr hdiv⟩ hc
    refine ⟨v, ?_, ?_⟩
    · simpa [entry] using v1
    · rw [← v2]
      congr 1
      simp only [ImageIter.Spec.addr]
      have : i * k + c = i % W * k + i / W * (W * k) + c := by
        conv => lhs; rw [← hdm]
        ring
      rw [this]
      push_cast
      ring
  have lencol : ∀ p ∈ colors img (some ((W : Int), (H : Int))), p.length = k := by
    intro p hp'
    simp only [colors, hS, List.mem_map, List.mem_range] at hp'
    obtain ⟨i, hi, rfl⟩ := hp'
    have hlt := Nat.mod_lt i hW
    have : i / W < H := Nat.div_lt_of_lt_mul (by omega)
    exact hl _ _ (by exact_mod_cast Nat.zero_le _) (by exact_mod_cast hlt) (by exact_mod_cast Nat.zero_le _) (by exact_mod_cast this)
  have done : ∀ m : Mem α, (∀ (i c : Nat), i < S → c < k → ∃ v, (entry img W i)[c]? = some v ∧ m (i * k + c : Nat) = some (some v)) →
      Filled k m (colors img (some ((W : Int), (H : Int)))) := by
    intro m hm
    refine ⟨lencol, ?_⟩
    intro i c p hp' hc
    simp only [colors, hS, List.getElem?_map] at hp'
    have hi : i < S := by
      by_contra hge
      rw [List.getElem?_eq_none (by simp; omega)] at hp'
      cases hp'
    rw [List.getElem?_eq_getElem (by simpa using hi)] at hp'
    simp only [List.getElem_range, Option.map_some, Option.some.injEq] at hp'
    subst hp'
    obtain ⟨v, v1, v2⟩ := hm i c hi hc
    rw [v2, v1]
  have step1 : instantiate I Z block W (S : Int) k =
      if (M : Int) > 0 then block 0 R ⟨Iter.plus ⟨0, k, (W : Int) * k⟩ 0 R, M, 1⟩ m1 else some m1 := by
    unfold instantiate
    rw [opTy_eq hIZ]
    simp only [Option.bind_eq_bind]
    rw [cast_nat (by omega) (by omega), cast_nat (by omega) (by omega), e1]
    simp only [Option.bind_some]
    rw [cast_int (by omega) (by omega), e2]
    simp only [Option.bind_some]
    rw [b1]
    simp only [Option.bind_some]
    rw [cast_nat (by omega) (by omega), cast_nat (by omega) (by omega), e3]
    simp only [Option.bind_some]
    rw [e4]
    simp only [Option.bind_some]
    rw [cast_int (by omega) (by omega)]
  rw [hS, step1]
  by_cases hM0 : M = 0
  · rw [if_neg (by omega)]
    exact ⟨m1, rfl, done m1 fun i c hi hc => f1 i c (by omega) hc⟩
  · rw [if_pos (by omega)]
    obtain ⟨m2, b2, s2, o2⟩ := hr 0 R ⟨Iter.plus ⟨0, k, (W : Int) * k⟩ 0 R, M, 1⟩ m1 (le_refl _) (by simp) (by simp; omega) (by simp) (by simp)
      (by simp; have := hRH' (by omega); omega) (by
        refine row_grid (le_refl _) ?_
        intro a h1 h2
        simp only [zero_mul, add_zero, zero_add] at h1 h2
        rw [o1 a ?_]
        · unfold workspace
          have : (R : Int) * (W * k) + M * k = k * S := by exact_mod_cast hkS
          have h0 : (0 : Int) ≤ (R : Int) * (W * k) := by positivity
          rw [if_pos ⟨by omega, by omega⟩]
          simp
        · rintro x y c ⟨⟨k1, k2⟩, k3, k4⟩ hc
          simp only [ImageIter.Spec.addr] at k1 k2 k3 k4 ⊢
          have t1 : x * k + c < (W : Int) * k := by
            have := mul_le_mul_of_nonneg_right (by omega : x + 1 ≤ (W : Int)) (by omega : (0 : Int) ≤ k)
            have e : (x + 1) * (k : Int) = x * k + k := by ring
            omega
          have t2 : y * ((W : Int) * k) + (W : Int) * k ≤ R * ((W : Int) * k) := by
            have := mul_le_mul_of_nonneg_right (by omega : y + 1 ≤ (R : Int)) (by positivity : (0 : Int) ≤ (W : Int) * k)
            have e : (y + 1) * ((W : Int) * k) = y * ((W : Int) * k) + (W : Int) * k := by ring
            omega
          omega)
    refine ⟨m2, b2, done m2 ?_⟩
    intro i c hi hc
    by_cases hiR : i < R * W
    · obtain ⟨v, v1, v2⟩ := f1 i c hiR hc
      refine ⟨v, v1, ?_⟩
      rw [o2 _ ?_, v2]
      rintro x y c' ⟨⟨k1, k2⟩, k3, k4⟩ hc'
      simp only [ImageIter.Spec.addr, Iter.plus] at k1 k2 k3 k4 ⊢
      have hy : y = 0 := by omega
      subst hy
      have t1 : i * k + c < R * (W * k) := by
        have := Nat.mul_le_mul_right k (show i + 1 ≤ R * W by omega)
        have e : (i + 1) * k = i * k + k := by ring
        have e' : R * W * k = R * (W * k) := by ring
        omega
      have t2 : (0 : Int) ≤ x * k := mul_nonneg k1 (by omega)
      zify at t1
      push_cast
      simp only [zero_mul, add_zero, zero_add]
      omega
    · have hdm : i = R * W + (i - R * W) := by omega
      have hx : i - R * W < M := by omega
      obtain ⟨v, v1, v2⟩ := s2 (i - R * W : Nat) 0 c ⟨⟨by simp, by simp; omega⟩, by simp, by simp⟩ hc
      refine ⟨v, ?_, ?_⟩
      · have d1 : i / W = R := by
          rw [hdm, Nat.add_comm, Nat.add_mul_div_right _ _ hW, Nat.div_eq_of_lt (by omega)]
          omega
        have d2 : i % W = i - R * W := by
          conv => lhs; rw [hdm]
          rw [Nat.add_comm, Nat.add_mul_mod_self_right, Nat.mod_eq_of_lt (by omega)]
        have g1 : (i : Int) / W = R := by exact_mod_cast d1
        have g2 : (i : Int) % W = (i - R * W : Nat) := by exact_mod_cast d2
        rw [entry, g1, g2]
        simpa using v1
      · rw [← v2]
        congr 1
        simp only [ImageIter.Spec.addr, Iter.plus]
        have : i * k + c = (i - R * W) * k + R * (W * k) + c := by
          conv => lhs; rw [hdm]
          ring
        rw [this]
        push_cast
        ring

end Verif.Palette
