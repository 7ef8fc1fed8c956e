import Verif.Colormap.Spec

/-!
# Bit fields
-/

namespace Verif.Colormap

theorem testBit_succ' (x i : Nat) : x.testBit (i + 1) = (x / 2).testBit i := by
  rw [Nat.testBit_succ]

theorem countrZero_spec (n x : Nat) (h0 : 0 < x) (hx : x < 2 ^ n) :
    x.testBit (countrZero n x) = true ∧ ∀ i, i < countrZero n x → x.testBit i = false := by
  induction n generalizing x with
  | zero => simp at hx; omega
  | succ n ih =>
    unfold countrZero
    by_cases h : x % 2 = 1
    · rw [if_pos h]
      refine ⟨by rw [Nat.testBit_zero]; simpa using h, fun i hi => by omega⟩
    · rw [if_neg h]
      obtain ⟨h1, h2⟩ := ih (x / 2) (by omega) (by rw [Nat.pow_succ] at hx; omega)
      refine ⟨by rw [testBit_succ']; exact h1, ?_⟩
      intro i hi
      cases i with
      | zero => rw [Nat.testBit_zero]; simpa using h
      | succ i => rw [testBit_succ']; exact h2 i (by omega)

theorem countrOne_spec (n x : Nat) (hx : x < 2 ^ n) :
    x.testBit (countrOne n x) = false ∧ ∀ i, i < countrOne n x → x.testBit i = true := by
  induction n generalizing x with
  | zero =>
    simp at hx
    subst hx
    exact ⟨Nat.zero_testBit _, fun i hi => by simp [countrOne] at hi⟩
  | succ n ih =>
    unfold countrOne
    by_cases h : x % 2 = 0
    · rw [if_pos h]
      refine ⟨by rw [Nat.testBit_zero]; simpa using h, fun i hi => by omega⟩
    · rw [if_neg h]
      obtain ⟨h1, h2⟩ := ih (x / 2) (by rw [Nat.pow_succ] at hx; omega)
      refine ⟨by rw [testBit_succ']; exact h1, ?_⟩
      intro i hi
      cases i with
      | zero => rw [Nat.testBit_zero]; simpa using h
      | succ i => rw [testBit_succ']; exact h2 i (by omega)

theorem testBit_mask (w s i : Nat) :
    ((2 ^ w - 1) <<< s).testBit i = true ↔ s ≤ i ∧ i < s + w := by
  rw [Nat.testBit_shiftLeft, Nat.testBit_two_pow_sub_one]
  simp only [Bool.and_eq_true, decide_eq_true_eq, ge_iff_le]
  omega

theorem record_iff (mask s w : Nat) (hm : mask < 2 ^ 64) :
    record mask = some (s, w) ↔ IsField mask s w := by
  unfold record
  constructor
  · intro h
    split_ifs at h with h1
    simp only at h
    split_ifs at h with h2
    simp only [Option.some.injEq, Prod.mk.injEq] at h
    obtain ⟨rfl, rfl⟩ := h
    refine ⟨?_, ?_⟩
    · by_contra hc
      rw [Nat.le_zero.1 (Nat.not_lt.1 hc)] at h2
      simp at h2
      omega
    · intro i
      rw [← testBit_mask, h2]
  · rintro ⟨hw, hb⟩
    have hpos : 0 < mask := by
      by_contra hc
      have h0 : mask = 0 := by omega
      have := (hb s).2 ⟨Nat.le_refl _, by omega⟩
      rw [h0, Nat.zero_testBit] at this
      cases this
    rw [if_pos hpos]
    obtain ⟨z1, z2⟩ := countrZero_spec 64 mask hpos hm
    have hz : countrZero 64 mask = s := by
      have g1 := (hb _).1 z1
      by_contra hne
      have := z2 s (by omega)
      rw [(hb s).2 ⟨Nat.le_refl _, by omega⟩] at this
      cases this
    have hlt : mask >>> s < 2 ^ 64 := by
      rw [Nat.shiftRight_eq_div_pow]
      exact Nat.lt_of_le_of_lt (Nat.div_le_self _ _) hm
    obtain ⟨o1, o2⟩ := countrOne_spec 64 (mask >>> s) hlt
    have hbit : ∀ i, (mask >>> s).testBit i = true ↔ i < w := by
      intro i
      rw [Nat.testBit_shiftRight, hb]
      omega
    have ho : countrOne 64 (mask >>> s) = w := by
      rcases Nat.lt_trichotomy (countrOne 64 (mask >>> s)) w with hlt | heq | hgt
      · rw [(hbit _).2 hlt] at o1; cases o1
      · exact heq
      · have := (hbit w).1 (o2 w hgt); omega
    simp only [hz, ho]
    rw [if_pos]
    apply Nat.eq_of_testBit_eq
    intro i
    rw [Bool.eq_iff_iff, testBit_mask, hb]

theorem and_eq_zero_iff (a b : Nat) :
    a &&& b = 0 ↔ ∀ i, ¬ (a.testBit i = true ∧ b.testBit i = true) := by
  constructor
  · intro h i hi
    have := congrArg (fun x => x.testBit i) h
    simp only [Nat.testBit_and, hi.1, hi.2, Nat.zero_testBit] at this
    cases this
  · intro h
    apply Nat.eq_of_testBit_eq
    intro i
    rw [Nat.testBit_and, Nat.zero_testBit]
    have := h i
    cases ha : a.testBit i <;> cases hb : b.testBit i <;> simp_all

/-- Extraction of a field from a pixel value. -/
theorem field_or (s w j x : Nat) (hj : j < 2 ^ w)
    (hx : ∀ i, s ≤ i → i < s + w → x.testBit i = false) :
    field (j <<< s ||| x) s w = j := by
  unfold field
  apply Nat.eq_of_testBit_eq
  intro i
  rw [Nat.testBit_mod_two_pow, Nat.testBit_shiftRight, Nat.testBit_or, Nat.testBit_shiftLeft]
  by_cases hi : i < w
  · rw [hx (s + i) (by omega) (by omega)]
    simp [hi]
  · have : j.testBit i = false :=
      Nat.testBit_lt_two_pow (Nat.lt_of_lt_of_le hj (Nat.pow_le_pow_right (by omega) (by omega)))
    simp [hi, this]

theorem testBit_shifted (s w j i : Nat) (hj : j < 2 ^ w) (hi : (j <<< s).testBit i = true) :
    s ≤ i ∧ i < s + w := by
  rw [Nat.testBit_shiftLeft] at hi
  simp only [Bool.and_eq_true, decide_eq_true_eq, ge_iff_le] at hi
  refine ⟨hi.1, ?_⟩
  by_contra hc
  have : j.testBit (i - s) = false :=
    Nat.testBit_lt_two_pow (Nat.lt_of_lt_of_le hj (Nat.pow_le_pow_right (by omega) (by omega)))
  rw [this] at hi
  cases hi.2

theorem clear_ite (s1 w1 s2 w2 j i : Nat) (hd : Disjoint s1 w1 s2 w2) (h1 : s1 ≤ i) (h2 : i < s1 + w1) :
    (if j < 2 ^ w2 then j <<< s2 else 0).testBit i = false := by
  split_ifs with hj
  · cases hb : (j <<< s2).testBit i with
    | false => rfl
    | true =>
      obtain ⟨g1, g2⟩ := testBit_shifted s2 w2 j i hj hb
      exact absurd ⟨h1, h2, g1, g2⟩ (hd i)
  · exact Nat.zero_testBit _

/-- The fields of a visual do not overlap. -/
def Separate (f : BitFields) : Prop :=
  Disjoint f.redShift f.redWidth f.greenShift f.greenWidth ∧
  Disjoint f.redShift f.redWidth f.blueShift f.blueWidth ∧
  Disjoint f.greenShift f.greenWidth f.blueShift f.blueWidth

theorem Disjoint.symm {s1 w1 s2 w2 : Nat} (h : Disjoint s1 w1 s2 w2) : Disjoint s2 w2 s1 w1 :=
  fun i hi => h i ⟨hi.2.2.1, hi.2.2.2, hi.1, hi.2.1⟩

theorem field_red (conv : Nat → Nat → Nat) (f : BitFields) (weird : Bool) (j : Nat) (hs : Separate f)
    (hj : j < 2 ^ f.redWidth) :
    field (directColor conv f weird j).pixel f.redShift f.redWidth = j := by
  simp only [directColor]
  rw [if_pos hj, Nat.or_assoc]
  apply field_or _ _ _ _ hj
  intro i h1 h2
  rw [Nat.testBit_or, clear_ite _ _ _ _ _ _ hs.1 h1 h2, clear_ite _ _ _ _ _ _ hs.2.1 h1 h2]
  rfl

theorem field_green (conv : Nat → Nat → Nat) (f : BitFields) (weird : Bool) (j : Nat)
    (hs : Separate f) (hj : j < 2 ^ f.greenWidth) :
    field (directColor conv f weird j).pixel f.greenShift f.greenWidth = j := by
  simp only [directColor]
  rw [if_pos hj, Nat.or_comm (if j < 2 ^ f.redWidth then _ else _), Nat.or_assoc]
  apply field_or _ _ _ _ hj
  intro i h1 h2
  rw [Nat.testBit_or, clear_ite _ _ _ _ _ _ hs.1.symm h1 h2, clear_ite _ _ _ _ _ _ hs.2.2 h1 h2]
  rfl

theorem field_blue (conv : Nat → Nat → Nat) (f : BitFields) (weird : Bool) (j : Nat)
    (hs : Separate f) (hj : j < 2 ^ f.blueWidth) :
    field (directColor conv f weird j).pixel f.blueShift f.blueWidth = j := by
  simp only [directColor]
  rw [if_pos hj, Nat.or_comm]
  apply field_or _ _ _ _ hj
  intro i h1 h2
  rw [Nat.testBit_or, clear_ite _ _ _ _ _ _ hs.2.1.symm h1 h2,
    clear_ite _ _ _ _ _ _ hs.2.2.symm h1 h2]
  rfl

/-- All positions up to some point have been dealt with. -/
theorem direct_loop (conv : Nat → Nat → Nat) (f : BitFields) (weird : Bool) (cm : Direct)
    (hs : Separate f) (m : Nat) :
    let r := (List.range m).foldl (fun cm j => cm.store f (directColor conv f weird j)) cm
    (∀ k, r.red k = if k < m ∧ k < 2 ^ f.redWidth then
      (if weird then 65535 - conv f.redWidth k else conv f.redWidth k) else cm.red k) ∧
    (∀ k, r.green k = if k < m ∧ k < 2 ^ f.greenWidth then conv f.greenWidth k else cm.green k) ∧
    (∀ k, r.blue k = if k < m ∧ k < 2 ^ f.blueWidth then conv f.blueWidth k else cm.blue k) := by
  induction m with
  | zero => simp
  | succ m ih =>
    simp only [List.range_succ, List.foldl_append, List.foldl_cons, List.foldl_nil] at ih ⊢
    obtain ⟨h1, h2, h3⟩ := ih
    generalize List.foldl _ cm (List.range m) = q at h1 h2 h3 ⊢
    refine ⟨?_, ?_, ?_⟩
    · intro k
      by_cases hm : m < 2 ^ f.redWidth
      · have he : (directColor conv f weird m).red =
          some (if weird then 65535 - conv f.redWidth m else conv f.redWidth m) := by
          simp only [directColor]; rw [if_pos hm]
        simp only [Direct.store, he, field_red conv f weird m hs hm, h1]
        by_cases hk : k = m
        · subst hk; simp [hm]
        · rw [if_neg hk]
          congr 1
          exact propext ⟨fun h => ⟨by omega, h.2⟩, fun h => ⟨by omega, h.2⟩⟩
      · have he : (directColor conv f weird m).red = none := by
          simp only [directColor]; rw [if_neg hm]
        simp only [Direct.store, he, h1]
        congr 1
        exact propext ⟨fun h => ⟨by omega, h.2⟩, fun h => ⟨by
          rcases Nat.lt_succ_iff_lt_or_eq.1 h.1 with g | g
          · exact g
          · exact absurd h.2 (g ▸ hm), h.2⟩⟩
    · intro k
      by_cases hm : m < 2 ^ f.greenWidth
      · have he : (directColor conv f weird m).green = some (conv f.greenWidth m) := by
          simp only [directColor]; rw [if_pos hm]
        simp only [Direct.store, he, field_green conv f weird m hs hm, h2]
        by_cases hk : k = m
        · subst hk; simp [hm]
        · rw [if_neg hk]
          by_cases hk2 : k < m ∧ k < 2 ^ f.greenWidth
          · rw [if_pos hk2, if_pos ⟨by omega, hk2.2⟩]
          · rw [if_neg hk2, if_neg (by omega)]
      · have he : (directColor conv f weird m).green = none := by
          simp only [directColor]; rw [if_neg hm]
        simp only [Direct.store, he, h2]
        by_cases hk2 : k < m ∧ k < 2 ^ f.greenWidth
        · rw [if_pos hk2, if_pos ⟨by omega, hk2.2⟩]
        · rw [if_neg hk2, if_neg (by omega)]
    · intro k
      by_cases hm : m < 2 ^ f.blueWidth
      · have he : (directColor conv f weird m).blue = some (conv f.blueWidth m) := by
          simp only [directColor]; rw [if_pos hm]
        simp only [Direct.store, he, field_blue conv f weird m hs hm, h3]
        by_cases hk : k = m
        · subst hk; simp [hm]
        · rw [if_neg hk]
          by_cases hk2 : k < m ∧ k < 2 ^ f.blueWidth
          · rw [if_pos hk2, if_pos ⟨by omega, hk2.2⟩]
          · rw [if_neg hk2, if_neg (by omega)]
      · have he : (directColor conv f weird m).blue = none := by
          simp only [directColor]; rw [if_neg hm]
        simp only [Direct.store, he, h3]
        by_cases hk2 : k < m ∧ k < 2 ^ f.blueWidth
        · rw [if_pos hk2, if_pos ⟨by omega, hk2.2⟩]
        · rw [if_neg hk2, if_neg (by omega)]

end Verif.Colormap
