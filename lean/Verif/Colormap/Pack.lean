import Verif.Colormap.Bits
import Mathlib.Tactic.Ring
import Mathlib.Data.List.Nodup
import Mathlib.Tactic.Linarith

/-!
# Packing and unpacking of components
-/

namespace Verif.Colormap

theorem foldl_add (M : Nat) (g : Nat → Nat) (l : List Nat) (v : Nat)
    (h : v + (l.map g).sum < M) :
    l.foldl (fun val i => (val + g i) % M) v = v + (l.map g).sum := by
  induction l generalizing v with
  | nil => simp
  | cons a l ih =>
    simp only [List.map_cons, List.sum_cons, List.foldl_cons] at *
    rw [Nat.mod_eq_of_lt (by omega), ih _ (by omega)]
    omega

theorem pack_eq (s : Spec) (c : Nat → Nat)
    (h : value s.offset s.mult s.numFields c < s.modulus) :
    s.pack c = value s.offset s.mult s.numFields c :=
  foldl_add _ _ _ _ h

/-- Bounded components. -/
theorem sum_le (mult max c : Nat → Nat) (l : List Nat) (h : ∀ j ∈ l, c j ≤ max j) :
    (l.map fun k => c k * mult k).sum ≤ (l.map fun k => max k * mult k).sum := by
  induction l with
  | nil => simp
  | cons a l ih =>
    simp only [List.map_cons, List.sum_cons]
    exact Nat.add_le_add (Nat.mul_le_mul_right _ (h a List.mem_cons_self))
      (ih fun j hj => h j (List.mem_cons_of_mem _ hj))

theorem unpackLoop_sum (s : Spec) (c : Nat → Nat) (l : List Nat) (d : Nat → Nat) (good : Bool)
    (hn : Nested s.mult s.max l) (hd : l.Nodup) (hc : ∀ j ∈ l, c j ≤ s.max j) :
    ∃ e, s.unpackLoop l ((l.map fun k => c k * s.mult k).sum) d good = some (e, good) ∧
      (∀ j ∈ l, e j = c j) ∧ ∀ j, j ∉ l → e j = d j := by
  induction l generalizing d with
  | nil => exact ⟨d, rfl, by simp, by simp⟩
  | cons a l ih =>
    obtain ⟨hn1, hn2⟩ := hn
    obtain ⟨hd1, hd2⟩ := List.nodup_cons.1 hd
    have hle := sum_le s.mult s.max c l (fun j hj => hc j (List.mem_cons_of_mem _ hj))
    have hpos : 0 < s.mult a := by omega
    simp only [List.map_cons, List.sum_cons]
    generalize hS : (l.map fun k => c k * s.mult k).sum = S at hle ih
    have hdiv : (c a * s.mult a + S) / s.mult a = c a := by
      rw [Nat.mul_comm, Nat.mul_add_div hpos, Nat.div_eq_of_lt (by omega), Nat.add_zero]
    have hmod : (c a * s.mult a + S) % s.mult a = S := by
      rw [Nat.mul_comm, Nat.mul_add_mod, Nat.mod_eq_of_lt (by omega)]
    unfold Spec.unpackLoop
    rw [if_neg (by omega), hdiv, hmod]
    have hca : decide (c a ≤ s.max a) = true := decide_eq_true (hc a List.mem_cons_self)
    rw [hca, Bool.and_true]
    obtain ⟨e, h1, h2, h3⟩ := ih (fun k => if k = a then c a else d k) hn2 hd2
      (fun j hj => hc j (List.mem_cons_of_mem _ hj))
    refine ⟨e, h1, ?_, ?_⟩
    · intro j hj
      rcases List.mem_cons.1 hj with rfl | hj
      · rw [h3 j hd1, if_pos rfl]
      · exact h2 j hj
    · intro j hj
      simp only [List.mem_cons, not_or] at hj
      rw [h3 j hj.2, if_neg hj.1]

theorem unpack_pack (s : Spec) (c : Nat → Nat) (ho : s.order.Perm (List.range s.numFields))
    (hn : Nested s.mult s.max s.order) (hc : ∀ i, i < s.numFields → c i ≤ s.max i)
    (hm : value s.offset s.mult s.numFields c < s.modulus) :
    ∃ e, s.unpack (s.pack c) = some e ∧ ∀ i, i < s.numFields → e i = c i := by
  have hc' : ∀ j ∈ s.order, c j ≤ s.max j := fun j hj =>
    hc j (List.mem_range.1 (ho.mem_iff.1 hj))
  have hsum : ((List.range s.numFields).map fun i => c i * s.mult i).sum =
      (s.order.map fun i => c i * s.mult i).sum := ((ho.map _).sum_eq).symm
  obtain ⟨e, h1, h2, _⟩ := unpackLoop_sum s c s.order (fun _ => 0) true hn
    (ho.nodup_iff.2 List.nodup_range) hc'
  rw [pack_eq s c hm]
  unfold value at *
  refine ⟨e, ?_, fun i hi => h2 i (ho.mem_iff.2 (List.mem_range.2 hi))⟩
  unfold Spec.unpack
  have e1 : (s.offset + ((List.range s.numFields).map fun i => c i * s.mult i).sum + s.modulus -
      s.offset) % s.modulus = (s.order.map fun i => c i * s.mult i).sum := by
    rw [← hsum]
    rw [show s.offset + ((List.range s.numFields).map fun i => c i * s.mult i).sum + s.modulus -
      s.offset = ((List.range s.numFields).map fun i => c i * s.mult i).sum + s.modulus by omega,
      Nat.add_mod_right, Nat.mod_eq_of_lt (by omega)]
  rw [e1, decide_eq_true (by omega), h1]
  simp

/-- What comes out of the loop for any input. -/
theorem unpackLoop_any (s : Spec) (l : List Nat) (v : Nat) (d : Nat → Nat) (good : Bool)
    (hd : l.Nodup) (e : Nat → Nat) (g : Bool) (h : s.unpackLoop l v d good = some (e, g)) :
    (∀ j, j ∉ l → e j = d j) ∧
    (g = true ↔ good = true ∧ ∀ j ∈ l, e j ≤ s.max j) ∧
    ∃ r, v = (l.map fun k => e k * s.mult k).sum + r ∧ ((∃ j ∈ l, s.mult j = 1) → r = 0) ∧
      r ≤ v := by
  induction l generalizing v d good with
  | nil =>
    simp only [Spec.unpackLoop, Option.some.injEq, Prod.mk.injEq] at h
    obtain ⟨rfl, rfl⟩ := h
    exact ⟨fun _ _ => rfl, by simp, v, by simp, by simp, Nat.le_refl _⟩
  | cons a l ih =>
    obtain ⟨hd1, hd2⟩ := List.nodup_cons.1 hd
    unfold Spec.unpackLoop at h
    split_ifs at h with hz
    obtain ⟨h1, h2, r, h3, h4, h5⟩ := ih _ _ _ hd2 h
    have hea : e a = v / s.mult a := by rw [h1 a hd1, if_pos rfl]
    refine ⟨?_, ?_, r, ?_, ?_, ?_⟩
    · intro j hj
      simp only [List.mem_cons, not_or] at hj
      rw [h1 j hj.2, if_neg hj.1]
    · rw [h2]
      simp only [Bool.and_eq_true, decide_eq_true_eq, List.mem_cons, forall_eq_or_imp, hea]
      exact and_assoc
    · simp only [List.map_cons, List.sum_cons]
      rw [Nat.add_assoc, ← h3, hea, Nat.mul_comm]
      exact (Nat.div_add_mod v _).symm
    · rintro ⟨j, hj, hj1⟩
      rcases List.mem_cons.1 hj with rfl | hj
      · rw [hj1, Nat.mod_one] at h5
        omega
      · exact h4 ⟨j, hj, hj1⟩
    · exact Nat.le_trans h5 (Nat.mod_le _ _)

theorem pack_unpack (s : Spec) (compound : Nat) (e : Nat → Nat)
    (ho : s.order.Perm (List.range s.numFields)) (hM : compound < s.modulus)
    (hoff : s.offset < s.modulus)
    (h : s.unpack compound = some e) :
    (∀ i, i < s.numFields → e i ≤ s.max i) ∧
    ((∀ i, e i = 0) ∨ ((∃ i, i < s.numFields ∧ s.mult i = 1) → s.pack e = compound)) := by
  unfold Spec.unpack at h
  have hnd : s.order.Nodup := ho.nodup_iff.2 List.nodup_range
  cases hl : s.unpackLoop s.order ((compound + s.modulus - s.offset) % s.modulus) (fun _ => 0)
    (decide (compound ≥ s.offset)) with
  | none => rw [hl] at h; cases h
  | some p =>
    obtain ⟨c, g⟩ := p
    rw [hl] at h
    simp only [Option.some.injEq] at h
    obtain ⟨_, h2, r, h3, h4, _⟩ := unpackLoop_any s _ _ _ _ hnd _ _ hl
    cases g with
    | false =>
      simp at h
      subst h
      exact ⟨fun _ _ => Nat.zero_le _, .inl fun _ => rfl⟩
    | true =>
      simp at h
      subst h
      obtain ⟨g1, g2⟩ := h2.1 rfl
      have hge : s.offset ≤ compound := by simpa using g1
      refine ⟨fun i hi => g2 i (ho.mem_iff.2 (List.mem_range.2 hi)), .inr ?_⟩
      rintro ⟨i, hi, hi1⟩
      have hr : r = 0 := h4 ⟨i, ho.mem_iff.2 (List.mem_range.2 hi), hi1⟩
      have hsum : ((List.range s.numFields).map fun i => c i * s.mult i).sum =
        (s.order.map fun i => c i * s.mult i).sum := ((ho.map _).sum_eq).symm
      have e1 : (compound + s.modulus - s.offset) % s.modulus = compound - s.offset := by
        rw [show compound + s.modulus - s.offset = (compound - s.offset) + s.modulus by omega,
          Nat.add_mod_right, Nat.mod_eq_of_lt (by omega)]
      rw [e1, hr, Nat.add_zero, ← hsum] at h3
      have hv : value s.offset s.mult s.numFields c = compound := by unfold value; omega
      rw [pack_eq s c (by omega), hv]

/-! ## Permuted pixel values -/

theorem revPerm_fold (perm : List Nat) (x i : Nat) (hi : perm[i]? = some x)
    (hu : ∀ k, perm[k]? = some x → k = i) (l : List Nat) (r : Option Nat) :
    l.foldl (fun r i => if perm[i]? = some x then some i else r) r =
      if i ∈ l then some i else r := by
  induction l generalizing r with
  | nil => simp
  | cons a l ih =>
    rw [List.foldl_cons, ih]
    by_cases ha : perm[a]? = some x
    · rw [if_pos ha]
      have := hu a ha
      subst this
      simp
    · rw [if_neg ha]
      have hne : i ≠ a := by rintro rfl; exact ha hi
      simp [hne]

theorem revPerm_eq (perm : List Nat) (x i : Nat) (hd : perm.Nodup) (hi : perm[i]? = some x) :
    revPerm perm x = some i := by
  unfold revPerm
  obtain ⟨hlt, he⟩ := List.getElem?_eq_some_iff.1 hi
  rw [revPerm_fold perm x i hi, if_pos (List.mem_range.2 hlt)]
  intro k hk
  obtain ⟨hlt2, he2⟩ := List.getElem?_eq_some_iff.1 hk
  exact (List.Nodup.getElem_inj_iff hd).1 (he2.trans he.symm)

theorem revPerm_none (perm : List Nat) (x : Nat) (hx : x ∉ perm) : revPerm perm x = none := by
  unfold revPerm
  generalize List.range perm.length = l
  induction l with
  | nil => rfl
  | cons a l ih =>
    rw [List.foldl_cons, if_neg, ih]
    intro h
    exact hx (List.mem_of_getElem? h)

/-! ## Valid and compact fields -/

theorem order_cases {o0 o1 o2 : Nat} (h : IsOrder o0 o1 o2) :
    (o0 = 0 ∧ o1 = 1 ∧ o2 = 2) ∨ (o0 = 0 ∧ o1 = 2 ∧ o2 = 1) ∨ (o0 = 1 ∧ o1 = 0 ∧ o2 = 2) ∨
    (o0 = 1 ∧ o1 = 2 ∧ o2 = 0) ∨ (o0 = 2 ∧ o1 = 0 ∧ o2 = 1) ∨ (o0 = 2 ∧ o1 = 1 ∧ o2 = 0) := by
  have hn : [o0, o1, o2].Nodup := h.nodup_iff.2 (by decide)
  have m0 := h.mem_iff (a := o0)
  have m1 := h.mem_iff (a := o1)
  have m2 := h.mem_iff (a := o2)
  simp at hn m0 m1 m2
  omega

/-- The sum over the channels in the determined order. -/
theorem pixel_order {o0 o1 o2 : Nat} (h : IsOrder o0 o1 o2) (f : Fields) (c : Nat → Nat) :
    pixelOf f (c 0) (c 1) (c 2) =
      f.offset + (c o0 * f.mult o0 + (c o1 * f.mult o1 + c o2 * f.mult o2)) := by
  unfold pixelOf
  rcases order_cases h with ⟨rfl, rfl, rfl⟩ | ⟨rfl, rfl, rfl⟩ | ⟨rfl, rfl, rfl⟩ | ⟨rfl, rfl, rfl⟩ |
    ⟨rfl, rfl, rfl⟩ | ⟨rfl, rfl, rfl⟩ <;> omega

theorem numColors_order {o0 o1 o2 : Nat} (h : IsOrder o0 o1 o2) (f : Fields) :
    numColors f = (f.max o0 + 1) * ((f.max o1 + 1) * (f.max o2 + 1)) := by
  unfold numColors
  rcases order_cases h with ⟨rfl, rfl, rfl⟩ | ⟨rfl, rfl, rfl⟩ | ⟨rfl, rfl, rfl⟩ | ⟨rfl, rfl, rfl⟩ |
    ⟨rfl, rfl, rfl⟩ | ⟨rfl, rfl, rfl⟩ <;> ring

theorem inRange_order {o0 o1 o2 : Nat} (h : IsOrder o0 o1 o2) (f : Fields) (c : Nat → Nat) :
    InRange f (c 0) (c 1) (c 2) ↔ c o0 ≤ f.max o0 ∧ c o1 ≤ f.max o1 ∧ c o2 ≤ f.max o2 := by
  unfold InRange
  rcases order_cases h with ⟨rfl, rfl, rfl⟩ | ⟨rfl, rfl, rfl⟩ | ⟨rfl, rfl, rfl⟩ | ⟨rfl, rfl, rfl⟩ |
    ⟨rfl, rfl, rfl⟩ | ⟨rfl, rfl, rfl⟩ <;> omega

/-- What is established by the check. -/
theorem valid_facts (d : Digest) (n : Nat) (h : d.isValidAndCompact n = true) :
    d.fields.offset ≤ n ∧ d.fields.mult d.o0 = 1 ∧ d.fields.mult d.o1 = d.fields.max d.o0 + 1 ∧
    d.fields.mult d.o2 = (d.fields.max d.o0 + 1) * (d.fields.max d.o1 + 1) ∧
    (d.fields.max d.o0 + 1) * ((d.fields.max d.o1 + 1) * (d.fields.max d.o2 + 1)) ≤
      n - d.fields.offset := by
  unfold Digest.isValidAndCompact at h
  simp only [decide_eq_true_eq] at h
  obtain ⟨h1, _, _, h4, h5, h6, h7⟩ := h
  refine ⟨h1, h5, h6, by rw [h7, h6]; ring, ?_⟩
  have hle : (d.fields.max d.o2 + 1) * d.fields.mult d.o2 ≤ n - d.fields.offset := by
    refine Nat.le_trans (Nat.mul_le_mul_right _ h4) (Nat.div_mul_le_self _ _)
  rw [h7, h6] at hle
  calc _ = (d.fields.max d.o2 + 1) * ((d.fields.max d.o1 + 1) * (d.fields.max d.o0 + 1)) := by ring
    _ ≤ _ := hle

/-- Mixed radix. -/
theorem radix_lt {A B C x y z : Nat} (hx : x ≤ A) (hy : y ≤ B) (hz : z ≤ C) :
    x * 1 + (y * (A + 1) + z * ((A + 1) * (B + 1))) < (A + 1) * ((B + 1) * (C + 1)) := by
  have h1 : x + y * (A + 1) < (A + 1) * (B + 1) := by
    have : (A + 1) * (B + 1) = A + 1 + B * (A + 1) := by ring
    have := Nat.mul_le_mul_right (A + 1) hy
    omega
  have h2 : (A + 1) * ((B + 1) * (C + 1)) = (A + 1) * (B + 1) + C * ((A + 1) * (B + 1)) := by ring
  have h3 := Nat.mul_le_mul_right ((A + 1) * (B + 1)) hz
  omega

theorem radix_digits {A B x y z : Nat} (hx : x ≤ A) (hy : y ≤ B) :
    (x * 1 + (y * (A + 1) + z * ((A + 1) * (B + 1)))) / ((A + 1) * (B + 1)) = z ∧
    (x * 1 + (y * (A + 1) + z * ((A + 1) * (B + 1)))) % ((A + 1) * (B + 1)) / (A + 1) = y ∧
    (x * 1 + (y * (A + 1) + z * ((A + 1) * (B + 1)))) % ((A + 1) * (B + 1)) % (A + 1) = x := by
  have h1 : x + y * (A + 1) < (A + 1) * (B + 1) := by
    have : (A + 1) * (B + 1) = A + 1 + B * (A + 1) := by ring
    have := Nat.mul_le_mul_right (A + 1) hy
    omega
  have hpos : 0 < (A + 1) * (B + 1) := by positivity
  have e : x * 1 + (y * (A + 1) + z * ((A + 1) * (B + 1))) =
    ((A + 1) * (B + 1)) * z + (x + y * (A + 1)) := by ring
  have e2 : x + y * (A + 1) = (A + 1) * y + x := by ring
  rw [e]
  refine ⟨?_, ?_, ?_⟩
  · rw [Nat.mul_add_div hpos, Nat.div_eq_of_lt h1, Nat.add_zero]
  · rw [Nat.mul_add_mod, Nat.mod_eq_of_lt h1, e2, Nat.mul_add_div (by omega),
      Nat.div_eq_of_lt (by omega), Nat.add_zero]
  · rw [Nat.mul_add_mod, Nat.mod_eq_of_lt h1, e2, Nat.mul_add_mod, Nat.mod_eq_of_lt (by omega)]

theorem radix_exists {A B C k : Nat} (hk : k < (A + 1) * ((B + 1) * (C + 1))) :
    ∃ x y z, x ≤ A ∧ y ≤ B ∧ z ≤ C ∧ x * 1 + (y * (A + 1) + z * ((A + 1) * (B + 1))) = k := by
  have hpos : 0 < (A + 1) * (B + 1) := by positivity
  refine ⟨k % ((A + 1) * (B + 1)) % (A + 1), k % ((A + 1) * (B + 1)) / (A + 1),
    k / ((A + 1) * (B + 1)), ?_, ?_, ?_, ?_⟩
  · have := Nat.mod_lt (k % ((A + 1) * (B + 1))) (show 0 < A + 1 by omega)
    omega
  · have h1 := Nat.mod_lt k hpos
    have : k % ((A + 1) * (B + 1)) / (A + 1) < B + 1 := by
      rw [Nat.div_lt_iff_lt_mul (by omega)]
      calc _ < (A + 1) * (B + 1) := h1
        _ = _ := by ring
    omega
  · have : k / ((A + 1) * (B + 1)) < C + 1 := by
      rw [Nat.div_lt_iff_lt_mul hpos]
      calc k < _ := hk
        _ = _ := by ring
    omega
  · have e1 := Nat.div_add_mod k ((A + 1) * (B + 1))
    have e2 := Nat.div_add_mod (k % ((A + 1) * (B + 1))) (A + 1)
    generalize k % ((A + 1) * (B + 1)) = m at *
    calc _ = ((A + 1) * (B + 1)) * (k / ((A + 1) * (B + 1))) + ((A + 1) * (m / (A + 1)) + m % (A + 1)) := by
          ring
      _ = _ := by rw [e2, e1]

end Verif.Colormap
