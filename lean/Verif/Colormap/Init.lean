import Verif.Colormap.Pack

/-!
# Initialization of colormaps
-/

namespace Verif.Colormap

theorem scale_spec (v max : Nat) (h0 : 0 < max) (hm : max ≤ 65535) (hv : v ≤ max) :
    ∃ s, scale v max = some s ∧ Nearest16 v max s ∧ s ≤ 65535 := by
  unfold scale divRoundHalfDown
  rw [if_pos ⟨hm, hv⟩, if_neg (by omega)]
  have e := Nat.div_add_mod (v * 65535) max
  have hr := Nat.mod_lt (v * 65535) h0
  generalize v * 65535 / max = q at *
  generalize v * 65535 % max = r at *
  have hvm : v * 65535 ≤ 65535 * max := by omega
  have hcomm : max * q = q * max := Nat.mul_comm _ _
  split_ifs with h
  · refine ⟨q, rfl, ⟨by omega, by omega⟩, ?_⟩
    exact Nat.le_of_mul_le_mul_right (show q * max ≤ 65535 * max by omega) h0
  · refine ⟨q + 1, rfl, ?_, ?_⟩
    · unfold Nearest16
      have : (q + 1) * max = q * max + max := by ring
      omega
    · exact Nat.lt_of_mul_lt_mul_right (show q * max < 65535 * max by omega)

/-! ## Chunks -/

theorem chunk_store (color : Nat → Option RGB) (begin1 end1 offset n i : Nat) (ev : Nat → RGB)
    (h : ∀ k, i ≤ k → k < i + n → entry color begin1 end1 (offset + k) = some (ev k))
    (cm : Nat → RGB) :
    ∃ colors, chunk color begin1 end1 offset n i = some colors ∧
      storeColors cm colors = fun k => if i ≤ k ∧ k < i + n then ev k else cm k := by
  induction n generalizing i cm with
  | zero =>
    refine ⟨[], rfl, ?_⟩
    funext k
    rw [if_neg (by omega)]
    rfl
  | succ n ih =>
    obtain ⟨colors, h1, h2⟩ := ih (i + 1) (fun k hk1 hk2 => h k (by omega) (by omega))
      (fun k => if k = i then ev i else cm k)
    refine ⟨(i, ev i) :: colors, ?_, ?_⟩
    · unfold chunk
      rw [h i (Nat.le_refl _) (by omega), h1]
    · unfold storeColors
      rw [h2]
      funext k
      by_cases hk : k = i
      · subst hk
        rw [if_neg (by omega), if_pos rfl, if_pos (by omega)]
      · by_cases hk2 : i + 1 ≤ k ∧ k < i + 1 + n
        · rw [if_pos hk2, if_pos (by omega)]
        · rw [if_neg hk2, if_neg hk, if_neg (by omega)]

theorem chunkLoop_done (color : Nat → Option RGB) (begin1 end1 end2 fuel offset : Nat)
    (cm : Nat → RGB) (h : ¬ offset < end2) :
    chunkLoop color begin1 end1 end2 fuel offset cm = some cm := by
  cases fuel <;> (unfold chunkLoop; rw [if_neg h])

/-- When there is only one chunk. -/
theorem chunkLoop_single (color : Nat → Option RGB) (end1 end2 : Nat) (ev : Nat → RGB)
    (h : ∀ k, k < end2 → entry color 0 end1 k = some (ev k)) (h256 : end2 ≤ 256) (cm : Nat → RGB) :
    chunkLoop color 0 end1 end2 end2 0 cm = some fun k => if k < end2 then ev k else cm k := by
  cases end2 with
  | zero => simp [chunkLoop]
  | succ n =>
    unfold chunkLoop
    rw [if_pos (by omega)]
    have hmin : Nat.min (n + 1 - 0) 256 = n + 1 := by
      rw [Nat.sub_zero]; exact Nat.min_eq_left h256
    simp only [hmin]
    obtain ⟨colors, h1, h2⟩ := chunk_store color 0 end1 0 (n + 1) 0 ev
      (fun k _ hk => by rw [Nat.zero_add]; exact h k (by omega)) cm
    rw [h1]
    simp only
    rw [chunkLoop_done _ _ _ _ _ _ _ (by omega), h2]
    congr 1
    funext k
    simp

theorem chunk_pixels (color : Nat → Option RGB) (begin1 end1 offset n i : Nat)
    (colors : List (Nat × RGB)) (h : chunk color begin1 end1 offset n i = some colors) :
    ∀ p ∈ colors, p.1 < i + n := by
  induction n generalizing i colors with
  | zero =>
    simp only [chunk, Option.some.injEq] at h
    subst h
    simp
  | succ n ih =>
    unfold chunk at h
    cases he : entry color begin1 end1 (offset + i) with
    | none => rw [he] at h; cases h
    | some rgb =>
      cases hc : chunk color begin1 end1 offset n (i + 1) with
      | none => rw [he, hc] at h; cases h
      | some rest =>
        rw [he, hc] at h
        simp only [Option.some.injEq] at h
        subst h
        intro p hp
        rcases List.mem_cons.1 hp with rfl | hp
        · simp only; omega
        · have := ih _ _ hc p hp
          omega

theorem storeColors_other (colors : List (Nat × RGB)) (cm : Nat → RGB) (k : Nat)
    (h : ∀ p ∈ colors, p.1 ≠ k) : storeColors cm colors k = cm k := by
  induction colors generalizing cm with
  | nil => rfl
  | cons p colors ih =>
    obtain ⟨x, rgb⟩ := p
    unfold storeColors
    rw [ih _ (fun q hq => h q (List.mem_cons_of_mem _ hq)),
      if_neg (fun hk => h (x, rgb) List.mem_cons_self hk.symm)]

theorem chunkLoop_high (color : Nat → Option RGB) (begin1 end1 end2 fuel offset : Nat)
    (cm cm' : Nat → RGB) (h : chunkLoop color begin1 end1 end2 fuel offset cm = some cm') (k : Nat)
    (hk : 256 ≤ k) : cm' k = cm k := by
  induction fuel generalizing offset cm with
  | zero =>
    unfold chunkLoop at h
    split_ifs at h
    rw [← Option.some.inj h]
  | succ fuel ih =>
    unfold chunkLoop at h
    split_ifs at h with h1
    · simp only at h
      cases hc : chunk color begin1 end1 offset (Nat.min (end2 - offset) 256) 0 with
      | none => rw [hc] at h; cases h
      | some colors =>
        rw [hc] at h
        rw [ih _ _ h]
        apply storeColors_other
        intro p hp
        have h1 := chunk_pixels _ _ _ _ _ _ _ hc p hp
        have h2 : Nat.min (end2 - offset) 256 ≤ 256 := Nat.min_le_right _ _
        omega
    · rw [← Option.some.inj h]

/-! ## Colors -/

theorem pseudoColor_at (d : Digest) (n : Nat) (weird : Bool) (ho : IsOrder d.o0 d.o1 d.o2)
    (hv : d.isValidAndCompact n = true) (c : Nat → Nat)
    (hc : InRange d.fields (c 0) (c 1) (c 2)) (r g b : Nat)
    (hr : scale (c 0) (d.fields.max 0) = some r) (hg : scale (c 1) (d.fields.max 1) = some g)
    (hb : scale (c 2) (d.fields.max 2) = some b) :
    pseudoColor d weird (pixelOf d.fields (c 0) (c 1) (c 2) - d.fields.offset) =
      some (if weird then 65535 - r else r, g, b) := by
  obtain ⟨_, m0, m1, m2, _⟩ := valid_facts d n hv
  obtain ⟨c0, c1, c2⟩ := (inRange_order ho d.fields c).1 hc
  rw [pixel_order ho, Nat.add_sub_cancel_left]
  unfold pseudoColor
  simp only
  rw [m0, m1, m2]
  obtain ⟨e1, e2, e3⟩ := radix_digits (z := c d.o2) c0 c1
  rw [e1, e2, e3]
  have hcomp : ∀ i, i < 3 →
      (if i = d.o0 then c d.o0 else if i = d.o1 then c d.o1 else c d.o2) = c i := by
    intro i hi
    rcases order_cases ho with ⟨h0, h1, h2⟩ | ⟨h0, h1, h2⟩ | ⟨h0, h1, h2⟩ | ⟨h0, h1, h2⟩ |
      ⟨h0, h1, h2⟩ | ⟨h0, h1, h2⟩ <;> rw [h0, h1, h2] <;>
      (rcases (show i = 0 ∨ i = 1 ∨ i = 2 by omega) with rfl | rfl | rfl <;> rfl)
  rw [hcomp 0 (by omega), hcomp 1 (by omega), hcomp 2 (by omega), hr, hg, hb]

/-- Three components as a function of the channel. -/
def triple (r g b : Nat) : Nat → Nat
  | 0 => r
  | 1 => g
  | _ => b

/-- Every position in the section belongs to a color. -/
theorem position_color (d : Digest) (n : Nat) (ho : IsOrder d.o0 d.o1 d.o2)
    (hv : d.isValidAndCompact n = true) (k : Nat) (hk : k < numColors d.fields) :
    ∃ c : Nat → Nat, InRange d.fields (c 0) (c 1) (c 2) ∧
      pixelOf d.fields (c 0) (c 1) (c 2) = d.fields.offset + k := by
  obtain ⟨_, m0, m1, m2, _⟩ := valid_facts d n hv
  rw [numColors_order ho] at hk
  obtain ⟨x, y, z, hx, hy, hz, hxyz⟩ := radix_exists hk
  have hne : d.o1 ≠ d.o0 ∧ d.o2 ≠ d.o0 ∧ d.o2 ≠ d.o1 := by
    rcases order_cases ho with ⟨h0, h1, h2⟩ | ⟨h0, h1, h2⟩ | ⟨h0, h1, h2⟩ | ⟨h0, h1, h2⟩ |
      ⟨h0, h1, h2⟩ | ⟨h0, h1, h2⟩ <;> rw [h0, h1, h2] <;> decide
  obtain ⟨c, c0, c1, c2⟩ : ∃ c : Nat → Nat, c d.o0 = x ∧ c d.o1 = y ∧ c d.o2 = z :=
    ⟨fun i => if i = d.o0 then x else if i = d.o1 then y else z, by simp, by simp [hne],
      by simp [hne]⟩
  refine ⟨c, ?_, ?_⟩
  · rw [inRange_order ho, c0, c1, c2]
    exact ⟨hx, hy, hz⟩
  · rw [pixel_order ho, m0, m1, m2, c0, c1, c2, hxyz]

theorem pixel_lt (d : Digest) (n : Nat) (ho : IsOrder d.o0 d.o1 d.o2)
    (hv : d.isValidAndCompact n = true) (c : Nat → Nat) (hc : InRange d.fields (c 0) (c 1) (c 2)) :
    pixelOf d.fields (c 0) (c 1) (c 2) < d.fields.offset + numColors d.fields := by
  obtain ⟨_, m0, m1, m2, _⟩ := valid_facts d n hv
  obtain ⟨c0, c1, c2⟩ := (inRange_order ho d.fields c).1 hc
  rw [pixel_order ho, numColors_order ho, m0, m1, m2]
  exact Nat.add_lt_add_left (radix_lt c0 c1 c2) _

theorem end1_eq (d : Digest) (n : Nat) (ho : IsOrder d.o0 d.o1 d.o2)
    (hv : d.isValidAndCompact n = true) :
    (d.fields.max d.o2 + 1) * d.fields.mult d.o2 = numColors d.fields := by
  obtain ⟨_, m0, m1, m2, _⟩ := valid_facts d n hv
  rw [numColors_order ho, m2]
  ring

/-- The contents of the colormap, given that the offset is zero, and that everything fits in one
chunk. -/
theorem initPseudo_spec (d : Digest) (n : Nat) (fill weird : Bool) (cm : Nat → RGB)
    (ho : IsOrder d.o0 d.o1 d.o2) (hoff : d.fields.offset = 0)
    (hmax : ∀ i, i < 3 → 0 < d.fields.max i ∧ d.fields.max i ≤ 65535)
    (hv : d.isValidAndCompact n = true) (h256 : (if fill then n else numColors d.fields) ≤ 256) :
    ∃ cm', initPseudo d n fill weird cm = some cm' ∧
      (∀ r g b, InRange d.fields r g b → ∃ r' g' b', Nearest16 r (d.fields.max 0) r' ∧
        Nearest16 g (d.fields.max 1) g' ∧ Nearest16 b (d.fields.max 2) b' ∧ r' ≤ 65535 ∧
        g' ≤ 65535 ∧ b' ≤ 65535 ∧
        cm' (pixelOf d.fields r g b) = (if weird then 65535 - r' else r', g', b')) ∧
      ∀ k, numColors d.fields ≤ k → cm' k = if fill = true ∧ k < n then (0, 0, 0) else cm k := by
  have hent : ∀ k, k < numColors d.fields → ∃ rgb, pseudoColor d weird k = some rgb := by
    intro k hk
    obtain ⟨c, hc1, hc2⟩ := position_color d n ho hv k hk
    obtain ⟨r, hr, _⟩ := scale_spec (c 0) _ (hmax 0 (by omega)).1 (hmax 0 (by omega)).2 hc1.1
    obtain ⟨g, hg, _⟩ := scale_spec (c 1) _ (hmax 1 (by omega)).1 (hmax 1 (by omega)).2 hc1.2.1
    obtain ⟨b, hb, _⟩ := scale_spec (c 2) _ (hmax 2 (by omega)).1 (hmax 2 (by omega)).2 hc1.2.2
    have := pseudoColor_at d n weird ho hv c hc1 r g b hr hg hb
    rw [hc2, hoff, Nat.zero_add, Nat.sub_zero] at this
    exact ⟨_, this⟩
  have hle : numColors d.fields ≤ n := by
    obtain ⟨_, _, _, _, h⟩ := valid_facts d n hv
    rw [← numColors_order ho] at h
    omega
  set ev : Nat → RGB := fun k => (entry (pseudoColor d weird) 0 (numColors d.fields) k).getD (0, 0, 0)
  have hev : ∀ k, entry (pseudoColor d weird) 0 (numColors d.fields) k = some (ev k) := by
    intro k
    have : ∃ rgb, entry (pseudoColor d weird) 0 (numColors d.fields) k = some rgb := by
      unfold entry
      split_ifs with h
      · exact hent _ h.2
      · exact ⟨_, rfl⟩
    obtain ⟨rgb, h⟩ := this
    show _ = some (Option.getD _ _)
    rw [h]
    rfl
  refine ⟨fun k => if k < (if fill then n else numColors d.fields) then ev k else cm k, ?_, ?_, ?_⟩
  · unfold initPseudo
    simp only
    rw [if_pos ⟨(hmax 0 (by omega)).2, (hmax 1 (by omega)).2, (hmax 2 (by omega)).2, hv⟩,
      end1_eq d n ho hv, hoff, ite_self, Nat.sub_zero]
    exact chunkLoop_single _ _ _ ev (fun k _ => hev k) h256 cm
  · intro r g b hc
    obtain ⟨r', hr, nr, lr⟩ := scale_spec r _ (hmax 0 (by omega)).1 (hmax 0 (by omega)).2 hc.1
    obtain ⟨g', hg, ng, lg⟩ := scale_spec g _ (hmax 1 (by omega)).1 (hmax 1 (by omega)).2 hc.2.1
    obtain ⟨b', hb, nb, lb⟩ := scale_spec b _ (hmax 2 (by omega)).1 (hmax 2 (by omega)).2 hc.2.2
    refine ⟨r', g', b', nr, ng, nb, lr, lg, lb, ?_⟩
    have hcol := pseudoColor_at d n weird ho hv (triple r g b) hc r' g' b' hr hg hb
    have hlt := pixel_lt d n ho hv (triple r g b) hc
    simp only [triple] at hcol hlt
    rw [hoff, Nat.sub_zero] at hcol
    rw [hoff, Nat.zero_add] at hlt
    simp only
    rw [if_pos (by split_ifs <;> omega)]
    have h1 := hev (pixelOf d.fields r g b)
    unfold entry at h1
    rw [if_pos ⟨Nat.zero_le _, hlt⟩, Nat.sub_zero, hcol] at h1
    exact (Option.some.inj h1).symm
  · intro k hk
    simp only
    have h1 := hev k
    unfold entry at h1
    rw [if_neg (by omega)] at h1
    cases fill with
    | false =>
      simp only [Bool.false_eq_true, if_false, false_and]
      rw [if_neg (by omega)]
    | true =>
      simp only [if_true, true_and]
      rw [← Option.some.inj h1]

theorem initGray_spec (max n : Nat) (fill weird : Bool) (cm : Nat → RGB) (h0 : 0 < max)
    (hm : max ≤ 65535) (hn : max < n) (h256 : (if fill then n else max + 1) ≤ 256) :
    ∃ cm', initGray 0 max n fill weird cm = some cm' ∧
      (∀ v, v ≤ max → ∃ s, Nearest16 v max s ∧ s ≤ 65535 ∧
        cm' v = if weird then (65535 - s, 65535 - s, 65535 - s) else (s, s, s)) ∧
      ∀ k, max < k → cm' k = if fill = true ∧ k < n then (0, 0, 0) else cm k := by
  set ev : Nat → RGB := fun k => (entry (grayColor max weird) 0 (max + 1) k).getD (0, 0, 0)
  have hev : ∀ k, entry (grayColor max weird) 0 (max + 1) k = some (ev k) := by
    intro k
    have : ∃ rgb, entry (grayColor max weird) 0 (max + 1) k = some rgb := by
      unfold entry
      split_ifs with h
      · obtain ⟨s, hs, _⟩ := scale_spec k max h0 hm (by omega)
        rw [Nat.sub_zero]
        exact ⟨_, by unfold grayColor; rw [hs]; rfl⟩
      · exact ⟨_, rfl⟩
    obtain ⟨rgb, h⟩ := this
    show _ = some (Option.getD _ _)
    rw [h]
    rfl
  refine ⟨fun k => if k < (if fill then n else max + 1) then ev k else cm k, ?_, ?_, ?_⟩
  · unfold initGray
    simp only
    rw [if_pos ⟨hm, Nat.zero_le _, by omega⟩, ite_self, Nat.sub_zero]
    exact chunkLoop_single _ _ _ ev (fun k _ => hev k) h256 cm
  · intro v hv
    obtain ⟨s, hs, ns, ls⟩ := scale_spec v max h0 hm hv
    refine ⟨s, ns, ls, ?_⟩
    simp only
    rw [if_pos (by split_ifs <;> omega)]
    have h1 := hev v
    unfold entry grayColor at h1
    rw [if_pos ⟨Nat.zero_le _, by omega⟩, Nat.sub_zero, hs, Option.map_some] at h1
    exact (Option.some.inj h1).symm
  · intro k hk
    simp only
    have h1 := hev k
    unfold entry at h1
    rw [if_neg (by omega)] at h1
    cases fill with
    | false =>
      simp only [Bool.false_eq_true, if_false, false_and]
      rw [if_neg (by omega)]
    | true =>
      simp only [if_true, true_and]
      rw [← Option.some.inj h1]

/-! ## Allocation -/

theorem allocLoop_ok (alloc : Nat → Option Nat) (n i : Nat) (perm : List Nat) (r : List Nat)
    (h : allocLoop alloc n i perm = (r, true)) :
    ∃ l, r = perm ++ l ∧ l.length = n ∧ ∀ j, j < n → l[j]? = alloc (i + j) := by
  induction n generalizing i perm with
  | zero =>
    simp only [allocLoop, Prod.mk.injEq, and_true] at h
    exact ⟨[], by rw [h, List.append_nil], rfl, by omega⟩
  | succ n ih =>
    unfold allocLoop at h
    cases ha : alloc i with
    | none => rw [ha] at h; simp at h
    | some p =>
      rw [ha] at h
      obtain ⟨l, h1, h2, h3⟩ := ih (i + 1) _ h
      refine ⟨p :: l, by rw [h1]; simp, by simp [h2], ?_⟩
      intro j hj
      cases j with
      | zero => simp [ha]
      | succ j =>
        rw [List.getElem?_cons_succ, h3 j (by omega)]
        congr 1
        omega

theorem allocLoop_fail (alloc : Nat → Option Nat) (n i : Nat) (perm : List Nat) (r : List Nat)
    (h : allocLoop alloc n i perm = (r, false)) :
    ∃ l, r = perm ++ l ∧ l.length < n ∧ alloc (i + l.length) = none ∧
      ∀ j, j < l.length → l[j]? = alloc (i + j) := by
  induction n generalizing i perm with
  | zero => simp [allocLoop] at h
  | succ n ih =>
    unfold allocLoop at h
    cases ha : alloc i with
    | none =>
      rw [ha] at h
      simp only [Prod.mk.injEq, and_true] at h
      exact ⟨[], by rw [h, List.append_nil], by simp, by simpa using ha, by simp⟩
    | some p =>
      rw [ha] at h
      obtain ⟨l, h1, h2, h3, h4⟩ := ih (i + 1) _ h
      refine ⟨p :: l, by rw [h1]; simp, by simp; omega, ?_, ?_⟩
      · rw [List.length_cons, ← h3]; congr 1; omega
      · intro j hj
        cases j with
        | zero => simp [ha]
        | succ j =>
          rw [List.length_cons] at hj
          rw [List.getElem?_cons_succ, h4 j (by omega)]
          congr 1
          omega

end Verif.Colormap
