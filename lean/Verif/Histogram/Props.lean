import Verif.Histogram.Model
import Mathlib.Tactic.Linarith
import Mathlib.Tactic.Positivity
import Mathlib.Tactic.FieldSimp
import Mathlib.Tactic.Ring
import Mathlib.Data.List.Count
import Mathlib.Algebra.BigOperators.Group.List.Basic

/-!
# Properties of histogram
-/

namespace Verif.Histogram

/-! ## C141: counting -/

/-- The lower end of a bin when a range is divided into a number of bins of equal size. -/
def edge (a b : ℚ) (numBins i : ℕ) : ℚ := a + (b - a) / numBins * i

/-- The number of values that satisfy a condition. -/
def number (p : ℚ → Prop) [DecidablePred p] (vals : List ℚ) : ℕ := (vals.filter (fun v => decide (p v))).length

variable {maxSize : ℕ} {a b : ℚ} {numBins : ℕ}

theorem scaled_iff (hab : a < b) (hn : 0 < numBins) (v : ℚ) (i : ℤ) :
    (i : ℚ) ≤ (numBins / (b - a)) * (v - a) ↔ a + (b - a) / numBins * i ≤ v := by
  have h1 : 0 < b - a := by linarith
  have h2 : (0 : ℚ) < numBins := by exact_mod_cast hn
  rw [div_mul_eq_mul_div, le_div_iff₀ h1, div_mul_eq_mul_div, ← le_sub_iff_add_le', div_le_iff₀ h2]
  constructor <;> intro h <;> linarith

/-- The state after addition of values. -/
structure Counts (a b : ℚ) (numBins : ℕ) (vals : List ℚ) (h : Hist) : Prop where
  base : h.base = a
  scale : h.scale = numBins / (b - a)
  len : h.bins.length = numBins
  bins : ∀ (i : ℕ) (hi : i < h.bins.length), h.bins[i] = number (fun v => edge a b numBins i ≤ v ∧ v < edge a b numBins (i + 1)) vals
  under : h.under = number (fun v => v < a) vals
  over : h.over = number (fun v => b ≤ v) vals

theorem number_snoc (p : ℚ → Prop) [DecidablePred p] (vals : List ℚ) (v : ℚ) :
    number p (vals ++ [v]) = number p vals + if p v then 1 else 0 := by
  unfold number
  by_cases h : p v <;> simp [h]

theorem edge_last (hn : 0 < numBins) : edge a b numBins numBins = b := by
  have h2 : (numBins : ℚ) ≠ 0 := by exact_mod_cast hn.ne'
  unfold edge
  rw [div_mul_cancel₀ _ h2]
  ring

theorem counts_add (hab : a < b) (hn : 0 < numBins) {vals : List ℚ} {h h' : Hist} (hc : Counts a b numBins vals h) {v : ℚ}
    (he : h.add maxSize v = some h') : Counts a b numBins (vals ++ [v]) h' := by
  have hw : 0 < (b - a) / numBins := div_pos (by linarith) (by exact_mod_cast hn)
  unfold Hist.add at he
  simp only [hc.base, hc.scale] at he
  have hz := scaled_iff hab hn v 0
  simp only [Int.cast_zero, mul_zero, add_zero] at hz
  have hfl : ∀ i : ℤ, i ≤ ⌊(numBins / (b - a)) * (v - a)⌋ ↔ a + (b - a) / numBins * i ≤ v := fun i => by
    rw [Int.le_floor, scaled_iff hab hn]
  have hlast := edge_last (a := a) (b := b) hn
  split at he
  next h0 =>
    have hav : a ≤ v := hz.mp h0
    have hu : ¬ v < a := not_lt.mpr hav
    split at he
    next => cases he
    next hm =>
      have hfl0 : 0 ≤ ⌊(numBins / (b - a)) * (v - a)⌋ := Int.floor_nonneg.mpr h0
      generalize hk : ⌊(numBins / (b - a)) * (v - a)⌋ = k at *
      obtain ⟨k, rfl⟩ := Int.eq_ofNat_of_zero_le hfl0
      have hk1 : ∀ i : ℕ, edge a b numBins i ≤ v ↔ i ≤ k := by
        intro i
        have := hfl i
        rw [Int.ofNat_le] at this
        rw [this, edge]
        simp
      split at he
      next hlt =>
        cases he
        have hkn : k < numBins := by rw [← hc.len]; simpa using hlt.2
        have hbv : ¬ b ≤ v := by
          rw [← hlast, hk1]; omega
        refine ⟨rfl, rfl, by simpa using hc.len, ?_, ?_, ?_⟩
        · intro i hi
          simp only [Int.toNat_natCast]
          have hi' : i < h.bins.length := by simpa using hi
          rw [List.getElem_modify, number_snoc, hc.bins i hi']
          have : (edge a b numBins i ≤ v ∧ v < edge a b numBins (i + 1)) ↔ k = i := by
            rw [hk1, ← not_le, hk1]; omega
          simp only [this]
          split <;> rfl
        · show h.under = _
          rw [number_snoc, if_neg hu, hc.under, add_zero]
        · show h.over = _
          rw [number_snoc, if_neg hbv, hc.over, add_zero]
      next hlt =>
        cases he
        have hkn : numBins ≤ k := by
          rw [← hc.len]
          by_contra hcon
          exact hlt ⟨not_lt.mp hm, by simpa using hcon⟩
        have hbv : b ≤ v := by rw [← hlast, hk1]; omega
        refine ⟨rfl, rfl, hc.len, ?_, ?_, ?_⟩
        · intro i hi
          have hi' : i < h.bins.length := hi
          rw [number_snoc, if_neg]
          · exact (hc.bins i hi').trans (add_zero _).symm
          · rw [hk1, ← not_le, hk1]
            have := hc.len
            omega
        · show h.under = _
          rw [number_snoc, if_neg hu, hc.under, add_zero]
        · show h.over + 1 = _
          rw [number_snoc, if_pos hbv, hc.over]
  next h0 =>
    cases he
    have hav : v < a := by rw [hz] at h0; exact not_le.mp h0
    refine ⟨rfl, rfl, hc.len, ?_, ?_, ?_⟩
    · intro i hi
      have hi' : i < h.bins.length := hi
      rw [number_snoc, if_neg]
      · exact (hc.bins i hi').trans (add_zero _).symm
      · rintro ⟨h1, -⟩
        unfold edge at h1
        have : 0 ≤ (b - a) / numBins * (i : ℚ) := by positivity
        linarith
    · show h.under + 1 = _
      rw [number_snoc, if_pos hav, hc.under]
    · show h.over = _
      rw [number_snoc, if_neg (by linarith), hc.over, add_zero]

theorem counts_new : Counts a b numBins [] (Hist.new a b numBins) := by
  refine ⟨rfl, rfl, by simp [Hist.new], ?_, rfl, rfl⟩
  intro i hi
  simp [Hist.new, number]

theorem counts_addAll (hab : a < b) (hn : 0 < numBins) (vals : List ℚ) : ∀ (prev : List ℚ) (h h' : Hist), Counts a b numBins prev h →
    h.addAll maxSize vals = some h' → Counts a b numBins (prev ++ vals) h' := by
  induction vals with
  | nil =>
    intro prev h h' hc he
    cases he
    rw [List.append_nil]
    exact hc
  | cons v vals ih =>
    intro prev h h' hc he
    rw [Hist.addAll, Option.bind_eq_some_iff] at he
    obtain ⟨h1, he1, he2⟩ := he
    have := ih (prev ++ [v]) h1 h' (counts_add hab hn hc he1) he2
    rwa [List.append_assoc] at this

/-- After addition of values, each bin contains the number of values in its part of the range, including its lower end, and excluding its
upper end. Values below the range are counted separately. So are values that are above the range or equal to its upper end. That assumes
that there is no undefined behavior. -/
theorem C141_counts_partial (hab : a < b) (hn : 0 < numBins) (vals : List ℚ) (h : Hist)
    (he : (Hist.new a b numBins).addAll maxSize vals = some h) :
    h.bins.length = numBins ∧
    (∀ (i : ℕ) (hi : i < h.bins.length), h.bins[i] = number (fun v => edge a b numBins i ≤ v ∧ v < edge a b numBins (i + 1)) vals) ∧
    h.under = number (fun v => v < a) vals ∧ h.over = number (fun v => b ≤ v) vals := by
  have hc := counts_addAll hab hn vals [] _ h counts_new he
  exact ⟨hc.len, hc.bins, hc.under, hc.over⟩

theorem add_none_iff (hab : a < b) (hn : 0 < numBins) {vals : List ℚ} {h : Hist} (hc : Counts a b numBins vals h) {v : ℚ} :
    h.add maxSize v = none ↔ edge a b numBins (maxSize + 1) ≤ v := by
  have hw : 0 < (b - a) / numBins := div_pos (by linarith) (by exact_mod_cast hn)
  have h3 : ((maxSize : ℤ) < ⌊(numBins / (b - a)) * (v - a)⌋) ↔ edge a b numBins (maxSize + 1) ≤ v := by
    rw [← Int.add_one_le_iff, Int.le_floor, scaled_iff hab hn, edge]
    push_cast
    rfl
  unfold Hist.add
  simp only [hc.base, hc.scale, h3]
  have hz := scaled_iff hab hn v 0
  simp only [Int.cast_zero, mul_zero, add_zero] at hz
  simp only [hz]
  split_ifs with h0 h1 h2
  · exact ⟨fun _ => h1, fun _ => rfl⟩
  · exact ⟨(fun h => by cases h), fun h => absurd h h1⟩
  · exact ⟨(fun h => by cases h), fun h => absurd h h1⟩
  · refine ⟨(fun h => by cases h), fun h => absurd ?_ h0⟩
    unfold edge at h
    have : 0 ≤ (b - a) / numBins * ((maxSize + 1 : ℕ) : ℚ) := by positivity
    linarith

/-- Addition of values is undefined behavior exactly when some value is so far above the range that its distance from the beginning of the
range, in terms of bins, cannot be represented as an integer. -/
theorem C141_undefined (hab : a < b) (hn : 0 < numBins) (vals : List ℚ) :
    (Hist.new a b numBins).addAll maxSize vals = none ↔ ∃ v ∈ vals, edge a b numBins (maxSize + 1) ≤ v := by
  suffices h : ∀ (vals prev : List ℚ) (h : Hist), Counts a b numBins prev h →
      (h.addAll maxSize vals = none ↔ ∃ v ∈ vals, edge a b numBins (maxSize + 1) ≤ v) from h vals [] _ counts_new
  intro vals
  induction vals with
  | nil => intro prev h hc; simp [Hist.addAll]
  | cons v vals ih =>
    intro prev h hc
    rw [Hist.addAll]
    cases he : h.add maxSize v with
    | none =>
      have := (add_none_iff hab hn hc).mp he
      simp [this]
    | some h1 =>
      have h2 : ¬ edge a b numBins (maxSize + 1) ≤ v := fun hcon => by
        rw [(add_none_iff hab hn hc).mpr hcon] at he; cases he
      have := ih (prev ++ [v]) h1 (counts_add hab hn hc he)
      simp only [Option.bind_some, this, List.mem_cons, exists_eq_or_imp, h2, false_or]

/-- The value 10^20 is handled by undefined behavior when the range is from 0 to 1. -/
theorem C141_undefined_witness : (Hist.new 0 1 10).addAll (2 ^ 64 - 1) [1 / 2, 10 ^ 20] = none := by decide +kernel

/-- Contrary to the documentation, a value that is equal to the upper end of the range is counted as being above the range. -/
theorem C141_upper_end (hab : a < b) (hn : 0 < numBins) (hm : numBins ≤ maxSize) :
    ∃ h, (Hist.new a b numBins).addAll maxSize [b] = some h ∧ h.over = 1 := by
  cases he : (Hist.new a b numBins).addAll maxSize [b] with
  | none =>
    obtain ⟨v, hv, h1⟩ := (C141_undefined hab hn [b]).mp he
    rw [List.mem_singleton] at hv
    subst hv
    have hw : 0 < (v - a) / numBins := div_pos (by linarith) (by exact_mod_cast hn)
    have hlast := edge_last (a := a) (b := v) hn
    unfold edge at h1 hlast
    have : (numBins : ℚ) + 1 ≤ ((maxSize + 1 : ℕ) : ℚ) := by exact_mod_cast Nat.succ_le_succ hm
    have := mul_le_mul_of_nonneg_left this hw.le
    linarith
  | some h =>
    refine ⟨h, rfl, ?_⟩
    rw [(C141_counts_partial hab hn [b] h he).2.2.2]
    simp [number]

/-- Four bins from 0 to 1: the values 1/4 and 3/8 are in the second one, and 3 is above. -/
example : ((Hist.new 0 1 4).addAll (2 ^ 64 - 1) [1 / 4, 3 / 8, -1, 3]).map (fun h => (h.bins, h.under, h.over)) =
    some ([0, 2, 0, 0], 1, 1) := by decide +kernel

theorem sum_modify (l : List ℕ) (k : ℕ) (hk : k < l.length) : (l.modify k (· + 1)).sum = l.sum + 1 := by
  induction l generalizing k with
  | nil => simp at hk
  | cons x l ih =>
    cases k with
    | zero => simp [List.modify_cons]; omega
    | succ k =>
      have := ih k (by simpa using hk)
      simp [List.modify_cons, this]; omega

/-- No value is lost or counted twice. -/
theorem C141_total (vals : List ℚ) : ∀ (h h' : Hist), h.addAll maxSize vals = some h' →
    h'.bins.sum + h'.under + h'.over = h.bins.sum + h.under + h.over + vals.length := by
  induction vals with
  | nil => intro h h' he; cases he; simp
  | cons v vals ih =>
    intro h h' he
    rw [Hist.addAll, Option.bind_eq_some_iff] at he
    obtain ⟨h1, he1, he2⟩ := he
    have h2 := ih h1 h' he2
    have h3 : h1.bins.sum + h1.under + h1.over = h.bins.sum + h.under + h.over + 1 := by
      unfold Hist.add at he1
      simp only at he1
      split_ifs at he1 with c1 c2 c3
      · cases he1
        have := sum_modify h.bins _ c3.2
        show (h.bins.modify _ _).sum + h.under + h.over = _
        omega
      · cases he1; show h.bins.sum + h.under + (h.over + 1) = _; omega
      · cases he1; show h.bins.sum + (h.under + 1) + h.over = _; omega
    rw [h2, h3, List.length_cons]
    omega

/-! ## C142: printing -/

theorem foldl_max (l : List ℕ) (m : ℕ) : (∀ n ∈ l, n ≤ l.foldl (fun m n => if n ≤ m then m else n) m) ∧
    m ≤ l.foldl (fun m n => if n ≤ m then m else n) m ∧
    (l.foldl (fun m n => if n ≤ m then m else n) m = m ∨ l.foldl (fun m n => if n ≤ m then m else n) m ∈ l) := by
  induction l generalizing m with
  | nil => simp
  | cons x l ih =>
    rw [List.foldl_cons]
    obtain ⟨h1, h2, h3⟩ := ih (if x ≤ m then m else x)
    have h4 : x ≤ (if x ≤ m then m else x) ∧ m ≤ (if x ≤ m then m else x) ∧ ((if x ≤ m then m else x) = m ∨ (if x ≤ m then m else x) = x) := by
      split <;> omega
    refine ⟨?_, h4.2.1.trans h2, ?_⟩
    · intro n hn
      rcases List.mem_cons.mp hn with rfl | hn
      · exact h4.1.trans h2
      · exact h1 n hn
    · rcases h3 with h3 | h3
      · rcases h4.2.2 with h5 | h5
        · exact Or.inl (h3.trans h5)
        · exact Or.inr (List.mem_cons.mpr (Or.inl (h3.trans h5)))
      · exact Or.inr (List.mem_cons_of_mem _ h3)

theorem columnWidth_le (l : List (List Char)) : ∀ s ∈ l, s.length ≤ columnWidth l := by
  have h : ∀ (l : List (List Char)) (w : ℕ), w ≤ l.foldl (fun w s => if s.length > w then s.length else w) w ∧
      ∀ s ∈ l, s.length ≤ l.foldl (fun w s => if s.length > w then s.length else w) w := by
    intro l
    induction l with
    | nil => simp
    | cons x l ih =>
      intro w
      rw [List.foldl_cons]
      obtain ⟨h1, h2⟩ := ih (if x.length > w then x.length else w)
      have h3 : w ≤ (if x.length > w then x.length else w) ∧ x.length ≤ (if x.length > w then x.length else w) := by split <;> omega
      refine ⟨h3.1.trans h1, ?_⟩
      intro s hs
      rcases List.mem_cons.mp hs with rfl | hs
      · exact h3.2.trans h1
      · exact h2 s hs
  exact (h l 0).2

theorem binTexts_mem (F : Format) (h : Hist) (sp : Bool) : ∀ (l : List ℕ) (i : ℕ) (t : List Char) (x : BinTexts),
    x ∈ h.binTexts F sp i l t → x.n ∈ l := by
  intro l
  induction l with
  | nil => intro i t x hx; simp [Hist.binTexts] at hx
  | cons n l ih =>
    intro i t x hx
    rw [Hist.binTexts] at hx
    rcases List.mem_cons.mp hx with rfl | hx
    · exact List.mem_cons_self
    · exact List.mem_cons_of_mem _ (ih _ _ x hx)

theorem texts_le (F : Format) (h : Hist) (inc : Bool) (x : BinTexts) (hx : x ∈ h.texts F inc) : x.n ≤ h.maxCount := by
  obtain ⟨h1, h2, -⟩ := foldl_max h.bins (max h.under h.over)
  unfold Hist.texts at hx
  simp only at hx
  split at hx
  next =>
    rcases List.mem_cons.mp hx with rfl | hx
    · exact (le_max_left _ _).trans h2
    · rcases List.mem_append.mp hx with hx | hx
      · exact h1 _ (binTexts_mem F h _ _ _ _ x hx)
      · rw [List.mem_singleton] at hx
        subst hx
        exact (le_max_right _ _).trans h2
  next => exact h1 _ (binTexts_mem F h _ _ _ _ x hx)

theorem deduct_nonneg (size n : ℤ) : 0 ≤ deduct size n := by unfold deduct; split <;> omega

theorem deduct_eq (size n : ℤ) : deduct size n = max 0 (size - n) := by
  unfold deduct
  split <;> omega

/-- The length of a bar is the closest integer to what it should be in proportion to the longest possible bar. -/
theorem barSize_spec {maxBarSize : ℤ} (hb : 0 ≤ maxBarSize) {maxCount n : ℕ} (hm : 0 < maxCount) (hn : n ≤ maxCount) :
    ∃ size : ℕ, barSize maxBarSize maxCount n = some size ∧ (size : ℤ) ≤ maxBarSize ∧ |(size : ℚ) - n * maxBarSize / maxCount| ≤ 1 / 2 ∧
      (n = 0 → size = 0) ∧ (n = maxCount → (size : ℤ) = maxBarSize) := by
  unfold barSize
  rw [if_neg hm.ne']
  refine ⟨_, rfl, ?_⟩
  have hm' : (0 : ℚ) < maxCount := by exact_mod_cast hm
  have hb' : (0 : ℚ) ≤ maxBarSize := by exact_mod_cast hb
  have e : (n : ℚ) * (maxBarSize / maxCount) = n * maxBarSize / maxCount := by ring
  rw [e]
  have h0 : (0 : ℚ) ≤ n * maxBarSize / maxCount := by positivity
  have h1 : (n : ℚ) * maxBarSize / maxCount ≤ maxBarSize := by
    rw [div_le_iff₀ hm']
    have : (n : ℚ) ≤ maxCount := by exact_mod_cast hn
    rw [mul_comm]
    exact mul_le_mul_of_nonneg_left this hb'
  generalize hx : (n : ℚ) * maxBarSize / maxCount = x at *
  unfold roundNonNeg
  have hf0 : 0 ≤ ⌊x + 1 / 2⌋ := Int.floor_nonneg.mpr (by linarith)
  have hcast : ((⌊x + 1 / 2⌋.toNat : ℕ) : ℤ) = ⌊x + 1 / 2⌋ := Int.toNat_of_nonneg hf0
  have hcastQ : ((⌊x + 1 / 2⌋.toNat : ℕ) : ℚ) = (⌊x + 1 / 2⌋ : ℚ) := by exact_mod_cast congrArg (Int.cast (R := ℚ)) hcast
  have h2 := Int.floor_le (x + 1 / 2)
  have h3 := Int.lt_floor_add_one (x + 1 / 2)
  refine ⟨?_, ?_, ?_, ?_⟩
  · rw [hcast]
    have : (⌊x + 1 / 2⌋ : ℚ) < maxBarSize + 1 := by linarith
    have : ⌊x + 1 / 2⌋ < maxBarSize + 1 := by exact_mod_cast this
    omega
  · rw [hcastQ, abs_le]
    constructor <;> linarith
  · intro h
    have : x = 0 := by rw [← hx, h]; simp
    rw [this]
    norm_num
  · intro h
    have : x = maxBarSize := by rw [← hx, h]; field_simp
    rw [hcast, this, Int.floor_eq_iff]
    constructor <;> linarith

/-- The parts of a line: the ends of the bin, the count, and the bar, which occupies a field of a particular size. -/
structure IsLine (fromWidth toWidth countWidth barWidth : ℕ) (t : BinTexts) (size : ℕ) (line : List Char) : Prop where
  parts : line = (t.a ++ List.replicate (fromWidth - t.a.length) ' ') ++ " -> ".toList ++ (t.b ++ List.replicate (toWidth - t.b.length) ' ') ++
    " : ".toList ++ (List.replicate (countWidth - t.count.length) ' ' ++ t.count) ++ " |".toList ++
    (List.replicate size '#' ++ List.replicate (barWidth - size) ' ') ++ "|".toList
  fits : t.a.length ≤ fromWidth ∧ t.b.length ≤ toWidth ∧ t.count.length ≤ countWidth ∧ size ≤ barWidth

theorem IsLine.length {f t c w : ℕ} {x : BinTexts} {size : ℕ} {line : List Char} (h : IsLine f t c w x size line) :
    line.length = f + t + c + w + 10 := by
  obtain ⟨h1, h2, h3, h4⟩ := h.fits
  rw [h.parts]
  simp
  omega

theorem mapM_forall₂ {α β : Type} (f : α → Option β) (P : α → β → Prop) (l : List α) (h : ∀ x ∈ l, ∃ y, f x = some y ∧ P x y) :
    ∃ r, l.mapM f = some r ∧ List.Forall₂ P l r := by
  induction l with
  | nil => exact ⟨[], rfl, .nil⟩
  | cons x l ih =>
    obtain ⟨y, h1, h2⟩ := h x List.mem_cons_self
    obtain ⟨r, h3, h4⟩ := ih fun z hz => h z (List.mem_cons_of_mem _ hz)
    exact ⟨y :: r, by simp [List.mapM_cons, h1, h3], .cons h2 h4⟩

theorem forall₂_right {α β : Type} {P : α → β → Prop} {l : List α} {r : List β} (h : List.Forall₂ P l r) : ∀ y ∈ r, ∃ x, P x y := by
  induction h with
  | nil => intro y hy; cases hy
  | cons hxy _ ih =>
    intro y hy
    rcases List.mem_cons.mp hy with rfl | hy
    · exact ⟨_, hxy⟩
    · exact ih y hy

/-- When at least one value was added, the histogram is printed as one line per bin. All lines have the same length. That is the requested
width, unless the requested width is too small for anything but the texts. The length of each bar is proportional to the count, rounded to
the closest integer. -/
theorem C142_lines_partial (F : Format) (h : Hist) (hm : 0 < h.maxCount) (width : ℤ) (inc : Bool) :
    ∃ (lines : List (List Char)) (f t c w : ℕ), h.print F width inc = some lines ∧
      ((f + t + c + w + 10 : ℕ) : ℤ) = max width (f + t + c + 10 : ℕ) ∧
      List.Forall₂ (fun x line => ∃ size, IsLine f t c w x size line ∧ |(size : ℚ) - x.n * w / h.maxCount| ≤ 1 / 2 ∧
        (x.n = 0 → size = 0) ∧ (x.n = h.maxCount → size = w)) (h.texts F inc) lines ∧
      ∀ line ∈ lines, (line.length : ℤ) = max width (f + t + c + 10 : ℕ) := by
  have hb : 0 ≤ (layout (h.texts F inc) width).maxBarSize := deduct_nonneg _ _
  have hwd : (((layout (h.texts F inc) width).fromWidth + (layout (h.texts F inc) width).toWidth + (layout (h.texts F inc) width).countWidth +
      (layout (h.texts F inc) width).maxBarSize.toNat + 10 : ℕ) : ℤ) =
      max width ((layout (h.texts F inc) width).fromWidth + (layout (h.texts F inc) width).toWidth + (layout (h.texts F inc) width).countWidth + 10 : ℕ) := by
    simp only [layout, deduct_eq]
    omega
  have hl : ∀ x ∈ h.texts F inc, ∃ line, formatBin (layout (h.texts F inc) width) h.maxCount x = some line ∧
      ∃ size, IsLine (layout (h.texts F inc) width).fromWidth (layout (h.texts F inc) width).toWidth
        (layout (h.texts F inc) width).countWidth (layout (h.texts F inc) width).maxBarSize.toNat x size line ∧
        |(size : ℚ) - x.n * ((layout (h.texts F inc) width).maxBarSize.toNat : ℕ) / h.maxCount| ≤ 1 / 2 ∧
        (x.n = 0 → size = 0) ∧ (x.n = h.maxCount → size = (layout (h.texts F inc) width).maxBarSize.toNat) := by
    intro x hx
    obtain ⟨size, h1, h2, h3, h4, h5⟩ := barSize_spec hb hm (texts_le F h inc x hx)
    have hcast : (((layout (h.texts F inc) width).maxBarSize.toNat : ℕ) : ℤ) = (layout (h.texts F inc) width).maxBarSize := Int.toNat_of_nonneg hb
    have hcastQ : (((layout (h.texts F inc) width).maxBarSize.toNat : ℕ) : ℚ) = ((layout (h.texts F inc) width).maxBarSize : ℚ) := by
      exact_mod_cast congrArg (Int.cast (R := ℚ)) hcast
    refine ⟨_, by unfold formatBin; rw [h1]; rfl, size, ⟨?_, ?_⟩, ?_, h4, fun hn => by have := h5 hn; omega⟩
    · simp [padRight, padLeft]
    · exact ⟨columnWidth_le _ _ (List.mem_map_of_mem hx), columnWidth_le _ _ (List.mem_map_of_mem hx),
        columnWidth_le _ _ (List.mem_map_of_mem hx), by omega⟩
    · rw [hcastQ]; exact h3
  obtain ⟨lines, h1, h2⟩ := mapM_forall₂ _ _ _ hl
  refine ⟨lines, _, _, _, _, h1, hwd, h2, ?_⟩
  intro line hline
  rw [← hwd]
  obtain ⟨x, size, hx, -⟩ := forall₂_right h2 line hline
  rw [hx.length]

/-- The ends of a bin. -/
def binEnds (F : Format) (sp : Bool) (a b : ℚ) (numBins : ℕ) (bins : List ℕ) (i : ℕ) : BinTexts :=
  { a := F.value sp (.finite (edge a b numBins i)), b := F.value sp (.finite (edge a b numBins (i + 1)))
    count := F.count (bins.getD i 0), n := bins.getD i 0 }

theorem binTexts_eq (F : Format) (h : Hist) (hscale : h.scale = numBins / (b - a)) (hbase : h.base = a) (sp : Bool) : ∀ (l : List ℕ) (i : ℕ) (t : List Char),
    t = F.value sp (.finite (edge a b numBins i)) →
    h.binTexts F sp i l t = (List.range l.length).map (fun j =>
      { a := F.value sp (.finite (edge a b numBins (i + j))), b := F.value sp (.finite (edge a b numBins (i + j + 1)))
        count := F.count (l.getD j 0), n := l.getD j 0 }) := by
  intro l
  induction l with
  | nil => intro i t _; simp [Hist.binTexts]
  | cons n l ih =>
    intro i t ht
    have e : h.base + ((i : ℚ) + 1) * (1 / h.scale) = edge a b numBins (i + 1) := by
      rw [hbase, hscale, edge, one_div_div]; push_cast; ring
    rw [Hist.binTexts, ih (i + 1) _ (by rw [e]), List.length_cons, List.range_succ_eq_map, List.map_cons, List.map_map, e, ht]
    simp only [add_zero, List.getD_cons_zero, List.cons.injEq, true_and]
    apply List.map_congr_left
    intro j _
    simp only [Function.comp, Nat.succ_eq_add_one, List.getD_cons_succ]
    rw [show i + 1 + j = i + (j + 1) by omega]

/-- There is a line for each bin, with the ends of the bin, and its count. If requested, there is also a line for the values below the
range, and one for the values that are not below the upper end of the range. -/
theorem C142_texts (F : Format) (hab : a < b) (hn : 0 < numBins) (vals : List ℚ) (h : Hist)
    (he : (Hist.new a b numBins).addAll maxSize vals = some h) :
    h.texts F false = (List.range numBins).map (binEnds F (decide (a < 0)) a b numBins h.bins) ∧
    h.texts F true = { a := F.value true .minusInfinity, b := F.value true (.finite a), count := F.count h.under, n := h.under } ::
      ((List.range numBins).map (binEnds F true a b numBins h.bins) ++
        [{ a := F.value true (.finite b), b := F.value true .plusInfinity, count := F.count h.over, n := h.over }]) := by
  have hc := counts_addAll hab hn vals [] _ h counts_new he
  have e0 : h.base = edge a b numBins 0 := by rw [hc.base]; simp [edge]
  have hne : h.bins ≠ [] := by
    intro hcon
    have := hc.len
    rw [hcon] at this
    simp at this
    omega
  have e1 : h.base + (h.bins.length : ℚ) * (1 / h.scale) = b := by
    have h2 : (numBins : ℚ) ≠ 0 := by exact_mod_cast hn.ne'
    rw [hc.len, hc.base, hc.scale, one_div_div, mul_div_cancel₀ _ h2]; ring
  unfold Hist.texts Hist.showpos
  simp only [Bool.false_or, Bool.false_eq_true, if_false, Bool.true_or, if_true]
  constructor
  · rw [binTexts_eq F h hc.scale hc.base _ h.bins 0 _ (by rw [e0]), hc.len, hc.base]
    simp only [zero_add]
    rfl
  · rw [binTexts_eq F h hc.scale hc.base _ h.bins 0 _ (by rw [e0]), if_neg hne, e1, hc.len, hc.base]
    simp only [zero_add]
    rfl

/-- Printing a histogram to which no value was added is undefined behavior. -/
theorem C142_empty (F : Format) (hn : 0 < numBins) (width : ℤ) (inc : Bool) : (Hist.new a b numBins).print F width inc = none := by
  have hm : (Hist.new a b numBins).maxCount = 0 := by
    have h1 : ∀ n, (List.replicate n 0).foldl (fun m n => if n ≤ m then m else n) 0 = 0 := by
      intro n
      induction n with
      | zero => rfl
      | succ n ih => rw [List.replicate_succ, List.foldl_cons]; simpa using ih
    simpa [Hist.maxCount, Hist.new] using h1 numBins
  have hne : (Hist.new a b numBins).texts F inc ≠ [] := by
    obtain ⟨k, rfl⟩ : ∃ k, numBins = k + 1 := ⟨numBins - 1, by omega⟩
    unfold Hist.texts
    simp only
    split
    · simp
    · simp [Hist.new, List.replicate_succ, Hist.binTexts]
  unfold Hist.print
  simp only [hm]
  cases htx : (Hist.new a b numBins).texts F inc with
  | nil => exact absurd htx hne
  | cons x l =>
    rw [List.mapM_cons]
    simp [formatBin, barSize]

/-- As soon as a value was added, the maximum count is positive, so the histogram can be printed. -/
theorem C142_nonempty (vals : List ℚ) (hv : vals ≠ []) (h : Hist) (he : (Hist.new a b numBins).addAll maxSize vals = some h) :
    0 < h.maxCount := by
  have h1 := C141_total vals _ h he
  obtain ⟨h2, h3, -⟩ := foldl_max h.bins (max h.under h.over)
  by_contra hcon
  have hz : h.maxCount = 0 := by omega
  have h4 : h.bins.sum = 0 := by
    apply List.sum_eq_zero
    intro x hx
    have := h2 x hx
    unfold Hist.maxCount at hz
    omega
  have h5 : h.under = 0 ∧ h.over = 0 := by
    unfold Hist.maxCount at hz
    rw [hz] at h3
    omega
  have h6 : 0 < vals.length := List.length_pos_iff.mpr hv
  simp [Hist.new] at h1
  omega

/-- A way of formatting for the sake of examples. -/
def plain : Format :=
  { value := fun _ v => match v with
      | .minusInfinity => ['-', 'i']
      | .finite x => [Char.ofNat (48 + x.num.toNat)]
      | .plusInfinity => ['+', 'i']
    count := fun n => [Char.ofNat (48 + n)] }

example : (((Hist.new 0 2 2).addAll 255 [0, 1 / 2, 1, 3]).bind (fun h => h.print plain 18 true)) =
    some ["-i -> 0  : 0 |   |".toList, "0  -> 1  : 2 |###|".toList, "1  -> 2  : 1 |## |".toList, "2  -> +i : 1 |## |".toList] := by
  decide +kernel

end Verif.Histogram
