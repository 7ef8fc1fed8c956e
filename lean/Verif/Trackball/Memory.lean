import Verif.Trackball.Spec
import Mathlib.Tactic.Linarith
import Mathlib.Tactic.Ring
import Mathlib.Tactic.FieldSimp

/-!
# Lemmas about the memory of curves
-/

namespace Verif.Trackball

open Spec

/-! ### Ring -/

structure RingOk {α : Type} (r : Ring α) : Prop where
  pos : 0 < r.capacity
  state : (r.size < r.capacity ∧ r.offset = 0) ∨ (r.size = r.capacity ∧ r.offset < r.capacity)

theorem length_contents {α : Type} (r : Ring α) : (contents r).length = r.size := by simp [contents]

theorem getElem_contents {α : Type} (r : Ring α) (i : ℕ) (h : i < (contents r).length) : (contents r)[i] = r.get i := by simp [contents]

theorem pushBack_spec {α : Type} {r : Ring α} (h : RingOk r) (v : α) :
    ∃ r', r.pushBack v = some r' ∧ RingOk r' ∧ r'.capacity = r.capacity ∧
      contents r' = if r.size = r.capacity then (contents r).tail ++ [v] else contents r ++ [v] := by
  have hp := h.pos
  unfold Ring.pushBack
  by_cases hs : r.size = r.capacity
  · rw [if_pos hs, if_pos hs]
    have ho : r.offset < r.size := by rcases h.state with h1 | h1 <;> omega
    refine ⟨_, rfl, ⟨hp, Or.inr ⟨hs, ?_⟩⟩, rfl, ?_⟩
    · simp only; split <;> omega
    · apply List.ext_getElem
      · rw [length_contents, List.length_append, List.length_tail, length_contents]
        simp only [List.length_singleton]; omega
      · intro i h1 h2
        rw [getElem_contents]
        rw [length_contents] at h1
        simp only at h1
        by_cases h3 : i < (contents r).tail.length
        · rw [List.getElem_append_left h3]
          rw [List.length_tail, length_contents] at h3
          rw [List.getElem_tail, getElem_contents]
          simp only [Ring.get]
          rw [Function.update_of_ne]
          · congr 1
            split_ifs <;> omega
          · split_ifs <;> omega
        · rw [List.getElem_append_right (by omega)]
          rw [List.length_tail, length_contents] at h3
          simp only [List.getElem_singleton, Ring.get]
          have e : (if i < r.size - (if r.offset + 1 = r.size then 0 else r.offset + 1) then (if r.offset + 1 = r.size then 0 else r.offset + 1) + i
              else i - (r.size - (if r.offset + 1 = r.size then 0 else r.offset + 1))) = r.offset := by
            split_ifs <;> omega
          rw [e, Function.update_self]
  · rw [if_neg hs, if_neg hs]
    have ho : r.offset = 0 ∧ r.size < r.capacity := by rcases h.state with h1 | h1 <;> omega
    rw [if_pos ho.1]
    refine ⟨_, rfl, ⟨hp, ?_⟩, rfl, ?_⟩
    · simp only [ho.1]
      by_cases h1 : r.size + 1 = r.capacity
      · exact Or.inr ⟨h1, hp⟩
      · exact Or.inl ⟨by omega, trivial⟩
    · apply List.ext_getElem
      · rw [length_contents, List.length_append, length_contents]
        simp only [List.length_singleton]
      · intro i h1 h2
        rw [getElem_contents]
        rw [length_contents] at h1
        simp only at h1
        by_cases h3 : i < (contents r).length
        · rw [List.getElem_append_left h3]
          rw [length_contents] at h3
          rw [getElem_contents]
          simp only [Ring.get, ho.1]
          rw [Function.update_of_ne]
          · congr 1
            split_ifs <;> omega
          · split_ifs <;> omega
        · rw [List.getElem_append_right (by omega)]
          rw [length_contents] at h3
          simp only [List.getElem_singleton, Ring.get, ho.1]
          have e : (if i < r.size + 1 - 0 then 0 + i else i - (r.size + 1 - 0)) = r.size := by
            split_ifs <;> omega
          rw [e, Function.update_self]

theorem clear_ok {α : Type} {r : Ring α} (h : RingOk r) : RingOk r.clear ∧ contents r.clear = [] :=
  ⟨⟨h.pos, Or.inl ⟨h.pos, rfl⟩⟩, rfl⟩

theorem lastN_append_singleton {α : Type} (n : ℕ) (hn : 0 < n) (l : List α) (v : α) :
    lastN n (l ++ [v]) = if (lastN n l).length = n then (lastN n l).tail ++ [v] else lastN n l ++ [v] := by
  unfold lastN
  rw [List.length_append, List.length_singleton, List.length_drop]
  split
  · rename_i h
    rw [List.tail_drop, List.drop_append_of_le_length (by omega)]
    congr 2
    omega
  · rename_i h
    rw [List.drop_append_of_le_length (by omega)]
    congr 2
    omega

theorem pushAll_spec {α : Type} {r : Ring α} (h : RingOk r) (l0 : List α) (hc : contents r = lastN r.capacity l0) (l : List α) :
    ∃ r', pushAll r l = some r' ∧ RingOk r' ∧ r'.capacity = r.capacity ∧ contents r' = lastN r.capacity (l0 ++ l) := by
  induction l generalizing r l0 with
  | nil => exact ⟨r, rfl, h, rfl, by rw [List.append_nil, hc]⟩
  | cons v l ih =>
    obtain ⟨r1, h1, h2, h3, h4⟩ := pushBack_spec h v
    obtain ⟨r2, h5, h6, h7, h8⟩ := ih h2 (l0 ++ [v]) (by
      rw [h4, h3, lastN_append_singleton _ h.pos, ← hc, length_contents])
    refine ⟨r2, ?_, h6, h7.trans h3, ?_⟩
    · unfold pushAll
      rw [List.foldlM_cons, h1]
      exact h5
    · rw [h8, h3, List.append_assoc]; rfl

/-! ### Samples -/

/-- What holds after adding values to the memory of a curve. -/
structure MemOk (l : List Sample) (m : CurveMem) : Prop where
  ring : RingOk m.samples
  sub : (contents m.samples).Sublist l
  sorted : (contents m.samples).Pairwise fun a b => a.millis / m.millisPerBarrier < b.millis / m.millisPerBarrier
  nonempty : l ≠ [] → contents m.samples ≠ []
  last : ∀ s, (contents m.samples).getLast? = some s → m.lastBarrierIndex = s.millis / m.millisPerBarrier
  last' : ∀ s, l.getLast? = some s → m.lastBarrierIndex = s.millis / m.millisPerBarrier
  first : m.samples.size < m.samples.capacity → (contents m.samples).head? = l.head?
  dense : ∀ x ∈ l, (∀ s, (contents m.samples).head? = some s → s.millis ≤ x.millis) →
    ∃ y ∈ contents m.samples, y.millis ≤ x.millis ∧ y.millis / m.millisPerBarrier = x.millis / m.millisPerBarrier

theorem memOk_clear {m : CurveMem} (h : RingOk m.samples) : MemOk [] m.clear := by
  have h1 := clear_ok h
  refine ⟨h1.1, ?_, ?_, fun h => absurd rfl h, ?_, ?_, ?_, fun x hx => by cases hx⟩
  · show (contents m.samples.clear).Sublist []
    rw [h1.2]
  · show (contents m.samples.clear).Pairwise _
    rw [h1.2]; exact List.Pairwise.nil
  · intro s hs
    have : (contents m.samples.clear).getLast? = some s := hs
    rw [h1.2] at this
    cases this
  · intro s hs; cases hs
  · intro _
    show (contents m.samples.clear).head? = _
    rw [h1.2]

theorem addValue_ok {l : List Sample} {m : CurveMem} (h : MemOk l m) (hN : 0 < m.millisPerBarrier) (s : Sample) (ho : Ordered (l ++ [s])) :
    ∃ m', m.addValue s.value s.millis = some m' ∧ MemOk (l ++ [s]) m' ∧ m'.millisPerBarrier = m.millisPerBarrier ∧
      m'.samples.capacity = m.samples.capacity := by
  have hs0 : 0 ≤ s.millis := ho.2 s (by simp)
  have hle : ∀ a ∈ l, a.millis ≤ s.millis := by
    intro a ha
    exact (List.pairwise_append.mp ho.1).2.2 a ha s (by simp)
  unfold CurveMem.addValue
  simp only
  rw [Int.tdiv_eq_ediv_of_nonneg hs0]
  by_cases hc : m.samples.size = 0 ∨ m.lastBarrierIndex < s.millis / m.millisPerBarrier
  · rw [if_pos hc]
    obtain ⟨r, h1, h2, h3, h4⟩ := pushBack_spec h.ring s
    rw [show (⟨s.value, s.millis⟩ : Sample) = s from rfl, h1]
    refine ⟨_, rfl, ?_, rfl, h3⟩
    -- all old samples are below the new barrier
    have hlt : ∀ a ∈ contents m.samples, a.millis / m.millisPerBarrier < s.millis / m.millisPerBarrier := by
      intro a ha
      rcases hc with hc | hc
      · have : contents m.samples = [] := List.length_eq_zero_iff.mp (by rw [length_contents, hc])
        rw [this] at ha; cases ha
      · have hne : contents m.samples ≠ [] := List.ne_nil_of_mem ha
        have hl := h.last _ (List.getLast?_eq_some_getLast hne)
        rw [hl] at hc
        obtain ⟨i, hi, rfl⟩ := List.getElem_of_mem ha
        rw [List.getLast_eq_getElem] at hc
        by_cases hi2 : i = (contents m.samples).length - 1
        · subst hi2; exact hc
        · exact lt_trans (List.pairwise_iff_getElem.mp h.sorted i _ hi (by omega) (by omega)) hc
    have hsub : ∃ c, contents r = c ++ [s] ∧ c.Sublist (contents m.samples) := by
      rw [h4]
      split
      · exact ⟨_, rfl, List.tail_sublist _⟩
      · exact ⟨_, rfl, List.Sublist.refl _⟩
    obtain ⟨c, hc1, hc2⟩ := hsub
    refine ⟨h2, ?_, ?_, ?_, ?_, ?_, ?_, ?_⟩
    · simp only
      rw [hc1]
      exact (hc2.trans h.sub).append (List.Sublist.refl _)
    · simp only
      rw [hc1, List.pairwise_append]
      refine ⟨h.sorted.sublist hc2, List.pairwise_singleton _ _, ?_⟩
      intro a ha b hb
      rw [List.mem_singleton] at hb
      subst hb
      exact hlt a (hc2.subset ha)
    · intro _
      simp only
      rw [hc1]; simp
    · intro a ha
      simp only at ha ⊢
      rw [hc1] at ha
      simp at ha
      rw [← ha]
    · intro a ha
      simp at ha
      simp only
      rw [← ha]
    · intro hsz
      simp only at hsz ⊢
      have hsz2 : r.size = if m.samples.size = m.samples.capacity then m.samples.size else m.samples.size + 1 := by
        rw [← length_contents r, h4]
        have := h.ring.pos
        split
        · rw [List.length_append, List.length_tail, length_contents, List.length_singleton]; omega
        · rw [List.length_append, length_contents, List.length_singleton]
      have hsz3 : m.samples.size ≠ m.samples.capacity := by
        intro e; rw [if_pos e] at hsz2; omega
      rw [h4, if_neg hsz3]
      have hf := h.first (by rcases h.ring.state with h5 | h5 <;> omega)
      rw [List.head?_append, List.head?_append, hf]
    · intro x hx hhead
      simp only at hhead ⊢
      rcases List.mem_append.mp hx with hx | hx
      · have hxs := hle x hx
        by_cases hce : c = []
        · refine ⟨s, by rw [hc1]; simp, ?_⟩
          have := hhead s (by rw [hc1, hce]; rfl)
          exact ⟨this, by rw [le_antisymm this hxs]⟩
        · have hch : (contents r).head? = some (c.head hce) := by
            rw [hc1, List.head?_append, List.head?_eq_some_head hce]; rfl
          have hch2 := hhead _ hch
          have hxc : ∃ y ∈ contents m.samples, y.millis ≤ x.millis ∧ y.millis / m.millisPerBarrier = x.millis / m.millisPerBarrier := by
            apply h.dense x hx
            intro a ha
            refine le_trans ?_ hch2
            have hmem := hc2.subset (List.head_mem hce)
            cases hcm : contents m.samples with
            | nil => rw [hcm] at hmem; cases hmem
            | cons b t =>
              rw [hcm] at ha hmem
              simp only [List.head?_cons, Option.some.injEq] at ha
              subst ha
              rcases List.mem_cons.mp hmem with e | e
              · rw [e]
              · have hso := h.sorted
                rw [hcm, List.pairwise_cons] at hso
                have h6 := hso.1 _ e
                by_contra h7
                have := Int.ediv_le_ediv hN (le_of_not_ge h7)
                omega
          obtain ⟨y, hy1, hy2, hy3⟩ := hxc
          refine ⟨y, ?_, hy2, hy3⟩
          have hch3 := Int.ediv_le_ediv hN hch2
          rw [h4] at hc1 ⊢
          split at hc1
          · have hct : c = (contents m.samples).tail := (List.append_cancel_right hc1).symm
            rw [if_pos (by assumption)]
            apply List.mem_append_left
            cases hcm : contents m.samples with
            | nil => rw [hcm] at hy1; cases hy1
            | cons b t =>
              rw [hcm] at hy1
              rcases List.mem_cons.mp hy1 with e | e
              · exfalso
                have hso := h.sorted
                rw [hcm, List.pairwise_cons] at hso
                have : c.head hce ∈ t := by
                  have := List.head_mem hce
                  simp only [hct, hcm, List.tail_cons] at this ⊢
                  exact this
                have h6 := hso.1 _ this
                rw [← e] at h6
                omega
              · exact e
          · rw [if_neg (by assumption)]
            exact List.mem_append_left _ hy1
      · rw [List.mem_singleton] at hx
        subst hx
        exact ⟨x, by rw [hc1]; simp, le_rfl, rfl⟩
  · rw [if_neg hc]
    have h1 : m.samples.size ≠ 0 ∧ s.millis / m.millisPerBarrier ≤ m.lastBarrierIndex := by
      constructor
      · exact fun e => hc (Or.inl e)
      · exact not_lt.mp fun e => hc (Or.inr e)
    have hne : contents m.samples ≠ [] := by
      intro e
      have := length_contents m.samples
      rw [e] at this
      exact h1.1 this.symm
    have hl : l ≠ [] := by
      intro e
      have := h.sub
      rw [e] at this
      exact hne (List.sublist_nil.mp this)
    have hdiv : m.lastBarrierIndex = s.millis / m.millisPerBarrier := by
      apply le_antisymm _ h1.2
      have hl2 := h.last' _ (List.getLast?_eq_some_getLast hl)
      rw [hl2]
      exact Int.ediv_le_ediv hN (hle _ (List.getLast_mem hl))
    refine ⟨m, rfl, ⟨h.ring, ?_, h.sorted, fun _ => hne, h.last, ?_, ?_, ?_⟩, rfl, rfl⟩
    · exact h.sub.trans (List.sublist_append_left _ _)
    · intro a ha
      simp at ha
      subst ha
      exact hdiv
    · intro hsz
      rw [h.first hsz, List.head?_append]
      cases l with
      | nil => exact absurd rfl hl
      | cons _ _ => rfl
    · intro x hx hhead
      rcases List.mem_append.mp hx with hx | hx
      · exact h.dense x hx hhead
      · rw [List.mem_singleton] at hx
        subst hx
        exact ⟨_, List.getLast_mem hne, hle _ (h.sub.subset (List.getLast_mem hne)),
          (h.last _ (List.getLast?_eq_some_getLast hne)).symm.trans hdiv⟩

/-- If no two samples fall between the same barriers, the last ones are kept. -/
theorem addAll_all_kept {l0 : List Sample} {m : CurveMem} (h : RingOk m.samples) (hc : contents m.samples = lastN m.samples.capacity l0)
    (hl : ∀ s, l0.getLast? = some s → m.lastBarrierIndex = s.millis / m.millisPerBarrier) (l : List Sample)
    (hs : (l0 ++ l).Pairwise fun a b => a.millis / m.millisPerBarrier < b.millis / m.millisPerBarrier) (h0 : ∀ s ∈ l, 0 ≤ s.millis) :
    ∃ m', addAll m l = some m' ∧ contents m'.samples = lastN m.samples.capacity (l0 ++ l) := by
  induction l generalizing l0 m with
  | nil => exact ⟨m, rfl, by rw [List.append_nil, hc]⟩
  | cons s l ih =>
    have e : l0 ++ s :: l = (l0 ++ [s]) ++ l := by simp
    obtain ⟨r, h1, h2, h3, h4⟩ := pushBack_spec h s
    have hcond : m.samples.size = 0 ∨ m.lastBarrierIndex < s.millis / m.millisPerBarrier := by
      by_cases hn : l0 = []
      · left
        rw [← length_contents, hc, hn]; simp [lastN]
      · right
        rw [hl _ (List.getLast?_eq_some_getLast hn)]
        exact (List.pairwise_append.mp hs).2.2 _ (List.getLast_mem hn) s (by simp)
    have hadd : m.addValue s.value s.millis = some { m with samples := r, lastBarrierIndex := s.millis / m.millisPerBarrier } := by
      unfold CurveMem.addValue
      simp only
      rw [Int.tdiv_eq_ediv_of_nonneg (h0 s (by simp)), if_pos hcond, show (⟨s.value, s.millis⟩ : Sample) = s from rfl, h1]
      rfl
    obtain ⟨m', h5, h6⟩ := ih (l0 := l0 ++ [s]) (m := { m with samples := r, lastBarrierIndex := s.millis / m.millisPerBarrier }) h2
      (by
        simp only
        rw [h4, h3, lastN_append_singleton _ h.pos, ← hc, length_contents])
      (by
        intro a ha
        simp at ha
        subst ha
        rfl)
      (by rw [← e]; exact hs) (fun a ha => h0 a (List.mem_cons_of_mem _ ha))
    refine ⟨m', ?_, ?_⟩
    · unfold addAll
      rw [List.foldlM_cons, hadd]
      exact h5
    · rw [h6, e]
      simp only
      rw [h3]

theorem addAll_ok {l0 : List Sample} {m : CurveMem} (h : MemOk l0 m) (hN : 0 < m.millisPerBarrier) (l : List Sample) (ho : Ordered (l0 ++ l)) :
    ∃ m', addAll m l = some m' ∧ MemOk (l0 ++ l) m' ∧ m'.millisPerBarrier = m.millisPerBarrier ∧ m'.samples.capacity = m.samples.capacity := by
  induction l generalizing l0 m with
  | nil => exact ⟨m, rfl, by rw [List.append_nil]; exact h, rfl, rfl⟩
  | cons s l ih =>
    have e : l0 ++ s :: l = (l0 ++ [s]) ++ l := by simp
    rw [e] at ho ⊢
    have ho1 : Ordered (l0 ++ [s]) := ⟨(List.pairwise_append.mp ho.1).1, fun a ha => ho.2 a (List.mem_append_left _ ha)⟩
    obtain ⟨m1, h1, h2, h3, h4⟩ := addValue_ok h hN s ho1
    obtain ⟨m2, h5, h6, h7, h8⟩ := ih h2 (by rw [h3]; exact hN) ho
    refine ⟨m2, ?_, h6, h7.trans h3, h8.trans h4⟩
    unfold addAll
    rw [List.foldlM_cons, h1]
    exact h5

/-! ### Search -/

theorem lowerBoundLoop_spec (m : CurveMem) (t : ℤ) (hs : ∀ i j, i < j → j < m.samples.size → (m.samples.get i).millis < (m.samples.get j).millis) :
    ∀ (fuel i size : ℕ), size ≤ fuel → i + size ≤ m.samples.size → (∀ j, j < i → (m.samples.get j).millis < t) →
      (∀ j, i + size ≤ j → j < m.samples.size → t ≤ (m.samples.get j).millis) →
      let k := m.lowerBoundLoop t fuel i size
      k ≤ m.samples.size ∧ (∀ j, j < k → (m.samples.get j).millis < t) ∧ (∀ j, k ≤ j → j < m.samples.size → t ≤ (m.samples.get j).millis) := by
  intro fuel
  induction fuel with
  | zero =>
    intro i size h1 h2 h3 h4
    have : size = 0 := by omega
    subst this
    exact ⟨by simp only [CurveMem.lowerBoundLoop]; omega, h3, h4⟩
  | succ fuel ih =>
    intro i size h1 h2 h3 h4
    unfold CurveMem.lowerBoundLoop
    split
    · simp only
      split
      · rename_i h5 h6
        apply ih
        · omega
        · omega
        · intro j hj
          by_cases hj2 : j = i + size / 2
          · subst hj2; exact h6
          · exact lt_trans (hs j _ (by omega) (by omega)) h6
        · intro j hj1 hj2
          exact h4 j (by omega) hj2
      · rename_i h5 h6
        apply ih
        · omega
        · omega
        · exact h3
        · intro j hj1 hj2
          by_cases hj3 : j = i + size / 2
          · subst hj3; exact not_lt.mp h6
          · exact le_trans (not_lt.mp h6) (le_of_lt (hs _ j (by omega) hj2))
    · rename_i h5
      have : size = 0 := by omega
      subst this
      exact ⟨by omega, h3, h4⟩

theorem millis_lt {l : List Sample} {m : CurveMem} (h : MemOk l m) (hN : 0 < m.millisPerBarrier) :
    (contents m.samples).Pairwise fun a b => a.millis < b.millis := by
  refine h.sorted.imp ?_
  intro a b hab
  by_contra hc
  have := Int.ediv_le_ediv hN (not_lt.mp hc)
  omega

theorem along_exists {t1 t2 : ℤ} (h : t1 < t2) (a b : Vec2) (t : ℤ) :
    ∃ start velocity, along start velocity t1 = a ∧ along start velocity t2 = b ∧ along start velocity t = lerpA t1 a t2 b t := by
  have h1 : (t2 : ℝ) - t1 ≠ 0 := by
    have : (t1 : ℝ) < t2 := by exact_mod_cast h
    linarith
  refine ⟨⟨a.x - t1 * ((b.x - a.x) / (t2 - t1)), a.y - t1 * ((b.y - a.y) / (t2 - t1))⟩, ⟨(b.x - a.x) / (t2 - t1), (b.y - a.y) / (t2 - t1)⟩, ?_, ?_, ?_⟩
  · ext <;> · simp only [along]; ring
  · ext <;> · simp only [along]; field_simp; ring
  · ext <;> · simp only [along, lerpA]; field_simp; ring

/-- Values are found by interpolation. -/
theorem getValue_spec {l : List Sample} {m : CurveMem} (h : MemOk l m) (hN : 0 < m.millisPerBarrier) (t : ℤ)
    (ht : ∃ s ∈ contents m.samples, t ≤ s.millis) : Interpolates (contents m.samples) t (m.getValue t) := by
  have hlt := millis_lt h hN
  have hs : ∀ i j, i < j → j < m.samples.size → (m.samples.get i).millis < (m.samples.get j).millis := by
    intro i j h1 h2
    have hl := length_contents m.samples
    have := List.pairwise_iff_getElem.mp hlt i j (by omega) (by omega) h1
    rwa [getElem_contents, getElem_contents] at this
  obtain ⟨h1, h2, h3⟩ := lowerBoundLoop_spec m t hs m.samples.size 0 m.samples.size le_rfl (by omega) (fun j hj => by omega)
    (fun j hj1 hj2 => by omega)
  unfold CurveMem.getValue CurveMem.lowerBound
  generalize m.lowerBoundLoop t m.samples.size 0 m.samples.size = k at *
  have hk : k ≠ m.samples.size := by
    obtain ⟨s, hs1, hs2⟩ := ht
    obtain ⟨i, hi, rfl⟩ := List.getElem_of_mem hs1
    rw [getElem_contents] at hs2
    rw [length_contents] at hi
    intro e
    have := h2 i (by omega)
    omega
  have hk2 : k < m.samples.size := by omega
  have hl := length_contents m.samples
  have hkt := h3 k le_rfl hk2
  have hmem : m.samples.get k ∈ contents m.samples := by
    rw [← getElem_contents m.samples k (by omega)]; exact List.getElem_mem _
  simp only
  rw [if_neg hk]
  split
  · rename_i hc
    by_cases hc2 : (m.samples.get k).millis = t
    · exact Or.inl ⟨_, hmem, hc2, rfl⟩
    · have hk0 : k = 0 := by rcases hc with hc | hc; · exact absurd hc hc2
                             · exact hc
      subst hk0
      refine Or.inr (Or.inl ⟨_, ?_, lt_of_le_of_ne hkt (Ne.symm hc2), rfl⟩)
      rw [List.head?_eq_getElem?, List.getElem?_eq_getElem (by omega), getElem_contents]
  · rename_i hc
    have hc1 : (m.samples.get k).millis ≠ t := fun e => hc (Or.inl e)
    have hc2 : k ≠ 0 := fun e => hc (Or.inr e)
    right; right
    have hat := h2 (k - 1) (by omega)
    refine ⟨(contents m.samples).take (k - 1), m.samples.get (k - 1), m.samples.get k, (contents m.samples).drop (k + 1), ?_, hat,
      lt_of_le_of_ne hkt (Ne.symm hc1), ?_⟩
    · have e1 : contents m.samples = (contents m.samples).take (k - 1) ++ (contents m.samples).drop (k - 1) := (List.take_append_drop _ _).symm
      have e2 : (contents m.samples).drop (k - 1) = m.samples.get (k - 1) :: (contents m.samples).drop k := by
        rw [List.drop_eq_getElem_cons (by omega), getElem_contents]
        congr 2; omega
      have e3 : (contents m.samples).drop k = m.samples.get k :: (contents m.samples).drop (k + 1) := by
        rw [List.drop_eq_getElem_cons (by omega), getElem_contents]
      rw [← e3, ← e2]; exact e1
    · exact along_exists (lt_of_lt_of_le hat hkt) _ _ _

/-- Interpolation is exact if the velocity is constant. -/
theorem interpolates_along {c : List Sample} {t : ℤ} {v start velocity : Vec2} (h : Interpolates c t v)
    (hc : ∀ s ∈ c, s.value = along start velocity s.millis) (ht : ∀ s, c.head? = some s → s.millis ≤ t) : v = along start velocity t := by
  rcases h with ⟨s, h1, h2, h3⟩ | ⟨s, h1, h2, h3⟩ | ⟨pre, a, b, post, h1, h2, h3, st, ve, h4, h5, h6⟩
  · rw [h3, hc s h1, h2]
  · exact absurd (ht s h1) (by omega)
  · have ha := hc a (by rw [h1]; simp)
    have hb := hc b (by rw [h1]; simp)
    rw [ha] at h4
    rw [hb] at h5
    have hab : (a.millis : ℝ) < b.millis := by exact_mod_cast lt_trans h2 h3
    have h7 : (b.millis : ℝ) - a.millis ≠ 0 := by linarith
    simp only [along, Vec2.mk.injEq] at h4 h5
    have hx : ve.x = velocity.x := by
      have : ((b.millis : ℝ) - a.millis) * ve.x = (b.millis - a.millis) * velocity.x := by linarith [h4.1, h5.1]
      exact mul_left_cancel₀ h7 this
    have hy : ve.y = velocity.y := by
      have : ((b.millis : ℝ) - a.millis) * ve.y = (b.millis - a.millis) * velocity.y := by linarith [h4.2, h5.2]
      exact mul_left_cancel₀ h7 this
    rw [← h6]
    ext
    · simp only [along]
      have := h4.1
      rw [hx] at this ⊢
      linarith
    · simp only [along]
      have := h4.2
      rw [hy] at this ⊢
      linarith

/-- The index of the barrier of the oldest sample when memory is full. -/
theorem barrier_first {l : List Sample} {m : CurveMem} (h : MemOk l m) (i : ℕ) (hi : i < m.samples.size) :
    (m.samples.get 0).millis / m.millisPerBarrier + i ≤ (m.samples.get i).millis / m.millisPerBarrier := by
  have hl := length_contents m.samples
  induction i with
  | zero => simp
  | succ i ih =>
    have h1 := ih (by omega)
    have := List.pairwise_iff_getElem.mp h.sorted i (i + 1) (by omega) (by omega) (by omega)
    rw [getElem_contents, getElem_contents] at this
    push_cast
    omega

end Verif.Trackball
