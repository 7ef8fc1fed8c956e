import Verif.FlatMap.Model
import Verif.FlatMap.Spec

namespace Verif.FlatMap
open Spec (SWO eqv)

variable {K V : Type}

theorem searchLoop_spec (p : K × V → Bool) (es : List (K × V))
    (mono : ∀ i j (hi : i < es.length) (hj : j < es.length), i ≤ j → p es[j] = true → p es[i] = true)
    (fuel b e : Nat) (hbe : b ≤ e) (he : e ≤ es.length) (hf : e - b < fuel)
    (hl : ∀ i (hi : i < es.length), i < b → p es[i] = true)
    (hr : ∀ i (hi : i < es.length), e ≤ i → p es[i] = false) :
    ∃ k, searchLoop p es fuel b e = some k ∧ b ≤ k ∧ k ≤ e ∧
      (∀ i (hi : i < es.length), i < k → p es[i] = true) ∧
      (∀ i (hi : i < es.length), k ≤ i → p es[i] = false) := by
  induction fuel generalizing b e with
  | zero => omega
  | succ fuel ih =>
    unfold searchLoop
    by_cases h : b = e
    · subst h
      exact ⟨b, by simp, Nat.le_refl _, Nat.le_refl _, hl, hr⟩
    · have hmid : b + (e - b) / 2 < es.length := by omega
      simp only [ne_eq, h, not_false_eq_true, if_true, List.getElem?_eq_getElem hmid]
      by_cases hp : p es[b + (e - b) / 2] = true
      · rw [if_pos hp]
        obtain ⟨k, h1, h2, h3, h4, h5⟩ := ih (b + (e - b) / 2 + 1) e (by omega) he (by omega)
          (fun i hi hlt => mono i _ hi hmid (by omega) hp) hr
        exact ⟨k, h1, by omega, h3, h4, h5⟩
      · rw [if_neg hp]
        have hp' : p es[b + (e - b) / 2] = false := by simpa using hp
        obtain ⟨k, h1, h2, h3, h4, h5⟩ := ih b (b + (e - b) / 2) (by omega) (by omega) (by omega) hl
          (fun i hi hle => by
            cases hpi : p es[i] with
            | false => rfl
            | true => rw [mono _ i hmid hi hle hpi] at hp'; simp at hp')
        exact ⟨k, h1, h2, by omega, h4, h5⟩

theorem mono_of_pairwise (p : K × V → Bool) (es : List (K × V))
    (h : es.Pairwise (fun a b => p b = true → p a = true)) :
    ∀ i j (hi : i < es.length) (hj : j < es.length), i ≤ j → p es[j] = true → p es[i] = true := by
  intro i j hi hj hij
  rcases Nat.lt_or_eq_of_le hij with hlt | heq
  · exact List.pairwise_iff_getElem.mp h i j hi hj hlt
  · subst heq; exact id

/-- Binary search from `i`: the list splits at the result. -/
theorem search_spec (p : K × V → Bool) (es : List (K × V))
    (h : es.Pairwise (fun a b => p b = true → p a = true)) (i : Nat) (hi : i ≤ es.length)
    (hl : ∀ x ∈ es.take i, p x = true) :
    ∃ k, searchLoop p es (es.length + 1) i es.length = some k ∧ i ≤ k ∧ k ≤ es.length ∧
      (∀ x ∈ es.take k, p x = true) ∧ (∀ x ∈ es.drop k, p x = false) := by
  obtain ⟨k, h1, h2, h3, h4, h5⟩ := searchLoop_spec p es (mono_of_pairwise p es h) (es.length + 1) i es.length
    hi (Nat.le_refl _) (by omega)
    (fun j hj hji => hl _ (by
      rw [List.mem_take_iff_getElem]
      exact ⟨j, by omega, rfl⟩)) (fun j hj hle => by omega)
  refine ⟨k, h1, h2, h3, ?_, ?_⟩
  · intro x hx
    rw [List.mem_take_iff_getElem] at hx
    obtain ⟨j, hj, rfl⟩ := hx
    exact h4 j (by omega) (by omega)
  · intro x hx
    rw [List.mem_drop_iff_getElem] at hx
    obtain ⟨j, hj, rfl⟩ := hx
    exact h5 _ (by omega) (by omega)

theorem Spec.SWO.asymm {lt : K → K → Bool} (w : SWO lt) {a b : K} (h : lt a b = true) : lt b a = false := by
  cases hb : lt b a with
  | false => rfl
  | true => have := w.trans a b a h hb; rw [w.irrefl] at this; simp at this

/-- `a < b` and `b` not greater than `c` give `a < c`. -/
theorem Spec.SWO.lt_of_lt_of_le {lt : K → K → Bool} (w : SWO lt) {a b c : K} (h1 : lt a b = true)
    (h2 : lt c b = false) : lt a c = true := by
  cases hbc : lt b c with
  | true => exact w.trans a b c h1 hbc
  | false =>
    cases hac : lt a c with
    | true => rfl
    | false =>
      cases hca : lt c a with
      | true => have := w.trans c a b hca h1; rw [h2] at this; simp at this
      | false => have := w.incomp a c b hac hca h2 hbc; rw [h1] at this; simp at this

theorem Spec.SWO.lt_of_le_of_lt {lt : K → K → Bool} (w : SWO lt) {a b c : K} (h1 : lt b a = false)
    (h2 : lt b c = true) : lt a c = true := by
  cases hab : lt a b with
  | true => exact w.trans a b c hab h2
  | false =>
    cases hac : lt a c with
    | true => rfl
    | false =>
      cases hca : lt c a with
      | true => have := w.trans b c a h2 hca; rw [h1] at this; simp at this
      | false => have := w.incomp b a c h1 hab hac hca; rw [h2] at this; simp at this

theorem Spec.SWO.le_trans {lt : K → K → Bool} (w : SWO lt) {a b c : K} (h1 : lt b a = false)
    (h2 : lt c b = false) : lt c a = false := by
  cases hca : lt c a with
  | false => rfl
  | true => have := w.lt_of_lt_of_le hca h1; rw [h2] at this; simp at this

/-- Sorted, not necessarily strictly. -/
def Sorted (lt : K → K → Bool) (es : List (K × V)) : Prop := es.Pairwise (fun a b => lt b.1 a.1 = false)

/-- Strictly sorted. -/
def StrictSorted (lt : K → K → Bool) (es : List (K × V)) : Prop := es.Pairwise (fun a b => lt a.1 b.1 = true)

theorem StrictSorted.sorted {lt : K → K → Bool} (w : SWO lt) {es : List (K × V)} (h : StrictSorted lt es) :
    Sorted lt es := by
  unfold StrictSorted at h
  exact h.imp (fun h => w.asymm h)

theorem lowerBound_spec {lt : K → K → Bool} (w : SWO lt) (es : List (K × V)) (hs : Sorted lt es) (key : K) :
    ∃ k, lowerBound lt es key = some k ∧ k ≤ es.length ∧
      (∀ x ∈ es.take k, lt x.1 key = true) ∧ (∀ x ∈ es.drop k, lt x.1 key = false) := by
  obtain ⟨k, h1, _, h2, h3, h4⟩ := search_spec (fun x => lt x.1 key) es
    (hs.imp (fun {a b} h hb => w.lt_of_le_of_lt h hb)) 0 (Nat.zero_le _) (by simp)
  exact ⟨k, h1, h2, h3, h4⟩

theorem doUpperBound_spec {lt : K → K → Bool} (w : SWO lt) (es : List (K × V)) (hs : Sorted lt es) (key : K)
    (i : Nat) (hi : i ≤ es.length) (hl : ∀ x ∈ es.take i, lt key x.1 = false) :
    ∃ k, doUpperBound lt es key i = some k ∧ i ≤ k ∧ k ≤ es.length ∧
      (∀ x ∈ es.take k, lt key x.1 = false) ∧ (∀ x ∈ es.drop k, lt key x.1 = true) := by
  obtain ⟨k, h1, h2, h3, h4, h5⟩ := search_spec (fun x => !lt key x.1) es
    (hs.imp (fun {a b} h hb => by
      simp only [Bool.not_eq_eq_eq_not, Bool.not_true] at hb ⊢
      exact w.le_trans h hb)) i hi (fun x hx => by simpa using hl x hx)
  exact ⟨k, h1, h2, h3, fun x hx => by simpa using h4 x hx, fun x hx => by simpa using h5 x hx⟩

theorem equalRange_spec {lt : K → K → Bool} (w : SWO lt) (es : List (K × V)) (hs : Sorted lt es) (key : K) :
    ∃ b e, equalRange lt es key = some (b, e) ∧ b ≤ e ∧ e ≤ es.length ∧
      (∀ x ∈ es.take b, lt x.1 key = true) ∧ (∀ x ∈ (es.take e).drop b, eqv lt x.1 key = true) ∧
      (∀ x ∈ es.drop e, lt key x.1 = true) := by
  obtain ⟨b, h1, h2, h3, h4⟩ := lowerBound_spec w es hs key
  obtain ⟨e, i1, i2, i3, i4, i5⟩ := doUpperBound_spec w es hs key b h2 (fun x hx => w.asymm (h3 x hx))
  refine ⟨b, e, by simp [equalRange, h1, i1], i2, i3, h3, ?_, i5⟩
  intro x hx
  have hx1 := i4 x (List.mem_of_mem_drop hx)
  rw [List.drop_take] at hx
  have hx2 := h4 x (List.mem_of_mem_take hx)
  simp [eqv, hx1, hx2]

/-- The three parts of a sorted list as filters. -/
theorem parts {lt : K → K → Bool} (es : List (K × V)) (key : K) (b e : Nat) (hbe : b ≤ e)
    (h1 : ∀ x ∈ es.take b, lt x.1 key = true) (h2 : ∀ x ∈ (es.take e).drop b, eqv lt x.1 key = true)
    (h3 : ∀ x ∈ es.drop e, lt key x.1 = true) :
    (es.take e).drop b = Spec.entries lt es key ∧ es.take b ++ es.drop e = Spec.erase lt es key := by
  have hes : es = es.take b ++ ((es.take e).drop b ++ es.drop e) := by
    have : es.take b = (es.take e).take b := by rw [List.take_take, Nat.min_eq_left hbe]
    rw [this, ← List.append_assoc, List.take_append_drop, List.take_append_drop]
  have f1 : ∀ x ∈ es.take b, eqv lt x.1 key = false := fun x hx => by simp [eqv, h1 x hx]
  have f3 : ∀ x ∈ es.drop e, eqv lt x.1 key = false := fun x hx => by simp [eqv, h3 x hx]
  have g1 : (es.take b).filter (fun x => eqv lt x.1 key) = [] := by
    rw [List.filter_eq_nil_iff]; intro x hx; simp [f1 x hx]
  have g3 : (es.drop e).filter (fun x => eqv lt x.1 key) = [] := by
    rw [List.filter_eq_nil_iff]; intro x hx; simp [f3 x hx]
  have g2 : ((es.take e).drop b).filter (fun x => eqv lt x.1 key) = (es.take e).drop b := by
    rw [List.filter_eq_self]; exact h2
  have k1 : (es.take b).filter (fun x => !eqv lt x.1 key) = es.take b := by
    rw [List.filter_eq_self]; intro x hx; simp [f1 x hx]
  have k3 : (es.drop e).filter (fun x => !eqv lt x.1 key) = es.drop e := by
    rw [List.filter_eq_self]; intro x hx; simp [f3 x hx]
  have k2 : ((es.take e).drop b).filter (fun x => !eqv lt x.1 key) = [] := by
    rw [List.filter_eq_nil_iff]; intro x hx; simp [h2 x hx]
  constructor
  · unfold Spec.entries
    conv => rhs; rw [hes]
    rw [List.filter_append, List.filter_append, g1, g2, g3]; simp
  · unfold Spec.erase
    conv => rhs; rw [hes]
    rw [List.filter_append, List.filter_append, k1, k2, k3]; simp

theorem eqv_symm (lt : K → K → Bool) (a b : K) : eqv lt a b = eqv lt b a := by
  simp [eqv, Bool.and_comm]

/-- Pairs with pairwise inequivalent keys. -/
def Distinct (lt : K → K → Bool) (m : List (K × V)) : Prop := m.Pairwise (fun a b => eqv lt a.1 b.1 = false)

theorem StrictSorted.distinct {lt : K → K → Bool} {es : List (K × V)} (h : StrictSorted lt es) :
    Distinct lt es := by
  unfold StrictSorted at h
  exact h.imp (fun h => by simp [eqv, h])

theorem Distinct.perm {lt : K → K → Bool} {m es : List (K × V)} (h : Distinct lt es) (hp : es.Perm m) :
    Distinct lt m :=
  List.Pairwise.perm h hp (fun {a b} h => by rw [eqv_symm]; exact h)

theorem eqv_trans {lt : K → K → Bool} (w : SWO lt) {a b c : K} (h1 : eqv lt a b = true) (h2 : eqv lt b c = true) :
    eqv lt a c = true := by
  simp only [eqv, Bool.and_eq_true, Bool.not_eq_eq_eq_not, Bool.not_true] at *
  exact w.incomp a b c h1.1 h1.2 h2.1 h2.2

/-- In a distinct list at most one entry matches. -/
theorem entries_le_one {lt : K → K → Bool} (w : SWO lt) {m : List (K × V)} (h : Distinct lt m) (key : K) :
    Spec.entries lt m key = [] ∨ ∃ x, Spec.entries lt m key = [x] := by
  have hd : (Spec.entries lt m key).Pairwise (fun a b => eqv lt a.1 b.1 = false) :=
    List.Pairwise.sublist List.filter_sublist h
  have hm : ∀ x ∈ Spec.entries lt m key, eqv lt x.1 key = true := by
    intro x hx; exact (List.mem_filter.mp hx).2
  match hE : Spec.entries lt m key, hd, hm with
  | [], _, _ => exact .inl rfl
  | [x], _, _ => exact .inr ⟨x, rfl⟩
  | x :: y :: t, hd, hm =>
    exfalso
    have h1 := hm x (by simp)
    have h2 := hm y (by simp)
    have h3 : eqv lt x.1 y.1 = false := (List.pairwise_cons.mp hd).1 y (by simp)
    rw [eqv_symm] at h2
    rw [eqv_trans w h1 h2] at h3
    simp at h3

theorem lookup_entries (lt : K → K → Bool) (m : List (K × V)) (key : K) :
    Spec.lookup lt m key = ((Spec.entries lt m key).head?).map (·.2) := by
  unfold Spec.lookup Spec.entries
  rw [List.head?_filter]

theorem entries_perm {lt : K → K → Bool} (w : SWO lt) {m es : List (K × V)} (h : Distinct lt es) (hp : es.Perm m) (key : K) :
    Spec.entries lt es key = Spec.entries lt m key := by
  have hf : (Spec.entries lt es key).Perm (Spec.entries lt m key) := hp.filter _
  rcases entries_le_one w h key with h1 | ⟨x, h1⟩
  · rw [h1] at hf ⊢; exact (List.nil_perm.mp hf).symm
  · rw [h1] at hf ⊢; exact List.singleton_perm.mp hf

theorem lookup_perm {lt : K → K → Bool} (w : SWO lt) {m es : List (K × V)} (h : Distinct lt es) (hp : es.Perm m) (key : K) :
    Spec.lookup lt es key = Spec.lookup lt m key := by
  rw [lookup_entries, lookup_entries, entries_perm w h hp]

/-- Result of `do_find()` on a strictly sorted list. -/
theorem doFind_spec {lt : K → K → Bool} (w : SWO lt) (es : List (K × V)) (hs : StrictSorted lt es) (key : K) :
    ∃ i, i ≤ es.length ∧ (∀ x ∈ es.take i, lt x.1 key = true) ∧
      ((doFind lt es key = some (false, i) ∧ (∀ x ∈ es.drop i, lt key x.1 = true)) ∨
       (doFind lt es key = some (true, i) ∧ ∃ x t, es.drop i = x :: t ∧ es[i]? = some x ∧ eqv lt x.1 key = true ∧
          ∀ y ∈ t, lt key y.1 = true)) := by
  obtain ⟨i, h1, h2, h3, h4⟩ := lowerBound_spec w es (hs.sorted w) key
  refine ⟨i, h2, h3, ?_⟩
  unfold doFind
  simp only [h1, Option.bind_eq_bind, Option.bind_some]
  by_cases hi : i < es.length
  · rw [if_pos hi, List.getElem?_eq_getElem hi]
    simp only [Option.bind_some]
    have hd : es.drop i = es[i] :: es.drop (i + 1) := List.drop_eq_getElem_cons hi
    have hp : StrictSorted lt (es.drop i) := List.Pairwise.sublist (List.drop_sublist _ _) hs
    rw [hd] at hp h4 ⊢
    have htail := (List.pairwise_cons.mp hp).1
    cases hk : lt key es[i].1 with
    | true =>
      left
      refine ⟨rfl, ?_⟩
      intro x hx
      rcases List.mem_cons.mp hx with rfl | hx
      · exact hk
      · exact w.trans _ _ _ hk (htail x hx)
    | false =>
      right
      have hki := h4 es[i] List.mem_cons_self
      refine ⟨rfl, es[i], es.drop (i + 1), rfl, rfl, by simp [eqv, hk, hki], ?_⟩
      intro y hy
      exact w.lt_of_le_of_lt hki (htail y hy)
  · rw [if_neg hi]
    left
    refine ⟨rfl, ?_⟩
    have : es.drop i = [] := by simp; omega
    simp [this]

end Verif.FlatMap
