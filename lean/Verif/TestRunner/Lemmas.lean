import Verif.TestRunner.Spec
import Mathlib.Algebra.BigOperators.Group.List.Basic
import Mathlib.Data.List.Nodup
import Mathlib.Data.List.Perm.Basic
import Mathlib.Data.List.Perm.Subperm

/-!
# Invariants of test runs
-/

namespace Verif.TestRunner

/-! ## What happened -/

theorem begins_append (a b : List Ev) : begins (a ++ b) = begins a ++ begins b := by
  simp [begins]

theorem ends_append (a b : List Ev) : ends (a ++ b) = ends a ++ ends b := by
  simp [ends]

theorem mem_running (tr : List Ev) (p : Nat × Exec) :
    p ∈ running tr ↔ p ∈ begins tr ∧ p ∉ ends tr := by
  simp [running]

theorem failed_append (a b : List Ev) (e : Exec) : failed (a ++ b) e = (failed a e || failed b e) := by
  simp [failed]

theorem set_thr (s : St) (i j : Nat) (t : Thr) :
    (s.set i t).thr j = if j = i then t else s.thr j := rfl

@[simp] theorem set_thr_self (s : St) (i : Nat) (t : Thr) : (s.set i t).thr i = t := by
  simp [set_thr]

theorem set_thr_ne (s : St) {i j : Nat} (t : Thr) (h : j ≠ i) : (s.set i t).thr j = s.thr j := by
  simp [set_thr, h]

/-! ## Counting -/

/-- What an event contributes to the counters, given everything that happens. -/
def weight (tr : List Ev) : Ev → Counters
  | .checkOk _ _ => (1, 0, 0)
  | .checkFail _ _ _ _ _ => (1, 1, 0)
  | .testEnd _ e => if failed tr e then (0, 0, 1) else (0, 0, 0)
  | _ => (0, 0, 0)

/-- Sum of the contributions of the selected events. -/
def total (tr : List Ev) (p : Ev → Bool) : Counters := ((tr.filter p).map (weight tr)).sum

theorem weight_congr {tr tr' : List Ev} {ev : Ev}
    (h : ∀ i e, ev = .testEnd i e → failed tr e = failed tr' e) : weight tr ev = weight tr' ev := by
  cases ev <;> simp only [weight]
  rename_i i e
  rw [h i e rfl]

theorem total_append {tr evs : List Ev} {p : Ev → Bool}
    (h : ∀ i e, .testEnd i e ∈ tr → failed evs e = false) :
    total (tr ++ evs) p = total tr p + ((evs.filter p).map (weight (tr ++ evs))).sum := by
  unfold total
  rw [List.filter_append, List.map_append, List.sum_append]
  congr 2
  apply List.map_congr_left
  intro ev hev
  apply weight_congr
  intro i e he
  subst he
  rw [failed_append, h i e (List.mem_of_mem_filter hev), Bool.or_false]

theorem total_congr {tr : List Ev} {p q : Ev → Bool}
    (h : ∀ ev ∈ tr, weight tr ev ≠ (0, 0, 0) → p ev = q ev) : total tr p = total tr q := by
  unfold total
  generalize hw : weight tr = w at h
  clear hw
  induction tr with
  | nil => rfl
  | cons x xs ih =>
    have ih' := ih (fun ev hev => h ev (List.mem_cons_of_mem _ hev))
    have hx := h x List.mem_cons_self
    by_cases h0 : w x = (0, 0, 0)
    · have h0' : w x = 0 := h0
      by_cases hp : p x <;> by_cases hq : q x <;>
        simp [hp, hq, h0', ih']
    · have := hx h0
      by_cases hp : p x
      · have hq : q x = true := by rw [← this, hp]
        simp [hp, hq, ih']
      · have hq : ¬ q x = true := by rw [← this]; exact hp
        simp [hp, hq, ih']

theorem total_split {tr : List Ev} {p q r : Ev → Bool}
    (h : ∀ ev ∈ tr, weight tr ev ≠ (0, 0, 0) →
      (p ev = (q ev || r ev) ∧ ¬ (q ev = true ∧ r ev = true))) :
    total tr p = total tr q + total tr r := by
  unfold total
  generalize hw : weight tr = w at h
  clear hw
  induction tr with
  | nil => rfl
  | cons x xs ih =>
    have ih' := ih (fun ev hev => h ev (List.mem_cons_of_mem _ hev))
    have hx := h x List.mem_cons_self
    by_cases h0 : w x = (0, 0, 0)
    · have h0' : w x = 0 := h0
      by_cases hp : p x <;> by_cases hq : q x <;> by_cases hr : r x <;>
        simp [hp, hq, hr, h0', ih']
    · obtain ⟨h1, h2⟩ := hx h0
      by_cases hq : q x <;> by_cases hr : r x
      · exact absurd ⟨hq, hr⟩ h2
      · have hp : p x = true := by rw [h1, hq]; rfl
        simp [hp, hq, hr, ih', add_assoc]
      · have hp : p x = true := by rw [h1, hr]; simp
        simp [hp, hq, hr, ih', add_left_comm]
      · have hp : ¬ p x = true := by rw [h1]; simp [hq, hr]
        simp [hp, hq, hr, ih']

theorem total_none {tr : List Ev} {p : Ev → Bool}
    (h : ∀ ev ∈ tr, weight tr ev ≠ (0, 0, 0) → p ev = false) : total tr p = (0, 0, 0) := by
  rw [total_congr (q := fun _ => false) (fun ev hev h0 => h ev hev h0)]
  simp [total]
  rfl

end Verif.TestRunner
