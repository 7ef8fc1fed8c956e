import Verif.FrozenSets.Spec
import Verif.Buffer.Lemmas
import Mathlib.Data.List.Sort
import Mathlib.Data.List.Perm.Subperm
import Mathlib.Data.Nat.Basic
/-!
Property C35: /repo/src/archon/core/frozen_sets.hpp.
-/
namespace Verif.FrozenSets
open Spec
open Verif.Buffer (Err Res bind_ok bind_err)
variable {T : Type} [LinearOrder T]

theorem mem_insertSorted {x y : T} {ys : List T} : y ∈ insertSorted x ys ↔ y = x ∨ y ∈ ys := by
  induction ys with
  | nil => simp [insertSorted]
  | cons z zs ih => rw [insertSorted]; split_ifs <;> simp [ih]; tauto

theorem mem_sort {y : T} {xs : List T} : y ∈ sort xs ↔ y ∈ xs := by
  induction xs with
  | nil => simp [sort]
  | cons x xs ih => rw [sort, mem_insertSorted, ih]; simp

theorem insertSorted_le {x : T} {ys : List T} (h : ys.Pairwise (· ≤ ·)) : (insertSorted x ys).Pairwise (· ≤ ·) := by
  induction ys with
  | nil => simp [insertSorted]
  | cons z zs ih =>
    rw [insertSorted]
    rw [List.pairwise_cons] at h
    split_ifs with hz
    · rw [List.pairwise_cons]
      refine ⟨fun w hw => ?_, ih h.2⟩
      rcases mem_insertSorted.1 hw with rfl | hw
      · exact hz.le
      · exact h.1 w hw
    · rw [List.pairwise_cons, List.pairwise_cons]
      refine ⟨fun w hw => ?_, h⟩
      rcases List.mem_cons.1 hw with rfl | hw
      · exact not_lt.1 hz
      · exact (not_lt.1 hz).trans (h.1 w hw)

theorem sort_le (xs : List T) : (sort xs).Pairwise (· ≤ ·) := by
  induction xs with
  | nil => simp [sort]
  | cons x xs ih => exact insertSorted_le ih

theorem unique_go {x : T} {ys : List T} (h : (x :: ys).Pairwise (· ≤ ·)) :
    (x :: unique.go x ys).Pairwise (· < ·) ∧ ∀ z, z ∈ x :: unique.go x ys ↔ z ∈ x :: ys := by
  induction ys generalizing x with
  | nil => simp [unique.go]
  | cons y ys ih =>
    rw [unique.go]
    have hxy : x ≤ y := (List.pairwise_cons.1 h).1 y (by simp)
    split_ifs with hc
    · have : x = y := le_antisymm hxy (not_lt.1 hc.1)
      subst this
      obtain ⟨h1, h2⟩ := ih (List.pairwise_cons.1 h).2
      exact ⟨h1, fun z => by rw [h2]; simp⟩
    · obtain ⟨h1, h2⟩ := ih (List.pairwise_cons.1 h).2
      have hlt : x < y := by
        refine lt_of_le_of_ne hxy fun e => hc ?_
        subst e; exact ⟨lt_irrefl _, lt_irrefl _⟩
      refine ⟨?_, fun z => by rw [List.mem_cons, h2 z, List.mem_cons (l := y :: ys)]⟩
      rw [List.pairwise_cons]
      refine ⟨fun z hz => ?_, h1⟩
      rcases List.mem_cons.1 hz with rfl | hz
      · exact hlt
      · exact hlt.trans ((List.pairwise_cons.1 h1).1 z hz)

theorem lists_unique_sort (xs : List T) : Lists (· ∈ xs) (unique (sort xs)) := by
  have h := sort_le xs
  have hm := fun y => mem_sort (y := y) (xs := xs)
  generalize sort xs = ys at *
  rcases ys with _ | ⟨y, ys⟩
  · exact ⟨.nil, hm⟩
  · obtain ⟨h1, h2⟩ := unique_go h
    exact ⟨h1, fun x => (h2 x).trans (hm x)⟩

theorem Spec.Lists.unique {P : T → Prop} {c c' : List T} (h : Lists P c) (h' : Lists P c') : c = c' := by
  refine List.Perm.eq_of_pairwise (le := (· < ·)) (fun a b _ _ h1 h2 => absurd (h1.trans h2) (lt_irrefl _)) h.1 h'.1 ?_
  refine (List.perm_ext_iff_of_nodup ?_ ?_).2 fun x => by rw [h.2, h'.2]
  · exact h.1.imp fun h => h.ne
  · exact h'.1.imp fun h => h.ne

theorem setUnion_lists {xs ys : List T} (hx : xs.Pairwise (· < ·)) (hy : ys.Pairwise (· < ·)) :
    Lists (fun z => z ∈ xs ∨ z ∈ ys) (setUnion xs ys) := by
  induction xs generalizing ys with
  | nil => exact ⟨by simpa [setUnion] using hy, fun z => by simp [setUnion]⟩
  | cons x xs ihx =>
    rw [setUnion]
    induction ys with
    | nil => exact ⟨by simpa [setUnion.go] using hx, fun z => by simp [setUnion.go]⟩
    | cons y ys ihy =>
      rw [setUnion.go]
      have hx' := List.pairwise_cons.1 hx
      have hy' := List.pairwise_cons.1 hy
      split_ifs with h1 h2
      · obtain ⟨a, b⟩ := ihy hy'.2
        refine ⟨List.pairwise_cons.2 ⟨fun z hz => ?_, a⟩, fun z => ?_⟩
        · rcases (b z).1 hz with hz | hz
          · rcases List.mem_cons.1 hz with rfl | hz
            · exact h1
            · exact h1.trans (hx'.1 z hz)
          · exact hy'.1 z hz
        · rw [List.mem_cons, b]; simp only [List.mem_cons]; tauto
      · obtain ⟨a, b⟩ := ihx hx'.2 hy
        refine ⟨List.pairwise_cons.2 ⟨fun z hz => ?_, a⟩, fun z => ?_⟩
        · rcases (b z).1 hz with hz | hz
          · exact hx'.1 z hz
          · rcases List.mem_cons.1 hz with rfl | hz
            · exact h2
            · exact h2.trans (hy'.1 z hz)
        · rw [List.mem_cons, b]; simp only [List.mem_cons]; tauto
      · have e : x = y := le_antisymm (not_lt.1 h1) (not_lt.1 h2)
        subst e
        obtain ⟨a, b⟩ := ihx hx'.2 hy'.2
        refine ⟨List.pairwise_cons.2 ⟨fun z hz => ?_, a⟩, fun z => ?_⟩
        · rcases (b z).1 hz with hz | hz
          · exact hx'.1 z hz
          · exact hy'.1 z hz
        · rw [List.mem_cons, b]; simp only [List.mem_cons]; tauto

/-- A strictly increasing list that includes another one of the same size is equal to it. -/
theorem Spec.Lists.eq_of_length {a b c : List T} (hc : Lists (fun z => z ∈ a ∨ z ∈ b) c) (ha : a.Pairwise (· < ·))
    (hl : c.length ≤ a.length) : c = a := by
  have hn : a.Nodup := ha.imp fun h => h.ne
  have hs : a ⊆ c := fun x hx => (hc.2 x).2 (.inl hx)
  have hp : a.Perm c := (List.subperm_of_subset hn hs).perm_of_length_le hl
  exact (List.Perm.eq_of_pairwise (le := (· < ·)) (fun a b _ _ h1 h2 => absurd (h1.trans h2) (lt_irrefl _)) ha hc.1 hp).symm

theorem Spec.Lists.length_le {a b c : List T} (hc : Lists (fun z => z ∈ a ∨ z ∈ b) c) (ha : a.Pairwise (· < ·)) :
    a.length ≤ c.length := by
  have hn : a.Nodup := ha.imp fun h => h.ne
  have hs : a ⊆ c := fun x hx => (hc.2 x).2 (.inl hx)
  exact (List.subperm_of_subset hn hs).length_le

theorem Spec.Lists.symm {a b c : List T} (hc : Lists (fun z => z ∈ a ∨ z ∈ b) c) : Lists (fun z => z ∈ b ∨ z ∈ a) c :=
  ⟨hc.1, fun x => by rw [hc.2]; tauto⟩

section
omit [LinearOrder T]
/-- `i` refers to `c`. -/
def At (es : List T) (i : Ident) (c : List T) : Prop :=
  i.b ≤ i.e ∧ i.e ≤ es.length ∧ (es.take i.e).drop i.b = c

theorem At.get {es : List T} {i : Ident} {c : List T} (h : At es i c) : get es i = .ok c := by
  rw [FrozenSets.get, if_pos ⟨h.1, h.2.1⟩, h.2.2]

theorem At.size {es : List T} {i : Ident} {c : List T} (h : At es i c) : i.size = c.length := by
  obtain ⟨h1, h2, rfl⟩ := h
  unfold Ident.size
  simp; omega

theorem At.append {es : List T} {i : Ident} {c : List T} (h : At es i c) (more : List T) : At (es ++ more) i c := by
  obtain ⟨h1, h2, h3⟩ := h
  refine ⟨h1, by simp; omega, ?_⟩
  rw [List.take_append_of_le_length h2, h3]

theorem At.new (es c : List T) : At (es ++ c) ⟨es.length, es.length + c.length⟩ c := by
  refine ⟨by simp, by simp, ?_⟩
  simp only
  rw [List.take_of_length_le (by simp), List.drop_left]

theorem At.take {es : List T} {i : Ident} {c : List T} (h : At es i c) {n : Nat} (hn : i.e ≤ n) :
    At (es.take n) i c := by
  obtain ⟨h1, h2, h3⟩ := h
  refine ⟨h1, by simp; omega, ?_⟩
  rw [List.take_take, Nat.min_eq_left hn, h3]

theorem resize_append (d : T) (es more : List T) : resize d (es ++ more) es.length = es := by
  unfold resize
  rw [List.take_left]
  simp

theorem resize_le (d : T) (es : List T) {n : Nat} (h : n ≤ es.length) : resize d es n = es.take n := by
  unfold resize
  rw [Nat.sub_eq_zero_of_le h]
  simp

end

/-- What `uniteOrdered` does. -/
theorem uniteOrdered_spec (d : T) {es : List T} {i : Ident} {a ys c : List T} (hi : At es i a)
    (ha : a.Pairwise (· < ·)) (hy : ys.Pairwise (· < ·)) (hc : Lists (fun z => z ∈ a ∨ z ∈ ys) c) :
    (a = c ∧ uniteOrdered d es i ys = .ok (es, i)) ∨
    (a.length < c.length ∧ uniteOrdered d es i ys = .ok (es ++ c, ⟨es.length, es.length + c.length⟩)) := by
  have e : setUnion a ys = c := (setUnion_lists ha hy).unique hc
  rw [uniteOrdered, hi.get, bind_ok]
  dsimp only
  rw [e, List.length_append, hi.size, Nat.add_sub_cancel_left]
  by_cases h : a.length < c.length
  · exact .inr ⟨h, by rw [if_pos h]⟩
  · refine .inl ⟨(hc.eq_of_length ha (by omega)).symm, ?_⟩
    rw [if_neg h, resize_append]

/-- What `unite` does. -/
theorem unite_spec (d : T) {es : List T} {i j : Ident} {a b c : List T} (hi : At es i a) (hj : At es j b)
    (ha : a.Pairwise (· < ·)) (hb : b.Pairwise (· < ·)) (hc : Lists (fun z => z ∈ a ∨ z ∈ b) c) :
    (a = b → unite d es i j = .ok (es.take i.b, j)) ∧
    (a ≠ b → a = c → unite d es i j = .ok (es, i)) ∧
    (a ≠ b → b = c → unite d es i j = .ok (es, j)) ∧
    (a ≠ c → b ≠ c → unite d es i j = .ok (es ++ c, ⟨es.length, es.length + c.length⟩)) := by
  have hlb := hc.symm.length_le hb
  have hbc : ¬ b.length < c.length → c = b := fun h => hc.symm.eq_of_length hb (by omega)
  rw [unite, hj.get, bind_ok]
  have hib := hi.1
  have hie := hi.2.1
  rcases uniteOrdered_spec d hi ha hb hc with ⟨h1, h2⟩ | ⟨h1, h2⟩
  · subst h1
    rw [h2, bind_ok]
    dsimp only
    rw [hi.size, hj.size]
    by_cases h : b.length < a.length
    · rw [if_pos h]
      have hne : a ≠ b := fun e => by rw [e] at h; omega
      exact ⟨fun e => absurd e hne, fun _ _ => rfl, fun _ e => absurd e.symm hne, fun e => absurd rfl e⟩
    · rw [if_neg h]
      have e := hbc h
      subst e
      rw [discardFrom, if_pos (by omega), bind_ok, resize_le d es (by omega)]
      exact ⟨fun _ => rfl, fun e => absurd rfl e, fun e => absurd rfl e, fun e => absurd rfl e⟩
  · have hac : a ≠ c := fun e => by rw [e] at h1; omega
    rw [h2, bind_ok]
    dsimp only
    rw [hj.size]
    unfold Ident.size
    simp only [Nat.add_sub_cancel_left]
    by_cases h : b.length < c.length
    · rw [if_pos h]
      have hbc' : b ≠ c := fun e => by rw [e] at h; omega
      refine ⟨fun e => ?_, fun _ e => absurd e hac, fun _ e => absurd e hbc', fun _ _ => rfl⟩
      exfalso
      subst e
      have : c = a := by
        refine Lists.unique hc ⟨ha, fun x => by simp⟩
      exact hac this.symm
    · rw [if_neg h]
      have e := hbc h
      subst e
      rw [discardFrom, if_pos (by simp), bind_ok, resize_append]
      exact ⟨fun e => absurd e hac, fun _ e => absurd e hac, fun _ _ => rfl, fun _ e => absurd rfl e⟩

/-- What `uniteUnordered` does when the operands differ. -/
theorem uniteUnordered_spec (d : T) {es : List T} {i : Ident} {a xs c : List T} (hi : At es i a)
    (ha : a.Pairwise (· < ·)) (hc : Lists (fun z => z ∈ a ∨ z ∈ xs) c) (hne : ¬ ∀ x, x ∈ a ↔ x ∈ xs) :
    (a = c → uniteUnordered d es i xs = .ok (es, i)) ∧
    (a ≠ c → uniteUnordered d es i xs = .ok (es ++ c, ⟨es.length, es.length + c.length⟩)) := by
  obtain ⟨hb, hm⟩ := lists_unique_sort xs
  rw [uniteUnordered, freezeUnordered]
  dsimp only
  generalize unique (sort xs) = b at *
  have hab : a ≠ b := by rintro rfl; exact hne hm
  have hc' : Lists (fun z => z ∈ a ∨ z ∈ b) c := ⟨hc.1, fun x => (hc.2 x).trans (or_congr_right (hm x).symm)⟩
  obtain ⟨-, s2, s3, s4⟩ := unite_spec d (hi.append b) (At.new es b) ha hb hc'
  have hla := hc'.length_le ha
  constructor
  · intro e
    rw [s2 hab e, bind_ok]
    dsimp only
    rw [if_neg (by omega), resize_append]
  · intro e
    have hlt : a.length < c.length := by
      by_contra h
      exact e (hc'.eq_of_length ha (by omega)).symm
    by_cases hbc : b = c
    · rw [s3 hab hbc, bind_ok]
      dsimp only
      rw [hi.size]
      unfold Ident.size
      simp only [Nat.add_sub_cancel_left]
      rw [if_pos (by rw [hbc]; exact hlt), copyDown, if_pos (by simp), bind_ok, hbc]
      congr 2
      rw [List.take_left, List.drop_left, List.take_length, List.drop_of_length_le (by simp), List.append_nil,
        resize_le _ _ (by simp), List.take_of_length_le (by simp)]
    · rw [s4 e hbc, bind_ok]
      dsimp only
      rw [hi.size]
      unfold Ident.size
      simp only [Nat.add_sub_cancel_left]
      rw [if_pos hlt, copyDown, if_pos (by simp only [List.length_append]; omega), bind_ok]
      congr 2
      have hbl : b.length ≤ c.length := hc'.symm.length_le hb
      rw [List.drop_left, List.take_length, List.append_assoc es b c, List.take_left, resize_le _ _ (by simp)]
      rw [← List.length_append, List.take_left]

/-- The invariant: every identity in use refers to its contents. -/
def Inv (es : List T) (live : List (Ident × List T)) : Prop :=
  ∀ p ∈ live, At es p.1 p.2 ∧ p.2.Pairwise (· < ·)

theorem Inv.cons {es : List T} {live : List (Ident × List T)} (h : Inv es live) {k : Ident} {c : List T}
    (h1 : At es k c) (h2 : c.Pairwise (· < ·)) : Inv es ((k, c) :: live) := by
  intro p hp
  rcases List.mem_cons.1 hp with rfl | hp
  · exact ⟨h1, h2⟩
  · exact h p hp

theorem Inv.append {es : List T} {live : List (Ident × List T)} (h : Inv es live) (more : List T) :
    Inv (es ++ more) live := fun p hp => ⟨(h p hp).1.append more, (h p hp).2⟩

theorem hist_inv (d : T) {es : List T} {live : List (Ident × List T)} (h : Hist d True es live) : Inv es live := by
  induction h with
  | start => intro p hp; simp at hp; subst hp; exact ⟨⟨by simp, by simp, by simp⟩, .nil⟩
  | clear => intro p hp; simp at hp; subst hp; exact ⟨⟨by simp, by simp, by simp⟩, .nil⟩
  | @freezeUnordered es live xs c _ hc ih =>
    have e := (lists_unique_sort xs).unique hc
    rw [freezeUnordered]
    dsimp only
    rw [e]
    exact (ih.append c).cons (At.new es c) hc.1
  | @freezeOrdered es live xs _ hx ih =>
    exact (ih.append xs).cons (At.new es xs) hx
  | @unite es live es' i j k a b c _ hi hj hne hu hc ih =>
    obtain ⟨s1, s2, s3, s4⟩ := unite_spec d (ih _ hi).1 (ih _ hj).1 (ih _ hi).2 (ih _ hj).2 hc
    by_cases hac : a = c
    · rw [s2 (hne trivial) hac] at hu
      injection hu with hu; injection hu with h1 h2
      subst h1 h2
      exact ih.cons (hac ▸ (ih _ hi).1) hc.1
    · by_cases hbc : b = c
      · rw [s3 (hne trivial) hbc] at hu
        injection hu with hu; injection hu with h1 h2
        subst h1 h2
        exact ih.cons (hbc ▸ (ih _ hj).1) hc.1
      · rw [s4 hac hbc] at hu
        injection hu with hu; injection hu with h1 h2
        subst h1 h2
        exact (ih.append c).cons (At.new es c) hc.1
  | @uniteOrdered es live es' i k a ys c _ hi hy hu hc ih =>
    rcases uniteOrdered_spec d (ih _ hi).1 (ih _ hi).2 hy hc with ⟨hac, s⟩ | ⟨_, s⟩
    · rw [s] at hu
      injection hu with hu; injection hu with h1 h2
      subst h1 h2
      exact ih.cons (hac ▸ (ih _ hi).1) hc.1
    · rw [s] at hu
      injection hu with hu; injection hu with h1 h2
      subst h1 h2
      exact (ih.append c).cons (At.new es c) hc.1
  | @uniteUnordered es live es' i k a xs c _ hi hne hu hc ih =>
    obtain ⟨s1, s2⟩ := uniteUnordered_spec d (ih _ hi).1 (ih _ hi).2 hc (hne trivial)
    by_cases hac : a = c
    · rw [s1 hac] at hu
      injection hu with hu; injection hu with h1 h2
      subst h1 h2
      exact ih.cons (hac ▸ (ih _ hi).1) hc.1
    · rw [s2 hac] at hu
      injection hu with hu; injection hu with h1 h2
      subst h1 h2
      exact (ih.append c).cons (At.new es c) hc.1
  | @discardFrom es live es' i a _ hi hd ih =>
    have hat := (ih _ hi).1
    have h1 := hat.1
    have h2 := hat.2.1
    rw [discardFrom, if_pos (by simp only at h1 h2; omega), resize_le _ _ (by simp only at h1 h2; omega)] at hd
    injection hd with hd
    subst hd
    intro p hp
    obtain ⟨hp1, hp2⟩ := List.mem_filter.1 hp
    exact ⟨(ih p hp1).1.take (by simpa using hp2), (ih p hp1).2⟩

/-- C35, partial: as long as no two sets with equal contents are united, every identity keeps referring to the contents
that it got when it was made, and the contents are the set-theoretic union in the case of a union. What is missing: union
of equal sets (see `C35_defect_equal`), and that equal sets have equal identities (see `C35_defect_identity`). -/
theorem C35_contents_partial (d : T) (es : List T) (live : List (Ident × List T)) (h : Hist d True es live) (i : Ident)
    (c : List T) (hi : (i, c) ∈ live) : get es i = .ok c := (hist_inv d h _ hi).1.get

/-- C35, partial: all operations on identities that are in use are successful (no undefined behaviour, no failing
assertion). -/
theorem C35_safe_partial (d : T) (es : List T) (live : List (Ident × List T)) (h : Hist d True es live) (i j : Ident)
    (a b : List T) (hi : (i, a) ∈ live) (hj : (j, b) ∈ live) :
    (∃ r, unite d es i j = .ok r) ∧ (∀ ys, ys.Pairwise (· < ·) → ∃ r, uniteOrdered d es i ys = .ok r) ∧
    (∀ xs, (¬ ∀ x, x ∈ a ↔ x ∈ xs) → ∃ r, uniteUnordered d es i xs = .ok r) ∧
    ∃ r, discardFrom d es i = .ok r := by
  have I := hist_inv d h
  have ha := I _ hi
  have hb := I _ hj
  refine ⟨?_, ?_, ?_, ?_⟩
  · obtain ⟨s1, s2, s3, s4⟩ := unite_spec d ha.1 hb.1 ha.2 hb.2 (setUnion_lists ha.2 hb.2)
    by_cases hab : a = b
    · exact ⟨_, s1 hab⟩
    · by_cases h1 : a = setUnion a b
      · exact ⟨_, s2 hab h1⟩
      · by_cases h2 : b = setUnion a b
        · exact ⟨_, s3 hab h2⟩
        · exact ⟨_, s4 h1 h2⟩
  · intro ys hy
    rcases uniteOrdered_spec d ha.1 ha.2 hy (setUnion_lists ha.2 hy) with ⟨_, s⟩ | ⟨_, s⟩ <;> exact ⟨_, s⟩
  · intro xs hne
    have hu := lists_unique_sort xs
    obtain ⟨s1, s2⟩ := uniteUnordered_spec d (c := setUnion a (unique (sort xs))) ha.1 ha.2
      ⟨(setUnion_lists ha.2 hu.1).1, fun x => ((setUnion_lists ha.2 hu.1).2 x).trans (or_congr_right (hu.2 x))⟩ hne
    by_cases h1 : a = setUnion a (unique (sort xs))
    · exact ⟨_, s1 h1⟩
    · exact ⟨_, s2 h1⟩
  · have h1 := ha.1.1
    have h2 := ha.1.2.1
    simp only at h1 h2
    exact ⟨_, by rw [discardFrom, if_pos (by omega)]⟩

/-- C35 fails: uniting two sets with equal contents truncates the storage at the first of them, so that it, and all sets
that were frozen later, are lost. This is so for all equal sets, whatever the history. -/
theorem C35_defect_equal (d : T) (es : List T) (live : List (Ident × List T)) (h : Hist d True es live) (i j : Ident)
    (a : List T) (hi : (i, a) ∈ live) (hj : (j, a) ∈ live) :
    unite d es i j = .ok (es.take i.b, j) ∧ (a ≠ [] → get (es.take i.b) i = .error .ub) := by
  have I := hist_inv d h
  have ha := I _ hi
  have hb := I _ hj
  refine ⟨(unite_spec d ha.1 hb.1 ha.2 hb.2 (setUnion_lists ha.2 hb.2)).1 rfl, fun hne => ?_⟩
  have hsz := ha.1.size
  have := List.length_pos_iff.2 hne
  unfold Ident.size at hsz
  simp only at hsz
  rw [get, if_neg]
  simp
  omega

/-- C35 fails: `a = freeze_unordered({1, 2})`, then `unite_unordered(a, {1, 2})` returns `a`, but the contents of `a`
is then `{0, 0}`. -/
theorem C35_defect_overwrite :
    freezeUnordered [] [1, 2] = ([1, 2], ⟨0, 2⟩) ∧
    uniteUnordered 0 [1, 2] ⟨0, 2⟩ [1, 2] = .ok ([0, 0], ⟨0, 2⟩) ∧ get [0, 0] ⟨0, 2⟩ = .ok [0, 0] := by decide +kernel

/-- C35 fails: uniting two default constructed identities (empty sets) discards everything. -/
theorem C35_defect_empty (d : T) (es : List T) : unite d es ⟨0, 0⟩ ⟨0, 0⟩ = .ok ([], ⟨0, 0⟩) := by
  rw [unite, get, if_pos (by simp), bind_ok, uniteOrdered, get, if_pos (by simp), bind_ok]
  simp [setUnion, Ident.size, discardFrom, resize, bind, Except.bind]

/-- C35 fails: sets with equal contents have different identities when they are frozen separately. -/
theorem C35_defect_identity : freezeUnordered [] [1] = ([1], ⟨0, 1⟩) ∧ freezeUnordered [1] [1] = ([1, 1], ⟨1, 2⟩) := by
  decide +kernel

example : Hist (0 : Nat) True [1, 3, 2, 3, 1, 2, 3]
    [(⟨4, 7⟩, [1, 2, 3]), (⟨2, 4⟩, [2, 3]), (⟨0, 2⟩, [1, 3]), (⟨0, 0⟩, [])] := by
  have h1 := Hist.freezeUnordered (d := 0) (strict := True) [3, 1, 3] [1, 3] .start ⟨by simp, by simp⟩
  have h2 := Hist.freezeOrdered [2, 3] h1 (by simp)
  exact Hist.unite (i := ⟨0, 2⟩) (j := ⟨2, 4⟩) (a := [1, 3]) (b := [2, 3]) [1, 2, 3] h2 (by decide +kernel)
    (by decide +kernel) (by simp) (by decide +kernel) ⟨by simp, by intro x; simp; tauto⟩

end Verif.FrozenSets
