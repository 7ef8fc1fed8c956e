import Verif.RangeMap.Model
import Verif.RangeMap.Spec

/-
Property theorems about the range map (claim C34).
-/
namespace Verif.RangeMap
open Spec (Op)

variable {T : Type}

/-- The value that a user iterating over the ranges finds for a key. -/
def lookup (es : List (Ent T)) (k : Int) : Option T :=
  (es.find? (fun e => decide (e.first ≤ k ∧ k ≤ e.last))).map (·.val)

/-- Ranges are not empty, within the key type, increasing and disjoint. -/
def WF (lo hi : Int) (es : List (Ent T)) : Prop :=
  (∀ e ∈ es, lo ≤ e.first ∧ e.first ≤ e.last ∧ e.last ≤ hi) ∧ es.Pairwise (fun x y => x.last < y.first)

@[simp] theorem lookup_nil (k : Int) : lookup ([] : List (Ent T)) k = none := rfl

@[simp] theorem lookup_cons (e : Ent T) (es : List (Ent T)) (k : Int) :
    lookup (e :: es) k = if e.first ≤ k ∧ k ≤ e.last then some e.val else lookup es k := by
  unfold lookup
  rw [List.find?_cons]
  by_cases h : e.first ≤ k ∧ k ≤ e.last <;> simp [h]

theorem lookup_append (xs ys : List (Ent T)) (k : Int) :
    lookup (xs ++ ys) k = (lookup xs k).or (lookup ys k) := by
  induction xs with
  | nil => simp
  | cons x xs ih =>
    simp only [List.cons_append, lookup_cons, ih]
    split <;> simp

theorem lookup_eq_none {es : List (Ent T)} {k : Int} (h : ∀ e ∈ es, ¬(e.first ≤ k ∧ k ≤ e.last)) :
    lookup es k = none := by
  induction es with
  | nil => rfl
  | cons e es ih =>
    simp only [lookup_cons, if_neg (h e List.mem_cons_self)]
    exact ih (fun x hx => h x (List.mem_cons_of_mem _ hx))

theorem WF.cons {lo hi : Int} {e : Ent T} {es : List (Ent T)} :
    WF lo hi (e :: es) ↔ (lo ≤ e.first ∧ e.first ≤ e.last ∧ e.last ≤ hi) ∧ (∀ x ∈ es, e.last < x.first) ∧ WF lo hi es := by
  unfold WF
  simp only [List.mem_cons, forall_eq_or_imp, List.pairwise_cons]
  constructor
  · rintro ⟨⟨a, b⟩, c, d⟩; exact ⟨a, c, b, d⟩
  · rintro ⟨a, c, b, d⟩; exact ⟨⟨a, b⟩, c, d⟩

theorem WF.nil {lo hi : Int} : WF lo hi ([] : List (Ent T)) := ⟨by simp, List.Pairwise.nil⟩

theorem WF.append {lo hi : Int} {xs ys : List (Ent T)} :
    WF lo hi (xs ++ ys) ↔ WF lo hi xs ∧ WF lo hi ys ∧ ∀ x ∈ xs, ∀ y ∈ ys, x.last < y.first := by
  unfold WF
  simp only [List.mem_append, List.pairwise_append]
  constructor
  · rintro ⟨h, p, q, r⟩
    exact ⟨⟨fun e he => h e (.inl he), p⟩, ⟨fun e he => h e (.inr he), q⟩, r⟩
  · rintro ⟨⟨h1, p⟩, ⟨h2, q⟩, r⟩
    exact ⟨fun e he => he.elim (h1 e) (h2 e), p, q, r⟩

theorem toKey_eq {lo hi x : Int} (h : lo ≤ x ∧ x ≤ hi) : toKey lo hi x = some x := if_pos h

theorem updateLoop_spec {lo hi : Int} (dflt : T) (f : T → T) (b : Int) (hb : b ≤ hi) (es : List (Ent T)) :
    ∀ a, lo ≤ a → a ≤ b → WF lo hi es → (∀ e ∈ es, a ≤ e.first) →
    ∃ r, updateLoop lo hi dflt f b es a = some r ∧ WF lo hi r ∧ (∀ e ∈ r, a ≤ e.first) ∧
      ∀ k, lookup r k = if a ≤ k ∧ k ≤ b then some (f ((lookup es k).getD dflt)) else lookup es k := by
  induction es with
  | nil =>
    intro a h1 h2 _ _
    refine ⟨_, rfl, ?_, ?_, ?_⟩
    · rw [WF.cons]; exact ⟨⟨h1, h2, hb⟩, by simp, WF.nil⟩
    · simp
    · intro k; simp
  | cons i rest ih =>
    intro a h1 h2 hw hge
    obtain ⟨hi1, hi2, hi3⟩ := WF.cons.mp hw
    have hai := hge i List.mem_cons_self
    unfold updateLoop
    by_cases c1 : b < i.first
    · rw [if_pos c1]
      refine ⟨_, rfl, ?_, ?_, ?_⟩
      · rw [WF.cons]
        refine ⟨⟨h1, h2, hb⟩, ?_, hw⟩
        intro x hx
        rcases List.mem_cons.mp hx with rfl | hx
        · exact c1
        · have := hi2 x hx; simp only; omega
      · intro e he
        rcases List.mem_cons.mp he with rfl | he
        · simp
        · exact hge e he
      · intro k
        rw [lookup_cons]
        simp only
        by_cases hk : a ≤ k ∧ k ≤ b
        · rw [if_pos hk, if_pos hk]
          have : lookup (i :: rest) k = none := by
            apply lookup_eq_none
            intro e he hc
            rcases List.mem_cons.mp he with rfl | he
            · omega
            · have := hi2 e he; omega
          rw [this]; rfl
        · rw [if_neg hk, if_neg hk]
    · rw [if_neg c1]
      -- the gap
      obtain ⟨gap, hgap, hgw, hgr, hgl⟩ : ∃ gap : List (Ent T),
          gapBefore lo hi dflt f a i.first = some gap ∧ WF lo hi gap ∧ (∀ e ∈ gap, a ≤ e.first ∧ e.last < i.first) ∧
          ∀ k, lookup gap k = if a ≤ k ∧ k < i.first then some (f dflt) else none := by
        unfold gapBefore
        by_cases c2 : a < i.first
        · rw [if_pos c2, toKey_eq (by omega)]
          refine ⟨_, rfl, ?_, ?_, ?_⟩
          · rw [WF.cons]; exact ⟨by simp only; omega, by simp, WF.nil⟩
          · simp only [List.mem_singleton, forall_eq]; omega
          · intro k
            simp only [lookup_cons, lookup_nil]
            have : (a ≤ k ∧ k ≤ i.first - 1) ↔ (a ≤ k ∧ k < i.first) := by omega
            simp only [this]
        · rw [if_neg c2]
          refine ⟨_, rfl, WF.nil, by simp, ?_⟩
          intro k
          rw [if_neg (by omega)]; rfl
      simp only [hgap, Option.bind_eq_bind, Option.bind_some]
      have hrestge : ∀ k, k ≤ i.last → lookup rest k = none := by
        intro k hk
        apply lookup_eq_none
        intro e he hc
        have := hi2 e he; omega
      by_cases c3 : b < i.last
      · rw [if_pos c3, toKey_eq (by omega)]
        refine ⟨_, rfl, ?_, ?_, ?_⟩
        · rw [WF.append, WF.cons, WF.cons]
          refine ⟨hgw, ⟨by simp only; omega, ?_, by simp only; omega, ?_, hi3⟩, ?_⟩
          · intro x hx
            rcases List.mem_cons.mp hx with rfl | hx
            · simp only; omega
            · have := hi2 x hx; simp only; omega
          · intro x hx; exact hi2 x hx
          · intro x hx y hy
            have hxx := hgr x hx
            rcases List.mem_cons.mp hy with rfl | hy
            · exact hxx.2
            · rcases List.mem_cons.mp hy with rfl | hy
              · simp only; omega
              · have := hi2 y hy; omega
        · intro e he
          rcases List.mem_append.mp he with he | he
          · exact (hgr e he).1
          · rcases List.mem_cons.mp he with rfl | he
            · exact hai
            · rcases List.mem_cons.mp he with rfl | he
              · simp only; omega
              · have := hi2 e he; omega
        · intro k
          rw [lookup_append, hgl]
          simp only [lookup_cons]
          by_cases k1 : k < a
          · simp [show ¬ a ≤ k by omega, show ¬ i.first ≤ k by omega, show ¬ (b + 1 ≤ k) by omega]
          · by_cases k2 : k < i.first
            · simp [show a ≤ k by omega, k2, show k ≤ b by omega, show ¬ i.first ≤ k by omega, hrestge k (by omega)]
            · by_cases k3 : k ≤ b
              · simp [show a ≤ k by omega, k2, k3, show i.first ≤ k by omega, show k ≤ i.last by omega]
              · by_cases k4 : k ≤ i.last
                · simp [k2, k3, k4, show i.first ≤ k by omega, show b + 1 ≤ k by omega]
                · simp [k2, k3, k4]
      · rw [if_neg c3]
        by_cases c4 : b = i.last
        · rw [if_pos c4]
          refine ⟨_, rfl, ?_, ?_, ?_⟩
          · rw [WF.append, WF.cons]
            refine ⟨hgw, ⟨hi1, hi2, hi3⟩, ?_⟩
            intro x hx y hy
            have hxx := hgr x hx
            rcases List.mem_cons.mp hy with rfl | hy
            · exact hxx.2
            · have := hi2 y hy; omega
          · intro e he
            rcases List.mem_append.mp he with he | he
            · exact (hgr e he).1
            · rcases List.mem_cons.mp he with rfl | he
              · exact hai
              · have := hi2 e he; omega
          · intro k
            rw [lookup_append, hgl]
            simp only [lookup_cons]
            by_cases k1 : k < a
            · simp [show ¬ a ≤ k by omega, show ¬ i.first ≤ k by omega]
            · by_cases k2 : k < i.first
              · simp [show a ≤ k by omega, k2, show k ≤ b by omega, show ¬ i.first ≤ k by omega, hrestge k (by omega)]
              · by_cases k3 : k ≤ b
                · simp [show a ≤ k by omega, k2, k3, show i.first ≤ k by omega, show k ≤ i.last by omega]
                · simp [k2, k3, show ¬ k ≤ i.last by omega]
        · rw [if_neg c4, toKey_eq (by omega)]
          obtain ⟨r, e1, w1, g1, l1⟩ := ih (i.last + 1) (by omega) (by omega) hi3
            (fun e he => by have := hi2 e he; omega)
          simp only [Option.bind_some, e1]
          refine ⟨_, rfl, ?_, ?_, ?_⟩
          · rw [WF.append, WF.cons]
            refine ⟨hgw, ⟨hi1, ?_, w1⟩, ?_⟩
            · intro x hx; have := g1 x hx; simp only; omega
            · intro x hx y hy
              have hxx := hgr x hx
              rcases List.mem_cons.mp hy with rfl | hy
              · exact hxx.2
              · have := g1 y hy; omega
          · intro e he
            rcases List.mem_append.mp he with he | he
            · exact (hgr e he).1
            · rcases List.mem_cons.mp he with rfl | he
              · exact hai
              · have := g1 e he; omega
          · intro k
            rw [lookup_append, hgl]
            simp only [lookup_cons, l1]
            by_cases k1 : k < a
            · simp [show ¬ a ≤ k by omega, show ¬ i.first ≤ k by omega, show ¬ i.last + 1 ≤ k by omega]
            · by_cases k2 : k < i.first
              · simp [show a ≤ k by omega, k2, show k ≤ b by omega, show ¬ i.first ≤ k by omega, hrestge k (by omega),
                  show ¬ i.last + 1 ≤ k by omega]
              · by_cases k3 : k ≤ i.last
                · simp [show a ≤ k by omega, k2, k3, show i.first ≤ k by omega, show k ≤ b by omega]
                · simp [k2, k3, show i.last + 1 ≤ k by omega, show a ≤ k by omega]

/-- One update is a point-wise update. -/
theorem update_spec {lo hi : Int} (dflt : T) (f : T → T) (a b : Int) (ha : lo ≤ a) (hab : a ≤ b) (hb : b ≤ hi)
    (es : List (Ent T)) (hw : WF lo hi es) :
    ∃ r, update lo hi dflt es a b f = some r ∧ WF lo hi r ∧
      ∀ k, lookup r k = if a ≤ k ∧ k ≤ b then some (f ((lookup es k).getD dflt)) else lookup es k := by
  unfold update
  rw [if_pos hab]
  have hsplit := List.takeWhile_append_dropWhile (p := fun e : Ent T => decide (e.first < a)) (l := es)
  generalize hbefore : es.takeWhile (fun e => decide (e.first < a)) = before at *
  generalize hafter : es.dropWhile (fun e => decide (e.first < a)) = after at *
  have hlt : ∀ e ∈ before, e.first < a := by
    intro e he
    rw [← hbefore] at he
    have := List.all_takeWhile (p := fun e : Ent T => decide (e.first < a)) (l := es)
    rw [List.all_eq_true] at this
    simpa using this e he
  rw [← hsplit] at hw
  obtain ⟨wb, wa, wba⟩ := WF.append.mp hw
  have hge : ∀ e ∈ after, a ≤ e.first := by
    cases after with
    | nil => simp
    | cons x xs =>
      have hx : ¬ x.first < a := by
        have := List.head?_dropWhile_not (fun e : Ent T => decide (e.first < a)) es
        rw [hafter] at this
        simpa using this
      intro e he
      rcases List.mem_cons.mp he with rfl | he
      · omega
      · have h1 := (WF.cons.mp wa).2.1 e he
        have h2 := (WF.cons.mp wa).1
        omega
  rw [← hsplit]
  dsimp only
  -- simple case: nothing before reaches into the range
  have simple : (∀ e ∈ before, e.last < a) →
      ∃ r, (do some (before ++ (← updateLoop lo hi dflt f b after a))) = some r ∧ WF lo hi r ∧
      ∀ k, lookup r k = if a ≤ k ∧ k ≤ b then some (f ((lookup (before ++ after) k).getD dflt))
        else lookup (before ++ after) k := by
    intro hl
    obtain ⟨r, e1, w1, g1, l1⟩ := updateLoop_spec dflt f b hb after a ha hab wa hge
    rw [e1]
    refine ⟨_, rfl, ?_, ?_⟩
    · rw [WF.append]
      exact ⟨wb, w1, fun x hx y hy => by have := hl x hx; have := g1 y hy; omega⟩
    · intro k
      rw [lookup_append, lookup_append, l1]
      by_cases hk : a ≤ k ∧ k ≤ b
      · have : lookup before k = none := lookup_eq_none (fun e he => by have := hl e he; omega)
        simp [this, hk]
      · simp [if_neg hk]
  cases hlast : before.getLast? with
  | none =>
    have : before = [] := List.getLast?_eq_none_iff.mp hlast
    simp only
    exact simple (by rw [this]; simp)
  | some j =>
    simp only
    obtain ⟨init, hinit⟩ : ∃ init, before = init ++ [j] := by
      exact List.getLast?_eq_some_iff.mp hlast
    subst hinit
    obtain ⟨wi, wj, wij⟩ := WF.append.mp wb
    have hj := (WF.cons.mp wj).1
    have hjlt := hlt j (by simp)
    have hinitlt : ∀ e ∈ init, e.last < j.first := fun e he => wij e he j (by simp)
    by_cases c : a ≤ j.last
    · rw [if_pos c, toKey_eq (by omega)]
      have hafterj : ∀ e ∈ after, j.last < e.first := fun e he => wba j (by simp) e he
      obtain ⟨r, e1, w1, g1, l1⟩ := updateLoop_spec dflt f b hb (⟨a, j.last, j.val⟩ :: after) a ha hab
        (by rw [WF.cons]; exact ⟨⟨ha, c, hj.2.2⟩, hafterj, wa⟩)
        (by
          intro e he
          rcases List.mem_cons.mp he with rfl | he
          · simp
          · exact hge e he)
      simp only [Option.bind_eq_bind, Option.bind_some, e1, List.dropLast_concat]
      refine ⟨_, rfl, ?_, ?_⟩
      · rw [WF.append, WF.cons]
        refine ⟨wi, ⟨by simp only; omega, ?_, w1⟩, ?_⟩
        · intro x hx; have := g1 x hx; simp only; omega
        · intro x hx y hy
          have := hinitlt x hx
          rcases List.mem_cons.mp hy with rfl | hy
          · exact this
          · have := g1 y hy; omega
      · intro k
        simp only [lookup_append, lookup_cons, l1, lookup_nil]
        have hin : j.first ≤ k → lookup init k = none := by
          intro hk
          exact lookup_eq_none (fun e he => by have := hinitlt e he; omega)
        by_cases k1 : j.first ≤ k
        · rw [hin k1]
          by_cases k2 : k < a
          · simp [k1, show k ≤ a - 1 by omega, show ¬ a ≤ k by omega, show k ≤ j.last by omega]
          · by_cases k3 : k ≤ j.last
            · simp [k1, show ¬ k ≤ a - 1 by omega, show a ≤ k by omega, k3]
            · simp [show ¬ k ≤ a - 1 by omega, show a ≤ k by omega, k3]
        · simp [k1, show ¬ a ≤ k by omega]
    · rw [if_neg c]
      apply simple
      intro e he
      rcases List.mem_append.mp he with he | he
      · have := hinitlt e he; omega
      · rw [List.mem_singleton] at he; subst he; omega

/-- Two consecutive entries that could be merged. -/
def Mergeable (eq : T → T → Bool) (x y : Ent T) : Prop := y.first = x.last + 1 ∧ eq x.val y.val = true

/-- No two consecutive entries can be merged. -/
def NoMerge (eq : T → T → Bool) : List (Ent T) → Prop
  | x :: y :: rest => ¬ Mergeable eq x y ∧ NoMerge eq (y :: rest)
  | _ => True

theorem defragLoop_spec {lo hi : Int} (eq : T → T → Bool) (hrefl : ∀ x, eq x x = true)
    (es : List (Ent T)) :
    ∀ i, WF lo hi (i :: es) →
    ∃ r t, defragLoop lo hi eq es i = some r ∧ WF lo hi r ∧ NoMerge eq r ∧
      (∃ l, r = ⟨i.first, l, i.val⟩ :: t ∧ i.last ≤ l) ∧
      ((∀ x y z, eq x y = true → eq y z = true → eq x z = true) →
       ∀ k, (∀ x, lookup (i :: es) k = some x → ∃ y, lookup r k = some y ∧ eq y x = true) ∧
        (lookup (i :: es) k = none → lookup r k = none)) := by
  induction es with
  | nil =>
    intro i hw
    refine ⟨_, _, rfl, hw, trivial, ⟨i.last, rfl, Int.le_refl _⟩, ?_⟩
    intro _ k
    exact ⟨fun x hx => ⟨x, hx, hrefl x⟩, id⟩
  | cons j rest ih =>
    intro i hw
    obtain ⟨h1, h2, h3⟩ := WF.cons.mp hw
    obtain ⟨h4, h5, h6⟩ := WF.cons.mp h3
    have hij := h2 j List.mem_cons_self
    unfold defragLoop
    rw [toKey_eq (by omega)]
    simp only [Option.bind_eq_bind, Option.bind_some]
    by_cases c : j.first = i.last + 1 ∧ eq i.val j.val = true
    · rw [if_pos c]
      obtain ⟨r, t, e1, w1, n1, ⟨l, rfl, hl⟩, v1⟩ := ih ⟨i.first, j.last, i.val⟩
        (by rw [WF.cons]; exact ⟨by simp only; omega, h5, h6⟩)
      refine ⟨_, t, e1, w1, n1, ⟨l, rfl, by simp only at hl; omega⟩, ?_⟩
      intro ht k
      obtain ⟨v2, v3⟩ := v1 ht k
      simp only [lookup_cons] at v2 v3 ⊢
      by_cases k1 : i.first ≤ k ∧ k ≤ i.last
      · have k2 : i.first ≤ k ∧ k ≤ j.last := by omega
        rw [if_pos k2] at v2
        rw [if_pos k1]
        exact ⟨v2, by simp⟩
      · rw [if_neg k1]
        by_cases k2 : j.first ≤ k ∧ k ≤ j.last
        · have k3 : i.first ≤ k ∧ k ≤ j.last := by omega
          rw [if_pos k3] at v2
          rw [if_pos k2]
          refine ⟨?_, by simp⟩
          intro x hx
          obtain ⟨y, hy1, hy2⟩ := v2 i.val rfl
          injection hx with hx
          subst hx
          exact ⟨y, hy1, ht _ _ _ hy2 c.2⟩
        · have k3 : ¬ (i.first ≤ k ∧ k ≤ j.last) := by omega
          rw [if_neg k3] at v2 v3
          rw [if_neg k2]
          exact ⟨v2, v3⟩
    · rw [if_neg c]
      obtain ⟨r, t, e1, w1, n1, ⟨l, rfl, hl⟩, v1⟩ := ih j h3
      simp only [e1, Option.bind_some]
      refine ⟨_, _, rfl, ?_, ?_, ⟨i.last, rfl, Int.le_refl _⟩, ?_⟩
      · rw [WF.cons]
        refine ⟨h1, ?_, w1⟩
        intro x hx
        rcases List.mem_cons.mp hx with rfl | hx
        · exact hij
        · have := (WF.cons.mp w1).2.1 x hx; simp only at this; omega
      · exact ⟨c, n1⟩
      · intro ht k
        obtain ⟨v2, v3⟩ := v1 ht k
        rw [lookup_cons i, lookup_cons i]
        by_cases k1 : i.first ≤ k ∧ k ≤ i.last
        · rw [if_pos k1, if_pos k1]
          exact ⟨fun x hx => ⟨x, hx, hrefl x⟩, id⟩
        · rw [if_neg k1, if_neg k1]
          exact ⟨v2, v3⟩

/-- Run of a history on the model. -/
def step [DecidableEq T] (lo hi : Int) (dflt : T) (es : List (Ent T)) : Op T → Option (List (Ent T))
  | .update a b f => update lo hi dflt es a b f
  | .assign a b v => assign lo hi dflt es a b v
  | .defrag => defrag lo hi (fun x y => decide (x = y)) es

def run [DecidableEq T] (lo hi : Int) (dflt : T) : List (Op T) → List (Ent T) → Option (List (Ent T))
  | [], es => some es
  | op :: ops, es => do run lo hi dflt ops (← step lo hi dflt es op)

/-- C34. For every history of updates, assignments and defragmentations on an initially empty range map
over a key type with values `lo` through `hi`: no assertion failure and no overflow of a key; the
ranges are not empty, increasing and disjoint; and the value of every key is that obtained from the
updates that cover the key. -/
theorem C34_update [DecidableEq T] (lo hi : Int) (dflt : T) (ops : List (Op T)) (hv : ∀ op ∈ ops, op.Valid lo hi) :
    ∃ es, run lo hi dflt ops [] = some es ∧
      (∀ e ∈ es, lo ≤ e.first ∧ e.first ≤ e.last ∧ e.last ≤ hi) ∧ es.Pairwise (fun x y => x.last < y.first) ∧
      ∀ k, lookup es k = Spec.value dflt ops k := by
  have key : ∀ (ops : List (Op T)), (∀ op ∈ ops, op.Valid lo hi) → ∀ es, WF lo hi es →
      ∃ es', run lo hi dflt ops es = some es' ∧ WF lo hi es' ∧
        ∀ k, lookup es' k = ops.foldl (fun v op => op.apply dflt k v) (lookup es k) := by
    intro ops
    induction ops with
    | nil => intro _ es hw; exact ⟨es, rfl, hw, fun k => rfl⟩
    | cons op ops ih =>
      intro hv es hw
      have : ∃ es1, step lo hi dflt es op = some es1 ∧ WF lo hi es1 ∧ ∀ k, lookup es1 k = op.apply dflt k (lookup es k) := by
        have hop := hv op List.mem_cons_self
        cases op with
        | update a b f => exact update_spec dflt f a b hop.1 hop.2.1 hop.2.2 es hw
        | assign a b v => exact update_spec dflt (fun _ => v) a b hop.1 hop.2.1 hop.2.2 es hw
        | defrag =>
          cases es with
          | nil => exact ⟨[], rfl, hw, fun k => rfl⟩
          | cons i rest =>
            obtain ⟨r, t, e1, w1, n1, _, v1⟩ := defragLoop_spec (fun x y : T => decide (x = y)) (by simp) rest i hw
            refine ⟨r, e1, w1, fun k => ?_⟩
            obtain ⟨v2, v3⟩ := v1 (by simp) k
            show _ = lookup (i :: rest) k
            cases hc : lookup (i :: rest) k with
            | none => exact v3 hc
            | some x =>
              obtain ⟨y, hy1, hy2⟩ := v2 x hc
              rw [hy1, of_decide_eq_true hy2]
      obtain ⟨es1, e1, w1, l1⟩ := this
      obtain ⟨es2, e2, w2, l2⟩ := ih (fun op h => hv op (List.mem_cons_of_mem _ h)) es1 w1
      refine ⟨es2, by simp [run, e1, e2], w2, fun k => ?_⟩
      rw [l2, l1]; rfl
  obtain ⟨es, e, w, l⟩ := key ops hv [] WF.nil
  exact ⟨es, e, w.1, w.2, l⟩

/-- C34, defragmentation, for any equivalence of values: the ranges stay well-formed, no two consecutive
ranges that touch have equivalent values, the covered keys are the same, and the value of each key is
equivalent to what it was. -/
theorem C34_defrag (lo hi : Int) (eq : T → T → Bool) (hrefl : ∀ x, eq x x = true)
    (htrans : ∀ x y z, eq x y = true → eq y z = true → eq x z = true) (es : List (Ent T)) (hw : WF lo hi es) :
    ∃ r, defrag lo hi eq es = some r ∧ WF lo hi r ∧ NoMerge eq r ∧
      ∀ k, (∀ x, lookup es k = some x → ∃ y, lookup r k = some y ∧ eq y x = true) ∧
        (lookup es k = none → lookup r k = none) := by
  cases es with
  | nil => exact ⟨[], rfl, hw, trivial, fun k => ⟨by simp, by simp⟩⟩
  | cons i rest =>
    obtain ⟨r, t, e1, w1, n1, _, v1⟩ := defragLoop_spec eq hrefl rest i hw
    exact ⟨r, e1, w1, n1, v1 htrans⟩

/-- A history on an 8-bit key type that reaches both ends, splits ranges, and merges. -/
example : run (-128) 127 (0 : Int)
    [.assign 5 10 1, .update (-128) 7 (· + 2), .update 9 127 (· + 3), .assign 8 8 3, .assign 9 10 3, .defrag] [] =
    some [⟨-128, 4, 2⟩, ⟨5, 127, 3⟩] := by decide +kernel

example : WF (-128) 127 [(⟨-128, 4, 2⟩ : Ent Int), ⟨5, 127, 2⟩] ∧
    defrag (-128) 127 (fun x y : Int => decide (x = y)) [⟨-128, 4, 2⟩, ⟨5, 127, 2⟩] = some [⟨-128, 127, 2⟩] := by
  refine ⟨?_, by decide +kernel⟩
  simp [WF]

end Verif.RangeMap
