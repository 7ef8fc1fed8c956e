import Verif.WordWrap.Model
import Mathlib.Data.List.Nodup
/-!
Lemmas about breakpoint chains, and about reuse of breakpoints.
-/
namespace Verif.WordWrap

/-- The breakpoints that follow each other, starting from the specified one: their positions in memory, and the words. -/
inductive Chain (bps : List Bp) : Option Nat → List Nat → List Nat → Prop
  | nil : Chain bps none [] []
  | cons {i : Nat} {bp : Bp} {cells ws : List Nat} : bps[i]? = some bp → Chain bps bp.next cells ws → Chain bps (some i) (i :: cells) (bp.word :: ws)

theorem Chain.unique {bps : List Bp} {p : Option Nat} {cells ws : List Nat} (h : Chain bps p cells ws) :
    ∀ {cells' ws' : List Nat}, Chain bps p cells' ws' → cells = cells' ∧ ws = ws' := by
  induction h with
  | nil => intro _ _ h'; cases h'; exact ⟨rfl, rfl⟩
  | cons h1 _ ih =>
    intro _ _ h'
    cases h' with
    | cons h2 h3 =>
      rw [h1] at h2
      injection h2 with h2
      subst h2
      obtain ⟨e1, e2⟩ := ih h3
      exact ⟨by rw [e1], by rw [e2]⟩

theorem Chain.frame {bps bps' : List Bp} {p : Option Nat} {cells ws : List Nat} (h : Chain bps p cells ws) :
    (∀ c ∈ cells, bps'[c]? = bps[c]?) → Chain bps' p cells ws := by
  induction h with
  | nil => intro _; exact .nil
  | cons h1 _ ih =>
    intro hc
    exact .cons (by rw [hc _ List.mem_cons_self, h1]) (ih (fun c h => hc c (List.mem_cons_of_mem _ h)))

theorem Chain.lt {bps : List Bp} {p : Option Nat} {cells ws : List Nat} (h : Chain bps p cells ws) : ∀ c ∈ cells, c < bps.length := by
  induction h with
  | nil => intro c h; simp at h
  | cons h1 _ ih =>
    intro c hc
    rcases List.mem_cons.1 hc with rfl | hc
    · exact (List.getElem?_eq_some_iff.1 h1).1
    · exact ih c hc

theorem gather_spec {bps : List Bp} {p : Option Nat} {cells ws : List Nat} (h : Chain bps p cells ws) :
    ∀ fuel, ws.length ≤ fuel → gather bps fuel p = some ws := by
  induction h with
  | nil => intro fuel _; cases fuel <;> rfl
  | cons h1 _ ih =>
    intro fuel hf
    cases fuel with
    | zero => simp at hf
    | succ fuel =>
      rw [gather, h1]
      simp only [Option.bind_eq_bind, Option.bind_some]
      rw [ih fuel (by simp at hf; omega)]
      rfl

/-- What is known about memory of breakpoints. The predicate tells which results are not yet final. -/
def Heap (bps : List Bp) (unused : Option Nat) (results : List Result) (P : Nat → Prop) : Prop :=
  ∃ free ws, Chain bps unused free ws ∧ free.Nodup ∧ ∀ (r : Nat) (res : Result) (p : Option Nat), results[r]? = some res → res.bp = some p →
    ∃ cells ws, Chain bps p cells ws ∧ (∀ c ∈ cells, c ∉ free) ∧
      (P r → ∀ h, p = some h → ∀ (r' : Nat) (res' : Result) (p' : Option Nat) (cells' ws' : List Nat), r' ≠ r → results[r']? = some res' → res'.bp = some p' →
        Chain bps p' cells' ws' → h ∉ cells')

/-- Results that have breakpoints keep them. -/
def Same (bps bps' : List Bp) (results : List Result) (r : Nat) : Prop :=
  ∀ (r' : Nat) (res : Result) (p : Option Nat) (cells ws : List Nat), r' ≠ r → results[r']? = some res → res.bp = some p →
    Chain bps p cells ws → Chain bps' p cells ws

theorem get_set {α : Type} {l : List α} {r k : Nat} {x y : α} (h : (l.set r x)[k]? = some y) : (k = r ∧ y = x) ∨ (k ≠ r ∧ l[k]? = some y) := by
  rw [List.getElem?_set] at h
  by_cases hk : r = k
  · rw [if_pos hk] at h
    split at h
    · injection h with h; exact .inl ⟨hk.symm, h.symm⟩
    · cases h
  · rw [if_neg hk] at h; exact .inr ⟨fun h' => hk h'.symm, h⟩

theorem set_ne {α : Type} {l : List α} {r k : Nat} {x : α} (h : k ≠ r) : (l.set r x)[k]? = l[k]? := by
  rw [List.getElem?_set, if_neg (fun h' => h h'.symm)]

theorem set_eq {α : Type} {l : List α} {r : Nat} {x : α} (h : r < l.length) : (l.set r x)[r]? = some x := by
  rw [List.getElem?_set, if_pos rfl, if_pos h]

/-- Making results final, and making a result without breakpoints not final. -/
theorem heap_weaken {bps : List Bp} {unused : Option Nat} {results : List Result} {P Q : Nat → Prop} (H : Heap bps unused results P)
    (h : ∀ r res, results[r]? = some res → Q r → P r ∨ ∀ h, res.bp ≠ some (some h)) : Heap bps unused results Q := by
  obtain ⟨free, ws, h1, h2, h3⟩ := H
  refine ⟨free, ws, h1, h2, fun r res p hr hp => ?_⟩
  obtain ⟨cells, ws', g1, g2, g3⟩ := h3 r res p hr hp
  refine ⟨cells, ws', g1, g2, fun hq h' hp' => ?_⟩
  rcases h r res hr hq with hP | hn
  · exact g3 hP h' hp'
  · rw [hp, hp'] at hn; exact absurd rfl (hn h')

/-- Replacing a result by one that has no breakpoints. -/
theorem heap_clear {bps : List Bp} {unused : Option Nat} {results : List Result} {P : Nat → Prop} (H : Heap bps unused results P) (r : Nat) (x : Result)
    (hx : ∀ h, x.bp ≠ some (some h)) : Heap bps unused (results.set r x) P := by
  obtain ⟨free, ws, h1, h2, h3⟩ := H
  refine ⟨free, ws, h1, h2, fun r' res p hr hp => ?_⟩
  rcases get_set hr with ⟨_, rfl⟩ | ⟨hne, hr⟩
  · cases p with
    | none => exact ⟨[], [], .nil, fun c hc => by simp at hc, fun _ h hh => by cases hh⟩
    | some i => exact absurd hp (hx i)
  · obtain ⟨cells, ws', g1, g2, g3⟩ := h3 r' res p hr hp
    refine ⟨cells, ws', g1, g2, fun hP h hh r'' res'' p'' cells'' ws'' hne' hr'' hp'' hc'' => ?_⟩
    rcases get_set hr'' with ⟨_, rfl⟩ | ⟨_, hr''⟩
    · cases p'' with
      | none => cases hc''; simp
      | some i => exact absurd hp'' (hx i)
    · exact g3 hP h hh r'' res'' p'' cells'' ws'' hne' hr'' hp'' hc''

/-- Addition of a result that has no breakpoints. -/
theorem heap_push {bps : List Bp} {unused : Option Nat} {results : List Result} {P : Nat → Prop} (H : Heap bps unused results P) (b : Nat) :
    Heap bps unused (results ++ [⟨b, none⟩]) P := by
  obtain ⟨free, ws, h1, h2, h3⟩ := H
  have hget : ∀ (r : Nat) (res : Result) (p : Option Nat), (results ++ [⟨b, none⟩])[r]? = some res → res.bp = some p → results[r]? = some res := by
    intro r res p hr hp
    rw [List.getElem?_append] at hr
    split at hr
    · exact hr
    · obtain ⟨h1, h2⟩ := List.getElem?_eq_some_iff.1 hr
      simp only [List.getElem_singleton] at h2
      subst h2; cases hp
  refine ⟨free, ws, h1, h2, fun r res p hr hp => ?_⟩
  obtain ⟨cells, ws', g1, g2, g3⟩ := h3 r res p (hget r res p hr hp) hp
  exact ⟨cells, ws', g1, g2, fun hP h hh r' res' p' cells' ws'' hne hr' hp' hc' => g3 hP h hh r' res' p' cells' ws'' hne (hget _ _ _ hr' hp') hp' hc'⟩

/-- Recycling of the breakpoint of a result that is not final. -/
theorem recycle_spec {st : St} {P : Nat → Prop} (H : Heap st.bps st.unused st.results P) {r : Nat} {res : Result} (hr : st.results[r]? = some res) (hP : P r) :
    ∃ bps unused, recycle st res = some { st with bps := bps, unused := unused } ∧
      (∀ b, Heap bps unused (st.results.set r ⟨b, none⟩) P) ∧ Same st.bps bps st.results r := by
  obtain ⟨free, ws, h1, h2, h3⟩ := id H
  unfold recycle
  cases hbp : res.bp with
  | none => exact ⟨st.bps, st.unused, rfl, fun b => heap_clear H r _ (by simp), fun _ _ _ _ _ _ _ _ h => h⟩
  | some p =>
    cases p with
    | none => exact ⟨st.bps, st.unused, rfl, fun b => heap_clear H r _ (by simp), fun _ _ _ _ _ _ _ _ h => h⟩
    | some i =>
      obtain ⟨cells, ws', g1, g2, g3⟩ := h3 r res (some i) hr hbp
      cases g1 with
      | @cons _ bp cells ws' e1 e2 =>
        have hi := (List.getElem?_eq_some_iff.1 e1).1
        have hsame : Same st.bps (st.bps.set i { bp with next := st.unused }) st.results r := by
          intro r' res' p' cells' ws'' hne hr' hp' hc'
          refine hc'.frame (fun c hc => ?_)
          have := g3 hP i rfl r' res' p' cells' ws'' hne hr' hp' hc'
          exact set_ne (fun h => this (h ▸ hc))
        refine ⟨_, _, by simp only [e1]; rfl, fun b => ?_, hsame⟩
        have hif : i ∉ free := g2 i List.mem_cons_self
        refine ⟨i :: free, bp.word :: ws, ?_, List.nodup_cons.2 ⟨hif, h2⟩, fun r' res' p' hr' hp' => ?_⟩
        · have := Chain.cons (bps := st.bps.set i { bp with next := st.unused }) (i := i) (bp := { bp with next := st.unused }) (set_eq hi)
            (h1.frame (fun c hc => set_ne (fun h => hif (h ▸ hc))))
          exact this
        · rcases get_set hr' with ⟨_, rfl⟩ | ⟨hne, hr'⟩
          · cases hp'
          · obtain ⟨cells', ws'', f1, f2, f3⟩ := h3 r' res' p' hr' hp'
            refine ⟨cells', ws'', hsame r' res' p' cells' ws'' hne hr' hp' f1, fun c hc => ?_, ?_⟩
            · rw [List.mem_cons, not_or]
              exact ⟨fun h => g3 hP i rfl r' res' p' cells' ws'' hne hr' hp' f1 (h ▸ hc), f2 c hc⟩
            · intro hP' h hh r'' res'' p'' cells'' ws3 hne' hr'' hp'' hc''
              rcases get_set hr'' with ⟨_, rfl⟩ | ⟨hne'', hr''⟩
              · cases hp''
              · obtain ⟨c3, w3, k1, _, _⟩ := h3 r'' res'' p'' hr'' hp''
                have k2 := hsame r'' res'' p'' c3 w3 hne'' hr'' hp'' k1
                obtain ⟨rfl, rfl⟩ := hc''.unique k2
                exact f3 hP' h hh r'' res'' p'' _ _ hne' hr'' hp'' k1

/-- Allocation of a breakpoint. -/
theorem alloc_spec {st : St} {P : Nat → Prop} {r r' : Nat} {results : List Result} (H : Heap st.bps st.unused results P) {res : Result} {p : Option Nat}
    {cells ws : List Nat} (hne : r' ≠ r) (hPr : ¬ P r') (hr : results[r']? = some res) (hp : res.bp = some p) (hc : Chain st.bps p cells ws) (word b : Nat) :
    ∃ bps unused i, alloc st word p = some ({ st with bps := bps, unused := unused }, i) ∧
      Heap bps unused (results.set r ⟨b, some (some i)⟩) P ∧ Same st.bps bps results r ∧ Chain bps (some i) (i :: cells) (word :: ws) := by
  obtain ⟨free, wsf, h1, h2, h3⟩ := id H
  have hcc := hc
  -- what is common to both cases
  have key : ∀ (bps : List Bp) (unused : Option Nat) (i : Nat) (free' wsf' : List Nat), Chain bps unused free' wsf' → free'.Nodup → (∀ c ∈ free', c ∈ free) → i ∉ free' →
      bps[i]? = some ⟨word, p⟩ → (∀ c, c ≠ i → c < st.bps.length → bps[c]? = st.bps[c]?) → (i < st.bps.length → i ∈ free) →
      Heap bps unused (results.set r ⟨b, some (some i)⟩) P ∧ Same st.bps bps results r ∧ Chain bps (some i) (i :: cells) (word :: ws) := by
    intro bps unused i free' wsf' k1 k2 k3 k4 k5 k6 k7
    have hnot : ∀ (r'' : Nat) (res'' : Result) (p'' : Option Nat) (cells'' ws'' : List Nat), results[r'']? = some res'' → res''.bp = some p'' →
        Chain st.bps p'' cells'' ws'' → i ∉ cells'' := by
      intro r'' res'' p'' cells'' ws'' a1 a2 a3 a4
      obtain ⟨c3, w3, f1, f2, _⟩ := h3 r'' res'' p'' a1 a2
      obtain ⟨rfl, rfl⟩ := a3.unique f1
      exact f2 i a4 (k7 (a3.lt i a4))
    have hfr : ∀ (r'' : Nat) (res'' : Result) (p'' : Option Nat) (cells'' ws'' : List Nat), results[r'']? = some res'' → res''.bp = some p'' →
        Chain st.bps p'' cells'' ws'' → Chain bps p'' cells'' ws'' := fun r'' res'' p'' cells'' ws'' a1 a2 a3 =>
      a3.frame (fun c hc => k6 c (fun h => hnot r'' res'' p'' cells'' ws'' a1 a2 a3 (h ▸ hc)) (a3.lt c hc))
    have hnew : Chain bps (some i) (i :: cells) (word :: ws) := Chain.cons (bp := ⟨word, p⟩) k5 (hfr r' res p cells ws hr hp hc)
    refine ⟨⟨free', wsf', k1, k2, fun r'' res'' p'' a1 a2 => ?_⟩, fun r'' res'' p'' cells'' ws'' _ a1 a2 a3 => hfr r'' res'' p'' cells'' ws'' a1 a2 a3, hnew⟩
    rcases get_set a1 with ⟨_, rfl⟩ | ⟨hne'', a1⟩
    · rename_i h4
      simp only [Option.some.injEq] at a2
      subst a2
      refine ⟨_, _, hnew, fun c hc => ?_, fun _ h hh r3 res3 p3 cells3 ws3 b1 b2 b3 b4 => ?_⟩
      · rcases List.mem_cons.1 hc with rfl | hc'
        · exact k4
        · intro hf
          obtain ⟨c3, w3, f1, f2, _⟩ := h3 r' res p hr hp
          obtain ⟨rfl, rfl⟩ := f1.unique hcc
          exact f2 c hc' (k3 c hf)
      · injection hh with hh
        subst hh
        rcases get_set b2 with ⟨h', _⟩ | ⟨_, b2⟩
        · exact absurd h' (h4 ▸ b1)
        · obtain ⟨c3, w3, f1, _, _⟩ := h3 r3 res3 p3 b2 b3
          obtain ⟨rfl, rfl⟩ := b4.unique (hfr r3 res3 p3 c3 w3 b2 b3 f1)
          exact hnot r3 res3 p3 _ _ b2 b3 f1
    · obtain ⟨c3, w3, f1, f2, f3⟩ := h3 r'' res'' p'' a1 a2
      refine ⟨c3, w3, hfr r'' res'' p'' c3 w3 a1 a2 f1, fun c hc hf => f2 c hc (k3 c hf), fun hP h hh r3 res3 p3 cells3 ws3 b1 b2 b3 b4 => ?_⟩
      rcases get_set b2 with ⟨h', rfl⟩ | ⟨_, b2⟩
      · simp only [Option.some.injEq] at b3
        subst b3
        obtain ⟨rfl, rfl⟩ := b4.unique hnew
        rw [List.mem_cons, not_or]
        refine ⟨fun h' => ?_, f3 hP h hh r' res p cells ws ?_ hr hp hc⟩
        · subst hh
          have hh2 := hnot r'' res'' _ _ _ a1 a2 f1
          cases f1
          exact hh2 (by rw [h']; exact List.mem_cons_self)
        · exact fun h => hPr (h ▸ hP)
      · obtain ⟨c4, w4, g1, _, _⟩ := h3 r3 res3 p3 b2 b3
        obtain ⟨rfl, rfl⟩ := b4.unique (hfr r3 res3 p3 c4 w4 b2 b3 g1)
        exact f3 hP h hh r3 res3 p3 _ _ b1 b2 b3 g1
  unfold alloc
  cases hu : st.unused with
  | none =>
    refine ⟨st.bps ++ [⟨word, p⟩], none, st.bps.length, rfl, ?_⟩
    refine key _ _ _ [] [] .nil List.nodup_nil (by simp) (by simp) (by simp) ?_ (by omega)
    intro c _ hc
    rw [List.getElem?_append_left hc]
  | some i =>
    rw [hu] at h1
    cases h1 with
    | @cons _ bp free' wsf' e1 e2 =>
      have hi := (List.getElem?_eq_some_iff.1 e1).1
      have hif := (List.nodup_cons.1 h2).1
      refine ⟨st.bps.set i ⟨word, p⟩, bp.next, i, by simp only [e1]; rfl, ?_⟩
      refine key _ _ _ free' wsf' (e2.frame (fun c hc => set_ne (fun h => hif (h ▸ hc)))) (List.nodup_cons.1 h2).2
        (fun c hc => List.mem_cons_of_mem _ hc) hif (set_eq hi) (fun c hc _ => set_ne hc) (fun _ => List.mem_cons_self)

end Verif.WordWrap
