import Verif.SeedSeq.Main
import Verif.SeedSeq.MoveSpec
/-!
Generation of seeds (C71), and moving of seed sequences (C72).
-/
namespace Verif.SeedSeq
open Verif.MulPrec

/-- The generated integers are those that are generated by the algorithm of `std::seed_seq`, regardless of how the initial seed sequence is
distributed over memory, and of the widths of the types. -/
theorem C71_generate (W B n : Nat) (hW : 32 ≤ W) (hB : 32 ≤ B) (seqs : List (List Nat))
    (hs : max (seqs.flatten.length + 1) n + 2 * n ≤ 2 ^ B) : generate ⟨W, B, n⟩ seqs = some (Spec.generate n seqs.flatten) :=
  generate_spec (e := ⟨W, B, n⟩) hW hB hs

/-- The whole destination is filled with 32-bit integers. -/
theorem C71_range (W B n : Nat) (hW : 32 ≤ W) (hB : 32 ≤ B) (seqs : List (List Nat))
    (hs : max (seqs.flatten.length + 1) n + 2 * n ≤ 2 ^ B) :
    ∃ r, generate ⟨W, B, n⟩ seqs = some r ∧ r.length = n ∧ ∀ x ∈ r, x < 2 ^ 32 := by
  refine ⟨_, C71_generate W B n hW hB seqs hs, ?_⟩
  have hb0 : Good n (List.replicate n 0x8b8b8b8b) := ⟨List.length_replicate, fun x hx => by rw [(List.mem_replicate.1 hx).2]; norm_num⟩
  exact run_good (n := n) (fun k b => second_good (k := max (seqs.flatten.length + 1) n + k)) (run_good (fun k b => first_good (k := k)) hb0 _) _

/-- The result does not depend on how the initial seed sequence is split. -/
theorem C71_split (W B n : Nat) (hW : 32 ≤ W) (hB : 32 ≤ B) (seqs seqs' : List (List Nat)) (h : seqs.flatten = seqs'.flatten)
    (hs : max (seqs.flatten.length + 1) n + 2 * n ≤ 2 ^ B) : generate ⟨W, B, n⟩ seqs = generate ⟨W, B, n⟩ seqs' := by
  rw [C71_generate W B n hW hB seqs hs, C71_generate W B n hW hB seqs' (h ▸ hs), h]

/-- The values that are produced by libstdc++ for the seed 1, 2, 3, 4, 5. -/
example : generate ⟨32, 64, 4⟩ [[1, 2], [], [3, 4, 5]] = some (Spec.generate 4 [1, 2, 3, 4, 5]) ∧
    (Spec.generate 4 [1, 2, 3, 4, 5]).foldl (fun h x => (h * 31 + x) % 2 ^ 32) 0 = 1109502299 := by decide +kernel

example : generate ⟨64, 64, 9⟩ [] = generate ⟨32, 32, 9⟩ [[], []] := by decide +kernel

/-- The represented object is well formed. -/
def WF (o : Obj) (v : List Nat) (single : Bool) : Prop :=
  o.param = v ∧ (o.seqs = none ↔ single = true) ∧ (o.seqs ≠ none → o.owner = false ∧ o.seq = [])

theorem WF_default : WF .default [] false := by simp [WF, Obj.default, Obj.param]

theorem moveInit_spec {a b : Obj} {u v : List Nat} {x y : Bool} (ha : WF a u x) (hb : WF b v y) (h : x = true → y = true) :
    ∃ a' b', Obj.moveInit a b = some (a', b') ∧ WF a' v y ∧ WF b' [] false := by
  obtain ⟨h1, h2, h3⟩ := hb
  unfold Obj.moveInit
  cases hs : b.seqs with
  | none =>
    refine ⟨_, _, rfl, ⟨?_, ?_, ?_⟩, WF_default⟩
    · rw [← h1]; simp [Obj.param, hs]
    · simp [h2.1 hs]
    · simp
  | some vs =>
    obtain ⟨g1, g2⟩ := h3 (by simp [hs])
    have hy : y = false := by
      cases y
      · rfl
      · have := h2.2 rfl; rw [hs] at this; cases this
    have hx : x = false := by
      cases x
      · rfl
      · rw [hy] at h; exact absurd (h rfl) (by simp)
    subst hx hy
    have ha3 : a.seqs ≠ none := fun hc => by simpa using ha.2.1.1 hc
    obtain ⟨g3, g4⟩ := ha.2.2 ha3
    dsimp only
    rw [if_pos ⟨g1, g2⟩]
    refine ⟨_, _, rfl, ⟨?_, ?_, ?_⟩, ⟨?_, ?_, ?_⟩⟩
    · rw [← h1]; simp [Obj.param, hs]
    · simp
    · exact fun _ => ⟨g3, g4⟩
    · simp [Obj.param]
    · simp
    · exact fun _ => ⟨g1, g2⟩

/-- What is proved of moving of seed sequences: if an object that has a single seed sequence (copied, or specified directly) is assigned to only from such
objects, and there is no self assignment, the seed sequence is transferred by moving, and no assertion fails. -/
theorem C72_move_partial : ∀ (ops : List Op) (s : Store) (c : Spec.Seeds) (x : Spec.Single), (∀ i, WF (s i) (c i) (x i)) → Spec.Allowed x ops →
    ∃ s', execAll s ops = some s' ∧ ∀ i, (s' i).param = Spec.execAll c ops i
  | [], s, c, x, h, _ => ⟨s, rfl, fun i => (h i).1⟩
  | op :: ops, s, c, x, h, ha => by
    obtain ⟨h1, h2, h3⟩ := ha
    have key : ∃ s1, exec s op = some s1 ∧ ∀ i, WF (s1 i) (Spec.exec c op i) (Spec.execSingle x op i) := by
      cases op with
      | default i =>
        refine ⟨_, rfl, fun k => ?_⟩
        simp only [Spec.exec, Spec.execSingle, Store.put, Spec.put, Spec.single]
        split
        · exact WF_default
        · exact h k
      | copy i v =>
        refine ⟨_, rfl, fun k => ?_⟩
        simp only [Spec.exec, Spec.execSingle, Store.put, Spec.put, Spec.single]
        split
        · unfold Obj.copy
          cases v with
          | nil => simpa using WF_default
          | cons a v => simp [WF, Obj.param]
        · exact h k
      | noCopy i v =>
        refine ⟨_, rfl, fun k => ?_⟩
        simp only [Spec.exec, Spec.execSingle, Store.put, Spec.put, Spec.single]
        split
        · simp [WF, Obj.param, Obj.noCopy]
        · exact h k
      | noCopyA i vs =>
        refine ⟨_, rfl, fun k => ?_⟩
        simp only [Spec.exec, Spec.execSingle, Store.put, Spec.put, Spec.single]
        split
        · simp [WF, Obj.param, Obj.noCopyA]
        · exact h k
      | moveCtor i j =>
        obtain ⟨a', b', e1, e2, e3⟩ := moveInit_spec WF_default (h j) (fun hc => by cases hc)
        refine ⟨_, by rw [exec, if_neg h1, e1]; rfl, fun k => ?_⟩
        simp only [Spec.exec, Spec.execSingle, Store.put, Spec.put, Spec.single]
        split
        · exact e3
        · split
          · exact e2
          · exact h k
      | moveAssign i j =>
        obtain ⟨a', b', e1, e2, e3⟩ := moveInit_spec (h i) (h j) (h2 i j rfl)
        refine ⟨_, by rw [exec, if_neg h1, e1]; rfl, fun k => ?_⟩
        simp only [Spec.exec, Spec.execSingle, Store.put, Spec.put, Spec.single]
        split
        · exact e3
        · split
          · exact e2
          · exact h k
    obtain ⟨s1, e1, e2⟩ := key
    obtain ⟨s', e3, e4⟩ := C72_move_partial ops s1 _ _ e2 h3
    exact ⟨s', by rw [execAll, e1]; exact e3, e4⟩

/-- Initially, all objects are default constructed. -/
def init : Store := fun _ => .default

/-- The program: copy a seed sequence, assign an object that was constructed by `no_copy_a()`, and move it. An assertion fails in the last step. -/
theorem C72_negation : ∃ ops : List Op, (∀ op ∈ ops, Spec.Distinct op) ∧ execAll init ops = none :=
  ⟨[.copy 0 [1, 2], .noCopyA 1 [[3], [4]], .moveAssign 0 1, .moveCtor 2 0], by simp [Spec.Distinct], by rfl⟩

/-- Before the last step, the object has the expected contents, so the failure is in moving it. -/
example : (execAll init [.copy 0 [1, 2], .noCopyA 1 [[3], [4]], .moveAssign 0 1]).map (fun s => (s 0).param) = some [3, 4] := by decide

/-- A program that is covered by `C72_move_partial`. -/
example : ∃ s, execAll init [.copy 0 [1, 2], .noCopy 1 [5], .moveCtor 2 0, .moveAssign 2 1, .noCopyA 3 [[6], [7, 8]], .moveAssign 0 3] = some s ∧
    (s 2).param = [5] ∧ (s 0).param = [6, 7, 8] ∧ (s 1).param = [] := by
  obtain ⟨s, h1, h2⟩ := C72_move_partial [.copy 0 [1, 2], .noCopy 1 [5], .moveCtor 2 0, .moveAssign 2 1, .noCopyA 3 [[6], [7, 8]], .moveAssign 0 3]
    init (fun _ => []) (fun _ => false) (fun _ => WF_default) (by simp [Spec.Allowed, Spec.Distinct, Spec.execSingle, Spec.single])
  exact ⟨s, h1, by rw [h2]; decide, by rw [h2]; decide, by rw [h2]; decide⟩

end Verif.SeedSeq
