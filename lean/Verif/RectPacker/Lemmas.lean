import Verif.RectPacker.Model
import Verif.RectPacker.Spec
import Mathlib.Tactic.Ring
/-!
Lemmas about packing of rectangles.
-/
namespace Verif.RectPacker
open Spec

def Node.area (n : Node) : Area := ⟨n.x, n.y, n.w, n.h⟩
def Rect.area (r : Rect) : Area := ⟨r.x, r.y, r.w, r.h⟩
def Root.area (r : Root) : Area := ⟨r.x, r.y, r.w, r.h⟩

theorem apart_symm {s : Int} {a b : Area} (h : Area.apart s a b) : Area.apart s b a := by
  unfold Area.apart at *; omega

theorem apart_mono {s : Int} {a a' b : Area} (h : Area.apart s a b) (hi : a'.inside a) : Area.apart s a' b := by
  unfold Area.apart Area.inside at *; omega

theorem inside_trans {a b c : Area} (h : a.inside b) (h' : b.inside c) : a.inside c := by
  unfold Area.inside at *; omega

theorem inside_refl {a : Area} : a.inside a := by unfold Area.inside; omega

/-- What is known about the nodes. The function tells which bin a node belongs to. -/
structure NodesOk (root : Root) (spacing : Int) (g : Nat → Nat) (numBins : Nat) (nodes : List Node) : Prop where
  bin : ∀ (i : Nat) (n : Node), nodes[i]? = some n → g i < numBins
  size : ∀ (i : Nat) (n : Node), nodes[i]? = some n → 0 ≤ n.w ∧ 0 ≤ n.h
  inside : ∀ (i : Nat) (n : Node), nodes[i]? = some n → n.area.inside root.area
  right : ∀ (i : Nat) (n : Node), nodes[i]? = some n → ∀ r, n.right = some r → i < r ∧ r < nodes.length ∧ g r = g i
  down : ∀ (i : Nat) (n : Node), nodes[i]? = some n → ∀ r, n.down = some r → i < r ∧ r < nodes.length ∧ g r = g i
  apart : ∀ (i j : Nat) (n m : Node), nodes[i]? = some n → nodes[j]? = some m → i ≠ j → g i = g j →
    n.occupied = false → m.occupied = false → n.area.apart spacing m.area

/-- What is known about the bins and the rectangles that have been placed. -/
structure Inv (root : Root) (sizes : List (Int × Int)) (g : Nat → Nat) (done : List Nat) (st : State) : Prop where
  nodes : NodesOk root st.spacing g st.bins.length st.nodes
  sizes : st.rects.map (fun r => (r.w, r.h)) = sizes
  start : ∀ (b : Nat) (bin : Bin), st.bins[b]? = some bin → bin.root < st.nodes.length ∧ g bin.root = b
  bin : ∀ (k : Nat) (r : Rect), k ∈ done → st.rects[k]? = some r → r.bin < st.bins.length
  inside : ∀ (k : Nat) (r : Rect), k ∈ done → st.rects[k]? = some r → r.area.inside root.area
  apart : ∀ (k l : Nat) (r s : Rect), k ∈ done → l ∈ done → st.rects[k]? = some r → st.rects[l]? = some s → k ≠ l → r.bin = s.bin →
    r.area.apart st.spacing s.area
  free : ∀ (k i : Nat) (r : Rect) (n : Node), k ∈ done → st.rects[k]? = some r → st.nodes[i]? = some n → n.occupied = false → r.bin = g i →
    r.area.apart st.spacing n.area
  maxX : ∀ (b : Nat) (bin : Bin), st.bins[b]? = some bin → root.x ≤ bin.maxX ∧ bin.maxX ≤ root.x + root.w ∧
    (∀ (k : Nat) (r : Rect), k ∈ done → st.rects[k]? = some r → r.bin = b → r.x + r.w ≤ bin.maxX) ∧
    (bin.maxX = root.x ∨ ∃ (k : Nat) (r : Rect), k ∈ done ∧ st.rects[k]? = some r ∧ r.bin = b ∧ r.x + r.w = bin.maxX)
  maxY : ∀ (b : Nat) (bin : Bin), st.bins[b]? = some bin → root.y ≤ bin.maxY ∧ bin.maxY ≤ root.y + root.h ∧
    (∀ (k : Nat) (r : Rect), k ∈ done → st.rects[k]? = some r → r.bin = b → r.y + r.h ≤ bin.maxY) ∧
    (bin.maxY = root.y ∨ ∃ (k : Nat) (r : Rect), k ∈ done ∧ st.rects[k]? = some r ∧ r.bin = b ∧ r.y + r.h = bin.maxY)

/-- A bound on the number of nodes to be visited. -/
def weight (n : Nat) : List Nat → Nat
  | [] => 0
  | i :: is => (2 ^ (n - i) - 1) + weight n is

theorem weight_child {n i r : Nat} (h : i < r) (hr : r < n) : 2 * 2 ^ (n - r) ≤ 2 ^ (n - i) := by
  have : n - i = (n - i - 1) + 1 := by omega
  rw [this, Nat.pow_succ, Nat.mul_comm]
  exact Nat.mul_le_mul_right _ (Nat.pow_le_pow_right (by omega) (by omega))

section
variable {root : Root} {spacing : Int} {g : Nat → Nat} {numBins : Nat} {nodes : List Node}

theorem search_spec (ok : NodesOk root spacing g numBins nodes) (w h : Int) (b : Nat) (fuel : Nat) :
    ∀ i stack, i < nodes.length → g i = b → (∀ j ∈ stack, j < nodes.length ∧ g j = b) → weight nodes.length (i :: stack) < fuel →
    ∃ res, search nodes w h fuel i stack = some res ∧
      ∀ j, res = some j → ∃ node, nodes[j]? = some node ∧ node.occupied = false ∧ w ≤ node.w ∧ h ≤ node.h ∧ g j = b := by
  induction fuel with
  | zero => intro i stack _ _ _ h; omega
  | succ fuel ih =>
    intro i stack hi hg hstack hw
    have hpos : ∀ j, j < nodes.length → 2 ≤ 2 ^ (nodes.length - j) := fun j hj => by
      calc 2 = 2 ^ 1 := rfl
        _ ≤ _ := Nat.pow_le_pow_right (by omega) (by omega)
    have hi2 := hpos i hi
    have hnode : nodes[i]? = some nodes[i] := List.getElem?_eq_getElem hi
    generalize nodes[i] = node at hnode
    rw [weight] at hw
    have hback : ∀ stack' : List Nat, (∀ j ∈ stack', j < nodes.length ∧ g j = b) → weight nodes.length stack' < fuel →
        ∃ res, back (search nodes w h fuel) stack' = some res ∧
          ∀ j, res = some j → ∃ node, nodes[j]? = some node ∧ node.occupied = false ∧ w ≤ node.w ∧ h ≤ node.h ∧ g j = b := by
      intro stack' h1 h2
      cases stack' with
      | nil => exact ⟨none, rfl, fun j hj => by cases hj⟩
      | cons j rest => exact ih j rest (h1 j List.mem_cons_self).1 (h1 j List.mem_cons_self).2 (fun k hk => h1 k (List.mem_cons_of_mem _ hk)) h2
    rw [search, hnode]
    simp only [Option.bind_eq_bind, Option.bind_some]
    by_cases ho : node.occupied = false
    · rw [if_pos (by simp [ho])]
      by_cases hf : w ≤ node.w ∧ h ≤ node.h
      · rw [if_pos hf]
        exact ⟨_, rfl, fun j hj => by injection hj with hj; subst hj; exact ⟨node, hnode, ho, hf.1, hf.2, hg⟩⟩
      · rw [if_neg hf]
        exact hback stack hstack (by omega)
    · rw [if_neg (by simpa using ho)]
      have key : ∀ stack' : List Nat, (∀ j ∈ stack', j < nodes.length ∧ g j = b) →
          2 * weight nodes.length stack' + 1 ≤ 2 * weight nodes.length stack + 2 ^ (nodes.length - i) →
          ∃ res, (match node.right with
            | some r => search nodes w h fuel r stack'
            | none => back (search nodes w h fuel) stack') = some res ∧
          ∀ j, res = some j → ∃ node, nodes[j]? = some node ∧ node.occupied = false ∧ w ≤ node.w ∧ h ≤ node.h ∧ g j = b := by
        intro stack' h1 h2
        cases hr : node.right with
        | none => exact hback stack' h1 (by omega)
        | some r =>
          obtain ⟨r1, r2, r3⟩ := ok.right i node hnode r hr
          have := weight_child r1 r2
          have := hpos r r2
          exact ih r stack' r2 (by rw [r3, hg]) h1 (by rw [weight]; omega)
      cases hd : node.down with
      | none => exact key stack hstack (by omega)
      | some d =>
        obtain ⟨d1, d2, d3⟩ := ok.down i node hnode d hd
        have := weight_child d1 d2
        refine key (d :: stack) (fun j hj => ?_) (by rw [weight]; have := hpos d d2; omega)
        rcases List.mem_cons.1 hj with rfl | hj
        · exact ⟨d2, by rw [d3, hg]⟩
        · exact hstack j hj

end

end Verif.RectPacker
