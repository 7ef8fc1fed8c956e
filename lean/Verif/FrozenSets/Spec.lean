import Verif.FrozenSets.Model
/-!
Specification of frozen sets: histories of operations, and what each identity stands for.
-/
namespace Verif.FrozenSets.Spec
open Verif.Buffer (Err Res)
variable {T : Type} [LinearOrder T]

/-- `c` is the list, in increasing order, of the elements with property `P`. -/
def Lists (P : T → Prop) (c : List T) : Prop := c.Pairwise (· < ·) ∧ ∀ x, x ∈ c ↔ P x

/-- A history of operations that leads to storage `es`, with identities that are in use, and the contents that each of
them is supposed to have. Operands are identities that are in use. When `strict`, no two sets that are united have equal
contents (except when the second operand is specified as an ordered sequence). -/
inductive Hist (d : T) (strict : Prop) : List T → List (Ident × List T) → Prop
  | start : Hist d strict [] [(⟨0, 0⟩, [])]  -- with the default constructed identity
  | freezeUnordered {es live} (xs c) : Hist d strict es live → Lists (· ∈ xs) c →
      Hist d strict (freezeUnordered es xs).1 (((freezeUnordered es xs).2, c) :: live)
  | freezeOrdered {es live} (xs) : Hist d strict es live → xs.Pairwise (· < ·) →
      Hist d strict (freezeOrdered es xs).1 (((freezeOrdered es xs).2, xs) :: live)
  | unite {es live es' i j k a b} (c) : Hist d strict es live → (i, a) ∈ live → (j, b) ∈ live →
      (strict → a ≠ b) → unite d es i j = .ok (es', k) → Lists (fun x => x ∈ a ∨ x ∈ b) c →
      Hist d strict es' ((k, c) :: live)
  | uniteOrdered {es live es' i k a} (ys c) : Hist d strict es live → (i, a) ∈ live → ys.Pairwise (· < ·) →
      uniteOrdered d es i ys = .ok (es', k) → Lists (fun x => x ∈ a ∨ x ∈ ys) c →
      Hist d strict es' ((k, c) :: live)
  | uniteUnordered {es live es' i k a} (xs c) : Hist d strict es live → (i, a) ∈ live →
      (strict → ¬ ∀ x, x ∈ a ↔ x ∈ xs) → uniteUnordered d es i xs = .ok (es', k) →
      Lists (fun x => x ∈ a ∨ x ∈ xs) c → Hist d strict es' ((k, c) :: live)
  | discardFrom {es live es' i a} : Hist d strict es live → (i, a) ∈ live → discardFrom d es i = .ok es' →
      Hist d strict es' (live.filter fun p => p.1.e ≤ i.b)
  | clear {es live} : Hist d strict es live → Hist d strict [] [(⟨0, 0⟩, [])]

end Verif.FrozenSets.Spec
