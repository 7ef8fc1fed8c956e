import Verif.KdTree.Model
import Verif.KdTree.Spec
import Mathlib.Tactic.Ring
import Mathlib.Algebra.Order.Ring.Defs
/-!
Lemmas about sorting of points.
-/
namespace Verif.KdTree
open Spec

variable {P R : Type} [LinearOrder R] {env : Env P R}

/-- A part of a sequence. -/
def seg (arr : List P) (a b : Nat) : List P := (arr.take b).drop a

theorem seg_length {arr : List P} {a b : Nat} (hb : b ≤ arr.length) : (seg arr a b).length = b - a := by
  unfold seg; rw [List.length_drop, List.length_take]; omega

theorem seg_getElem? {arr : List P} {a b i : Nat} : (seg arr a b)[i]? = if a + i < b then arr[a + i]? else none := by
  unfold seg
  rw [List.getElem?_drop, List.getElem?_take]

theorem mem_seg {arr : List P} {a b : Nat} {p : P} : p ∈ seg arr a b ↔ ∃ i, a ≤ i ∧ i < b ∧ arr[i]? = some p := by
  rw [List.mem_iff_getElem?]
  constructor
  · rintro ⟨i, h⟩
    rw [seg_getElem?] at h
    split at h
    · exact ⟨a + i, by omega, by omega, h⟩
    · cases h
  · rintro ⟨i, h1, h2, h3⟩
    refine ⟨i - a, ?_⟩
    rw [seg_getElem?, if_pos (by omega), show a + (i - a) = i by omega, h3]

theorem seg_split {arr : List P} {a c b : Nat} {p : P} (h1 : a ≤ c) (h2 : c < b) (h3 : arr[c]? = some p) :
    seg arr a b = seg arr a c ++ p :: seg arr (c + 1) b := by
  have hlt := (List.getElem?_eq_some_iff.1 h3).1
  apply List.ext_getElem?
  intro i
  rw [seg_getElem?, List.getElem?_append, seg_length (by omega)]
  by_cases hi : i < c - a
  · rw [if_pos hi, seg_getElem?, if_pos (by omega), if_pos (by omega)]
  · rw [if_neg hi, List.getElem?_cons]
    by_cases hi0 : i - (c - a) = 0
    · rw [if_pos hi0, if_pos (by omega), show a + i = c by omega, h3]
    · rw [if_neg hi0, seg_getElem?, show c + 1 + (i - (c - a) - 1) = a + i by omega]

theorem mid_facts {a b : Nat} (h : a < b) : a ≤ midpoint a b ∧ midpoint a b < b ∧ 2 * (midpoint a b - a) ≤ b - a ∧
    2 * (b - (midpoint a b + 1)) ≤ b - a ∧ (midpoint a b - a = b - (midpoint a b + 1) ∨ midpoint a b - a + 1 = b - (midpoint a b + 1)) := by
  unfold midpoint; omega

theorem organized_length {k : Nat} {comp : P → Nat → R} {dim : Nat} {l : List P} (h : Organized k comp dim l) (hl : l ≠ []) :
    ∃ left root right, l = left ++ root :: right ∧ left.length = (l.length - 1) / 2 ∧
      (∀ p ∈ left, comp p dim ≤ comp root dim) ∧ (∀ p ∈ right, comp root dim ≤ comp p dim) ∧
      Organized k comp ((dim + 1) % k) left ∧ Organized k comp ((dim + 1) % k) right := by
  cases h with
  | empty => exact absurd rfl hl
  | node _ left right root h1 h2 h3 h4 h5 =>
    refine ⟨left, root, right, rfl, ?_, h2, h3, h4, h5⟩
    simp only [List.length_append, List.length_cons]; omega

/-- The order in a part of a sequence that is organized. -/
theorem organized_split {arr : List P} {dim a b : Nat} (h : Organized env.k env.comp dim (seg arr a b)) (hab : a < b) (hb : b ≤ arr.length) :
    ∃ p, arr[midpoint a b]? = some p ∧ (∀ x ∈ seg arr a (midpoint a b), env.comp x dim ≤ env.comp p dim) ∧
      (∀ x ∈ seg arr (midpoint a b + 1) b, env.comp p dim ≤ env.comp x dim) ∧
      Organized env.k env.comp ((dim + 1) % env.k) (seg arr a (midpoint a b)) ∧
      Organized env.k env.comp ((dim + 1) % env.k) (seg arr (midpoint a b + 1) b) := by
  obtain ⟨m1, m2, m3, m4, m5⟩ := mid_facts hab
  have hlt : midpoint a b < arr.length := by omega
  refine ⟨arr[midpoint a b], List.getElem?_eq_getElem hlt, ?_⟩
  have hs := seg_split m1 m2 (List.getElem?_eq_getElem hlt)
  have hl := seg_length (a := a) hb
  obtain ⟨left, root, right, h1, h2, h3, h4, h5, h6⟩ := organized_length h (by intro h0; rw [h0] at hl; simp at hl; omega)
  rw [hl] at h2
  rw [hs] at h1
  have hll : (seg arr a (midpoint a b)).length = left.length := by
    rw [seg_length (by omega), h2]; unfold midpoint; omega
  obtain ⟨e1, e2⟩ := List.append_inj h1 hll
  injection e2 with e2 e3
  rw [e1, e2, e3]
  exact ⟨h3, h4, h5, h6⟩

/-! ### Sorting -/

/-- The sequences are the same outside of a range, and the same up to order inside. -/
structure Same (a b : Nat) (arr arr' : List P) : Prop where
  length : arr'.length = arr.length
  outside : ∀ i, i < a ∨ b ≤ i → arr'[i]? = arr[i]?
  inside : (seg arr' a b).Perm (seg arr a b)

theorem Same.refl (a b : Nat) (arr : List P) : Same a b arr arr := ⟨rfl, fun _ _ => rfl, .refl _⟩

theorem seg_congr {arr arr' : List P} {a b : Nat} (h : ∀ i, a ≤ i → i < b → arr'[i]? = arr[i]?) : seg arr' a b = seg arr a b := by
  apply List.ext_getElem?
  intro i
  rw [seg_getElem?, seg_getElem?]
  split
  · exact h _ (by omega) (by omega)
  · rfl

theorem Same.trans {a b : Nat} {x y z : List P} (h1 : Same a b x y) (h2 : Same a b y z) : Same a b x z :=
  ⟨h2.length.trans h1.length, fun i hi => (h2.outside i hi).trans (h1.outside i hi), h2.inside.trans h1.inside⟩

theorem seg_append {arr : List P} {a c b : Nat} (h1 : a ≤ c) (h2 : c ≤ b) (h3 : b ≤ arr.length) : seg arr a b = seg arr a c ++ seg arr c b := by
  apply List.ext_getElem?
  intro i
  rw [seg_getElem?, List.getElem?_append, seg_length (by omega), seg_getElem?, seg_getElem?]
  by_cases hi : i < c - a
  · rw [if_pos hi, if_pos (by omega), if_pos (by omega)]
  · rw [if_neg hi, show c + (i - (c - a)) = a + i by omega]

/-- A change inside a smaller range is a change inside a larger range. -/
theorem Same.mono {a b a' b' : Nat} {x y : List P} (h : Same a b x y) (h1 : a' ≤ a) (h2 : a ≤ b) (h3 : b ≤ b') (h4 : b' ≤ x.length) :
    Same a' b' x y := by
  refine ⟨h.length, fun i hi => h.outside i (by omega), ?_⟩
  have hy := h.length
  rw [seg_append (c := a) (arr := x) h1 (by omega) h4, seg_append (c := a) (arr := y) h1 (by omega) (by omega),
    seg_append (c := b) (arr := x) h2 h3 h4, seg_append (c := b) (arr := y) h2 h3 (by omega),
    seg_congr (arr' := y) (arr := x) (a := a') (b := a) (fun i _ hi => h.outside i (by omega)),
    seg_congr (arr' := y) (arr := x) (a := b) (b := b') (fun i hi _ => h.outside i (by omega))]
  exact (h.inside.append_right _).append_left _

theorem nthElement_spec {nth : Nat → Nat → Nat → List P → List P}
    (hn : ∀ call dim n l, n < l.length → NthElement env.comp dim n l (nth call dim n l)) {call dim : Nat} {arr : List P} {a c b : Nat}
    (h1 : a ≤ c) (h2 : c < b) (h3 : b ≤ arr.length) :
    Same a b arr (nthElement nth call dim arr a c b) ∧ ∃ p, (nthElement nth call dim arr a c b)[c]? = some p ∧
      (∀ x ∈ seg (nthElement nth call dim arr a c b) a c, env.comp x dim ≤ env.comp p dim) ∧
      (∀ x ∈ seg (nthElement nth call dim arr a c b) (c + 1) b, env.comp p dim ≤ env.comp x dim) := by
  have hsl := seg_length (a := a) h3
  obtain ⟨hp, before, p, after, e1, e2, e3, e4⟩ := hn call dim (c - a) (seg arr a b) (by omega)
  unfold nthElement
  rw [show (arr.take b).drop a = seg arr a b from rfl]
  generalize nth call dim (c - a) (seg arr a b) = res at *
  have hrl : res.length = b - a := by rw [hp.length_eq, hsl]
  have htl : (arr.take a).length = a := by rw [List.length_take]; omega
  have hget : ∀ i, (arr.take a ++ res ++ arr.drop b)[i]? = if i < a then arr[i]? else if i < b then res[i - a]? else arr[i]? := by
    intro i
    rw [List.append_assoc, List.getElem?_append, htl]
    by_cases hi : i < a
    · rw [if_pos hi, if_pos hi, List.getElem?_take, if_pos hi]
    · rw [if_neg hi, if_neg hi, List.getElem?_append, hrl]
      by_cases hi2 : i < b
      · rw [if_pos hi2, if_pos (by omega)]
      · rw [if_neg hi2, if_neg (by omega), List.getElem?_drop]
        congr 1; omega
  have hlen : (arr.take a ++ res ++ arr.drop b).length = arr.length := by
    simp only [List.length_append, htl, hrl, List.length_drop]; omega
  generalize arr.take a ++ res ++ arr.drop b = out at *
  have hseg : seg out a b = res := by
    apply List.ext_getElem?
    intro i
    rw [seg_getElem?, hget]
    by_cases hi : a + i < b
    · rw [if_pos hi, if_neg (by omega), if_pos hi]; congr 1; omega
    · rw [if_neg hi, List.getElem?_eq_none (by omega)]
  refine ⟨⟨hlen, fun i hi => ?_, by rw [hseg]; exact hp⟩, p, ?_, ?_, ?_⟩
  · rw [hget]
    by_cases hi2 : i < a
    · rw [if_pos hi2]
    · rw [if_neg hi2, if_neg (by omega)]
  · rw [hget, if_neg (by omega), if_pos h2, e1, ← e2]; simp
  · intro x hx
    obtain ⟨i, g1, g2, g3⟩ := mem_seg.1 hx
    rw [hget, if_neg (by omega), if_pos (by omega), e1, List.getElem?_append_left (by omega)] at g3
    exact not_lt.1 (e3 x (List.mem_of_getElem? g3))
  · intro x hx
    obtain ⟨i, g1, g2, g3⟩ := mem_seg.1 hx
    rw [hget, if_neg (by omega), if_pos (by omega), e1, List.getElem?_append_right (by omega),
      show i - a - before.length = (i - a - before.length - 1) + 1 by omega, List.getElem?_cons_succ] at g3
    exact not_lt.1 (e4 x (List.mem_of_getElem? g3))

theorem combine {a c b dim : Nat} {x y z w : List P} (h1 : a ≤ c) (h2 : c < b) (h3 : b ≤ x.length)
    (hbal : c - a = b - (c + 1) ∨ c - a + 1 = b - (c + 1)) (hx : Same a b x y) {p : P} (hp : y[c]? = some p)
    (hl : ∀ x ∈ seg y a c, env.comp x dim ≤ env.comp p dim) (hr : ∀ x ∈ seg y (c + 1) b, env.comp p dim ≤ env.comp x dim)
    (hy : Same a c y z) (ho1 : Organized env.k env.comp ((dim + 1) % env.k) (seg z a c))
    (hz : Same (c + 1) b z w) (ho2 : Organized env.k env.comp ((dim + 1) % env.k) (seg w (c + 1) b)) :
    Same a b x w ∧ Organized env.k env.comp dim (seg w a b) := by
  have l1 := hx.length
  have l2 := hy.length
  have l3 := hz.length
  constructor
  · exact hx.trans ((hy.mono (Nat.le_refl _) h1 (by omega) (by omega)).trans (hz.mono (by omega) (by omega) (Nat.le_refl _) (by omega)))
  · have hwc : w[c]? = some p := by rw [hz.outside c (by omega), hy.outside c (by omega), hp]
    have hwl : seg w a c = seg z a c := seg_congr (fun i _ hi => hz.outside i (by omega))
    have hwr : seg z (c + 1) b = seg y (c + 1) b := seg_congr (fun i hi _ => hy.outside i (by omega))
    rw [seg_split h1 h2 hwc]
    refine .node dim _ _ p ?_ ?_ ?_ (by rw [hwl]; exact ho1) ho2
    · rw [seg_length (by omega), seg_length (by omega)]; exact hbal
    · intro q hq
      rw [hwl] at hq
      exact hl q (hy.inside.subset hq)
    · intro q hq
      have := hz.inside.subset hq
      rw [hwr] at this
      exact hr q this

/-- What happens when there is nothing to be done in the left part. -/
def pop (env : Env P R) (nth : Nat → Nat → Nat → List P → List P) (fuel call : Nat) (arr : List P) : List Range → Option (List P)
  | [] => some arr
  | r :: rs => do sortLoop env nth fuel call arr ⟨← nextDim env r.dim, r.first, r.last⟩ rs

theorem two_pow_lt {p L n : Nat} (h : n * 2 ^ p < 2 ^ L) (hn : 2 ≤ n) : p < L := by
  by_contra hp
  have : 2 ^ L ≤ 2 ^ p := Nat.pow_le_pow_right (by omega) (by omega)
  have : 1 * 2 ^ p ≤ n * 2 ^ p := Nat.mul_le_mul_right _ (by omega)
  omega

theorem half_pow {m n p L : Nat} (h : n * 2 ^ p < 2 ^ L) (hm : 2 * m ≤ n) : m * 2 ^ (p + 1) < 2 ^ L := by
  have : m * 2 ^ (p + 1) = (2 * m) * 2 ^ p := by ring
  have : (2 * m) * 2 ^ p ≤ n * 2 ^ p := Nat.mul_le_mul_right _ hm
  omega

theorem le_pow {m n p L : Nat} (h : n * 2 ^ p < 2 ^ L) (hm : m ≤ n) : m * 2 ^ p < 2 ^ L := by
  have : m * 2 ^ p ≤ n * 2 ^ p := Nat.mul_le_mul_right _ hm
  omega

theorem sortLoop_spec {nth : Nat → Nat → Nat → List P → List P} (hk : env.k ≠ 0)
    (hn : ∀ call dim n l, n < l.length → NthElement env.comp dim n l (nth call dim n l)) (n : Nat) :
    ∀ (a b dim call fuel : Nat) (arr : List P) (pending : List Range), b - a = n → a < b → b ≤ arr.length →
    n * 2 ^ pending.length < 2 ^ env.maxLevels →
    ∃ arr', Same a b arr arr' ∧ Organized env.k env.comp dim (seg arr' a b) ∧
      sortLoop env nth (fuel + n) call arr ⟨dim, a, b⟩ pending = pop env nth fuel (call + n) arr' pending := by
  induction n using Nat.strong_induction_on with
  | _ n ih =>
    intro a b dim call fuel arr pending hn1 hab hb hL
    obtain ⟨m1, m2, m3, m4, m5⟩ := mid_facts hab
    obtain ⟨s1, p, s2, s3, s4⟩ := nthElement_spec hn (call := call) (dim := dim) m1 m2 hb
    obtain ⟨m, rfl⟩ : ∃ m, n = m + 1 := ⟨n - 1, by omega⟩
    rw [show fuel + (m + 1) = (fuel + m) + 1 by omega, sortLoop, if_pos hab]
    simp only
    generalize midpoint a b = c at *
    generalize nthElement nth call dim arr a c b = arr1 at *
    have hl1 := s1.length
    have hnd : ∀ d, nextDim env d = some ((d + 1) % env.k) := fun d => by rw [nextDim, if_neg hk]
    by_cases hac : a < c
    · have hdb : c + 1 < b := by omega
      rw [push, if_pos hdb, if_pos (two_pow_lt hL (by omega))]
      simp only [Option.bind_eq_bind, Option.bind_some]
      rw [if_pos hac, hnd]
      simp only [Option.bind_some]
      obtain ⟨arr2, q1, q2, q3⟩ := ih (c - a) (by omega) a c ((dim + 1) % env.k) (call + 1) (fuel + (b - (c + 1))) arr1
        (⟨dim, c + 1, b⟩ :: pending) rfl hac (by omega) (by
          rw [List.length_cons]; exact half_pow hL (by omega))
      have hl2 := q1.length
      obtain ⟨arr3, r1, r2, r3⟩ := ih (b - (c + 1)) (by omega) (c + 1) b ((dim + 1) % env.k) (call + 1 + (c - a)) fuel arr2
        pending rfl hdb (by omega) (le_pow hL (by omega))
      obtain ⟨t1, t2⟩ := combine m1 m2 hb m5 s1 s2 s3 s4 q1 q2 r1 r2
      refine ⟨arr3, t1, t2, ?_⟩
      rw [show fuel + m = fuel + (b - (c + 1)) + (c - a) by omega, q3, pop, hnd]
      simp only [Option.bind_eq_bind, Option.bind_some]
      rw [r3, show call + 1 + (c - a) + (b - (c + 1)) = call + (m + 1) by omega]
    · have hca : c = a := by omega
      have hemp : seg arr1 a c = [] := by
        rw [hca]; unfold seg; exact List.drop_of_length_le (by rw [List.length_take]; omega)
      by_cases hdb : c + 1 < b
      · rw [push, if_pos hdb, if_pos (two_pow_lt hL (by omega))]
        simp only [Option.bind_eq_bind, Option.bind_some]
        rw [if_neg hac, hnd]
        simp only [Option.bind_some]
        obtain ⟨arr3, r1, r2, r3⟩ := ih (b - (c + 1)) (by omega) (c + 1) b ((dim + 1) % env.k) (call + 1) fuel arr1
          pending rfl hdb (by omega) (le_pow hL (by omega))
        obtain ⟨t1, t2⟩ := combine m1 m2 hb m5 s1 s2 s3 s4 (.refl ..) (by rw [hemp]; exact .empty _) r1 r2
        refine ⟨arr3, t1, t2, ?_⟩
        rw [show fuel + m = fuel + (b - (c + 1)) by omega, r3, show call + 1 + (b - (c + 1)) = call + (m + 1) by omega]
      · have hemp2 : seg arr1 (c + 1) b = [] := by
          unfold seg; exact List.drop_of_length_le (by rw [List.length_take]; omega)
        rw [push, if_neg hdb]
        simp only [Option.bind_eq_bind, Option.bind_some]
        rw [if_neg hac]
        obtain ⟨t1, t2⟩ := combine m1 m2 hb m5 s1 s2 s3 s4 (.refl ..) (by rw [hemp]; exact .empty _) (.refl ..) (by rw [hemp2]; exact .empty _)
        refine ⟨arr1, t1, t2, ?_⟩
        have : m = 0 := by omega
        subst this
        cases pending <;> rfl

end Verif.KdTree
