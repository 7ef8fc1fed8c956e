import Verif.SeedSeq.Model
import Verif.SeedSeq.Spec
import Verif.MulPrec.Lemmas
import Mathlib.Tactic.Ring
import Mathlib.Tactic.NormNum
/-!
Lemmas about the generation of seeds.
-/
namespace Verif.SeedSeq
open Verif.MulPrec

theorem mod_eq (x : Nat) : mod x = x % 2 ^ 32 := Nat.and_two_pow_sub_one_eq_mod _ _

theorem mod_lt (x : Nat) : mod x < 2 ^ 32 := by rw [mod_eq]; exact Nat.mod_lt _ (by norm_num)

theorem mod_mod {w : Nat} (h : 32 ≤ w) (x : Nat) : x % 2 ^ w % 2 ^ 32 = x % 2 ^ 32 := Nat.mod_mod_of_dvd _ (Nat.pow_dvd_pow 2 h)

theorem xor_lt {x y : Nat} (hx : x < 2 ^ 32) (hy : y < 2 ^ 32) : x ^^^ y < 2 ^ 32 := Nat.xor_lt_two_pow hx hy

/-- The elements are 32-bit integers. -/
def Good (n : Nat) (b : List Nat) : Prop := b.length = n ∧ ∀ x ∈ b, x < 2 ^ 32

theorem rd_some {b : List Nat} {i : Nat} (h : i < b.length) : rd b i = some (b.getD i 0) := by
  simp [rd, h]

theorem wr_some {b : List Nat} {i : Nat} (v : Nat) (h : i < b.length) : wr b i v = some (b.set i v) := by
  simp [wr, h]

theorem Good.getD {n : Nat} {b : List Nat} (h : Good n b) (i : Nat) : b.getD i 0 < 2 ^ 32 := by
  rw [List.getD_eq_getElem?_getD]
  rcases Nat.lt_or_ge i b.length with hi | hi
  · rw [List.getElem?_eq_getElem hi]; exact h.2 _ (List.getElem_mem hi)
  · rw [List.getElem?_eq_none hi]; norm_num

theorem Good.set {n : Nat} {b : List Nat} (h : Good n b) (i : Nat) {v : Nat} (hv : v < 2 ^ 32) : Good n (b.set i v) := by
  refine ⟨by simp [h.1], fun x hx => ?_⟩
  rcases List.mem_or_eq_of_mem_set hx with hx | rfl
  · exact h.2 _ hx
  · exact hv

theorem T_eq {x : Nat} (hx : x < 2 ^ 32) : x ^^^ (mod x >>> 27) = Spec.T x := by
  rw [mod_eq, Nat.mod_eq_of_lt hx]; rfl

/-- A step of the first transformation with the specified number added. -/
def stepA (k extra : Nat) (b : List Nat) : List Nat :=
  let n := b.length
  let r1 := 1664525 * Spec.T (Spec.el b k ^^^ Spec.el b (k + Spec.p n) ^^^ Spec.el b (k + n - 1)) % 2 ^ 32
  let r2 := (r1 + extra) % 2 ^ 32
  let b := Spec.upd b (k + Spec.p n) ((Spec.el b (k + Spec.p n) + r1) % 2 ^ 32)
  let b := Spec.upd b (k + Spec.q n) ((Spec.el b (k + Spec.q n) + r2) % 2 ^ 32)
  Spec.upd b k r2

theorem first_eq (v : List Nat) (k : Nat) (b : List Nat) : Spec.first v k b =
    stepA k (if k = 0 then v.length else if k ≤ v.length then k % b.length + v.getD (k - 1) 0 else k % b.length) b := rfl

theorem el_eq {n : Nat} {b : List Nat} (h : Good n b) (k : Nat) : Spec.el b k = b.getD (k % n) 0 := by rw [Spec.el, h.1]

theorem upd_eq {n : Nat} {b : List Nat} (h : Good n b) (k v : Nat) : Spec.upd b k v = b.set (k % n) v := by rw [Spec.upd, h.1]

theorem upd_good {n : Nat} {b : List Nat} (h : Good n b) (k : Nat) {v : Nat} (hv : v < 2 ^ 32) : Good n (Spec.upd b k v) := by
  rw [upd_eq h]; exact h.set _ hv

theorem idx_eq {e : Env} {k d : Nat} (h : k + d < 2 ^ e.B) : idx e k d = (k + d) % e.n := by rw [idx, Nat.mod_eq_of_lt h]

theorem p_eq (e : Env) : e.p = Spec.p e.n := rfl
theorem q_eq (e : Env) : e.q = Spec.q e.n := rfl

theorem stepA_good {n k x : Nat} {b : List Nat} (h : Good n b) : Good n (stepA k x b) := by
  unfold stepA
  exact upd_good (upd_good (upd_good h _ (Nat.mod_lt _ (by norm_num))) _ (Nat.mod_lt _ (by norm_num))) _ (Nat.mod_lt _ (by norm_num))

/-- The preceding element is found even if the index wraps around, because all elements are the same initially. -/
def Prev (e : Env) (k : Nat) (b : List Nat) : Prop := b.getD (idxPrev e k) 0 = b.getD ((k + e.n - 1) % e.n) 0

theorem prev_pos {e : Env} {k : Nat} (b : List Nat) (hk : 1 ≤ k) (hB : k ≤ 2 ^ e.B) : Prev e k b := by
  unfold Prev idxPrev
  rw [show k + (2 ^ e.B - 1) = k - 1 + 2 ^ e.B by omega, Nat.add_mod_right, Nat.mod_eq_of_lt (a := k - 1) (b := 2 ^ e.B) (by omega),
    show k + e.n - 1 = k - 1 + e.n by omega, Nat.add_mod_right]

theorem prev_const {e : Env} {k x : Nat} (hn : 0 < e.n) : Prev e k (List.replicate e.n x) := by
  unfold Prev
  rw [List.getD_eq_getElem?_getD, List.getD_eq_getElem?_getD, List.getElem?_replicate, List.getElem?_replicate,
    if_pos (show idxPrev e k < e.n from Nat.mod_lt _ hn), if_pos (Nat.mod_lt _ hn)]

theorem integrateStep_spec {e : Env} (hn : 0 < e.n) (hW : 32 ≤ e.W) (hB : 32 ≤ e.B) {f : Nat → Nat → Nat → Option Nat} {k i extra : Nat} {b : List Nat}
    (hb : Good e.n b) (hk : k + e.n ≤ 2 ^ e.B) (hp : Prev e k b)
    (hf : ∀ r, ∃ r2, f r k i = some r2 ∧ r2 % 2 ^ 32 = (r + extra) % 2 ^ 32) :
    integrateStep e f k i b = some (stepA k extra b) := by
  have hq : e.q < e.n := by
    unfold Env.q Env.p Env.t
    split
    · omega
    · split
      · omega
      · split
        · omega
        · split <;> omega
  have hpq : e.p ≤ e.q := Nat.le_add_right _ _
  have hC : 32 ≤ e.C := le_trans hW (le_max_left _ _)
  have hlt : ∀ x, x % e.n < e.n := fun x => Nat.mod_lt _ hn
  have hlen := hb.1
  unfold integrateStep
  rw [idx_eq (by omega), idx_eq (by omega), rd_some (by rw [hlen]; exact hlt _), rd_some (by rw [hlen]; exact hlt _),
    rd_some (by rw [hlen]; exact Nat.mod_lt _ hn)]
  simp only [Option.bind_eq_bind, Option.bind_some]
  rw [hp]
  have hx : b.getD (k % e.n) 0 ^^^ b.getD ((k + e.p) % e.n) 0 ^^^ b.getD ((k + e.n - 1) % e.n) 0 < 2 ^ 32 :=
    xor_lt (xor_lt (hb.getD _) (hb.getD _)) (hb.getD _)
  rw [T_eq hx]
  obtain ⟨r2, h1, h2⟩ := hf (1664525 * Spec.T (b.getD (k % e.n) 0 ^^^ b.getD ((k + e.p) % e.n) 0 ^^^ b.getD ((k + e.n - 1) % e.n) 0) % 2 ^ e.W)
  rw [h1]
  simp only [Option.bind_some]
  rw [wr_some _ (by rw [hlen]; exact hlt _)]
  simp only [Option.bind_some]
  rw [rd_some (by rw [List.length_set, hlen]; exact hlt _)]
  simp only [Option.bind_some]
  rw [wr_some _ (by rw [List.length_set, hlen]; exact hlt _)]
  simp only [Option.bind_some]
  rw [wr_some _ (by rw [List.length_set, List.length_set, hlen]; exact hlt _)]
  simp only [stepA, hlen]
  rw [el_eq hb, el_eq hb, el_eq hb, ← p_eq, ← q_eq]
  generalize 1664525 * Spec.T (b.getD (k % e.n) 0 ^^^ b.getD ((k + e.p) % e.n) 0 ^^^ b.getD ((k + e.n - 1) % e.n) 0) = r1 at *
  have e1 : mod r2 = (r1 % 2 ^ 32 + extra) % 2 ^ 32 := by
    rw [mod_eq, h2, Nat.add_mod, mod_mod hW, ← Nat.add_mod, Nat.mod_add_mod]
  have e2 : mod ((b.getD ((k + e.p) % e.n) 0 + r1 % 2 ^ e.W) % 2 ^ e.W) = (b.getD ((k + e.p) % e.n) 0 + r1 % 2 ^ 32) % 2 ^ 32 := by
    rw [mod_eq, mod_mod hW, Nat.add_mod, mod_mod hW, ← Nat.add_mod, Nat.add_mod_mod]
  have hb' := upd_good hb (k + e.p) (Nat.mod_lt (b.getD ((k + e.p) % e.n) 0 + r1 % 2 ^ 32) (show 0 < 2 ^ 32 by norm_num))
  have e3 : ∀ x, mod ((x + r2) % 2 ^ e.C) = (x + (r1 % 2 ^ 32 + extra) % 2 ^ 32) % 2 ^ 32 := by
    intro x
    rw [mod_eq, mod_mod hC, ← e1, mod_eq, Nat.add_mod_mod]
  rw [e1, e2, e3, upd_eq hb, el_eq (hb.set _ (Nat.mod_lt _ (by norm_num))), upd_eq (hb.set _ (Nat.mod_lt _ (by norm_num))),
    upd_eq ((hb.set _ (Nat.mod_lt _ (by norm_num))).set _ (Nat.mod_lt _ (by norm_num)))]

theorem second_good {n k : Nat} {b : List Nat} (h : Good n b) : Good n (Spec.second k b) := by
  have hr : ∀ x : Int, (x % 2 ^ 32).toNat < 2 ^ 32 := fun x => by
    have h1 := Int.emod_nonneg x (show (2 : Int) ^ 32 ≠ 0 by norm_num)
    have h2 := Int.emod_lt_of_pos x (show (0 : Int) < 2 ^ 32 by norm_num)
    omega
  unfold Spec.second
  have h1 := upd_good h (k + Spec.p b.length) (v := Spec.el b (k + Spec.p b.length) ^^^ (1566083941 * Spec.T ((Spec.el b k + Spec.el b (k + Spec.p b.length) + Spec.el b (k + b.length - 1)) % 2 ^ 32) % 2 ^ 32))
    (xor_lt (by rw [el_eq h]; exact h.getD _) (Nat.mod_lt _ (by norm_num)))
  exact upd_good (upd_good h1 _ (xor_lt (by rw [el_eq h1]; exact h1.getD _) (hr _))) _ (hr _)

theorem finalStep_spec {e : Env} (hn : 0 < e.n) (hW : 32 ≤ e.W) (hB : 32 ≤ e.B) {k : Nat} {b : List Nat}
    (hb : Good e.n b) (hk : k + e.n ≤ 2 ^ e.B) (hk1 : 1 ≤ k) : finalStep e k b = some (Spec.second k b) := by
  have hq : e.q < e.n := by
    unfold Env.q Env.p Env.t
    split
    · omega
    · split
      · omega
      · split
        · omega
        · split <;> omega
  have hpq : e.p ≤ e.q := Nat.le_add_right _ _
  have hC : 32 ≤ e.C := le_trans hW (le_max_left _ _)
  have hBC : 2 ^ e.B ≤ 2 ^ e.C := Nat.pow_le_pow_right (by norm_num) (le_max_right _ _)
  have hlt : ∀ x, x % e.n < e.n := fun x => Nat.mod_lt _ hn
  have hlen := hb.1
  have hp : Prev e k b := prev_pos b hk1 (by omega)
  unfold finalStep
  rw [idx_eq (by omega), idx_eq (by omega), rd_some (by rw [hlen]; exact hlt _), rd_some (by rw [hlen]; exact hlt _),
    rd_some (by rw [hlen]; exact Nat.mod_lt _ hn)]
  simp only [Option.bind_eq_bind, Option.bind_some]
  rw [hp]
  rw [wr_some _ (by rw [hlen]; exact hlt _)]
  simp only [Option.bind_some]
  rw [rd_some (by rw [List.length_set, hlen]; exact hlt _)]
  simp only [Option.bind_some]
  rw [wr_some _ (by rw [List.length_set, hlen]; exact hlt _)]
  simp only [Option.bind_some]
  rw [wr_some _ (by rw [List.length_set, List.length_set, hlen]; exact hlt _)]
  simp only [Spec.second, hlen]
  rw [el_eq hb, el_eq hb, el_eq hb, ← p_eq, ← q_eq]
  have hs : ((b.getD (k % e.n) 0 + b.getD ((k + e.p) % e.n) 0) % 2 ^ e.W + b.getD ((k + e.n - 1) % e.n) 0) % 2 ^ e.W =
      (b.getD (k % e.n) 0 + b.getD ((k + e.p) % e.n) 0 + b.getD ((k + e.n - 1) % e.n) 0) % 2 ^ e.W := Nat.mod_add_mod _ _ _
  rw [hs]
  generalize b.getD (k % e.n) 0 + b.getD ((k + e.p) % e.n) 0 + b.getD ((k + e.n - 1) % e.n) 0 = s
  have hT : (1566083941 * (s % 2 ^ e.W ^^^ mod (s % 2 ^ e.W) >>> 27)) % 2 ^ e.W % 2 ^ 32 = 1566083941 * Spec.T (s % 2 ^ 32) % 2 ^ 32 := by
    rw [mod_mod hW, Nat.mul_mod, Nat.xor_mod_two_pow, mod_eq, mod_mod hW, Nat.mod_eq_of_lt (a := (s % 2 ^ 32) >>> 27), Nat.mod_mul_mod]
    · rfl
    · exact lt_of_le_of_lt (Nat.shiftRight_le _ _) (Nat.mod_lt _ (by norm_num))
  generalize 1566083941 * (s % 2 ^ e.W ^^^ mod (s % 2 ^ e.W) >>> 27) % 2 ^ e.W = r1 at *
  rw [← hT]
  have hkn := hlt k
  have e1 : mod ((r1 + (2 ^ e.C - k % e.n)) % 2 ^ e.C) = ((((r1 % 2 ^ 32 : Nat) : Int) - (k % e.n : Nat)) % 2 ^ 32).toNat := by
    rw [mod_eq, mod_mod hC]
    have h1 : (((r1 + (2 ^ e.C - k % e.n)) % 2 ^ 32 : Nat) : Int) = (((r1 % 2 ^ 32 : Nat) : Int) - (k % e.n : Nat)) % 2 ^ 32 := by
      obtain ⟨c, hc⟩ := Nat.pow_dvd_pow 2 hC
      have h3 : ((2 ^ e.C - k % e.n : Nat) : Int) = 2 ^ 32 * c - (k % e.n : Nat) := by
        rw [Nat.cast_sub (by omega), hc]; push_cast; rfl
      rw [Int.natCast_mod, Nat.cast_add, h3, Int.natCast_mod]
      push_cast
      rw [Int.emod_sub_emod]
      generalize (k : Int) % e.n = x
      rw [show (r1 : Int) + (4294967296 * c - x) = r1 - x + 4294967296 * c by ring, Int.add_mul_emod_self_left]
    omega
  have e2 : mod (b.getD ((k + e.p) % e.n) 0 ^^^ r1) = b.getD ((k + e.p) % e.n) 0 ^^^ r1 % 2 ^ 32 := by
    rw [mod_eq, Nat.xor_mod_two_pow, Nat.mod_eq_of_lt (hb.getD _)]
  have hb' : Good e.n (b.set ((k + e.p) % e.n) (b.getD ((k + e.p) % e.n) 0 ^^^ r1 % 2 ^ 32)) :=
    hb.set _ (xor_lt (hb.getD _) (Nat.mod_lt _ (by norm_num)))
  rw [e1, e2, upd_eq hb, el_eq hb']
  have e3 : ∀ x, x < 2 ^ 32 → mod (x ^^^ (r1 + (2 ^ e.C - k % e.n)) % 2 ^ e.C) = x ^^^ ((((r1 % 2 ^ 32 : Nat) : Int) - (k % e.n : Nat)) % 2 ^ 32).toNat := by
    intro x hx
    rw [← e1, mod_eq, Nat.xor_mod_two_pow, Nat.mod_eq_of_lt hx, mod_eq]
  rw [e3 _ (hb'.getD _), upd_eq hb']
  have hb'' : Good e.n ((b.set ((k + e.p) % e.n) (b.getD ((k + e.p) % e.n) 0 ^^^ r1 % 2 ^ 32)).set ((k + e.q) % e.n)
      ((b.set ((k + e.p) % e.n) (b.getD ((k + e.p) % e.n) 0 ^^^ r1 % 2 ^ 32)).getD ((k + e.q) % e.n) 0 ^^^
        ((((r1 % 2 ^ 32 : Nat) : Int) - (k % e.n : Nat)) % 2 ^ 32).toNat)) :=
    hb'.set _ (xor_lt (hb'.getD _) (by rw [← e1]; exact mod_lt _))
  rw [upd_eq hb'']

end Verif.SeedSeq
