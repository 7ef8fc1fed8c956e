import Verif.MulPrec.Lemmas
/-!
Addition, subtraction and comparison.
-/
namespace Verif.MulPrec
open Verif.Integer

/-- An array of `n` digits in radix `B`. -/
def D (B n : Nat) (xs : List Nat) : Prop := xs.length = n ∧ ∀ i < n, g xs i < B

theorem D_iff {w N : Nat} {a : List Nat} : Spec.Valid w N a ↔ D (2 ^ w) N a := valid_iff

theorem D_zero {B : Nat} (hB : 0 < B) (n : Nat) : D B n (zero n) :=
  ⟨zero_length n, fun i _ => by rw [g_zero]; exact hB⟩

theorem D_set {B n i v : Nat} {xs : List Nat} (h : D B n xs) (hv : v < B) : D B n (xs.set i v) := by
  refine ⟨by simp [h.1], fun k hk => ?_⟩
  by_cases hki : i = k
  · subst hki; rw [g_set_eq v (by rw [h.1]; exact hk)]; exact hv
  · rw [g_set_ne v hki]; exact h.2 k hk

theorem D_lt {B n : Nat} {xs : List Nat} (h : D B n xs) : V B (g xs) n < B ^ n := V_lt h.2

theorem D_ext {B n : Nat} {xs ys : List Nat} (hx : D B n xs) (hy : D B n ys) (h : V B (g xs) n = V B (g ys) n) : xs = ys := by
  apply List.ext_getElem (by rw [hx.1, hy.1])
  intro i h1 h2
  have := V_inj hx.2 hy.2 h i (by rw [← hx.1]; exact h1)
  simpa [g, List.getElem?_eq_getElem h1, List.getElem?_eq_getElem h2] using this

theorem add_spec {I w N : Nat} (hp : I ≠ w) (hw : 1 ≤ w) {a b : List Nat} (ha : D (2 ^ w) N a) (hb : D (2 ^ w) N b) :
    ∃ r, add I w N a b = some r ∧ D (2 ^ w) N r ∧ ∃ c ≤ 1,
      V (2 ^ w) (g r) N + c * (2 ^ w) ^ N = V (2 ^ w) (g a) N + V (2 ^ w) (g b) N := by
  obtain ⟨⟨r, c⟩, h1, h2, -, h4⟩ := loop_inv
    (body := fun i (res, carry) => do
      let (v, carry) ← partialAdd I w (← rd res i) (← rd b i) carry
      some (← wr res i v, carry))
    (Inv := fun i (st : List Nat × Bool) => D (2 ^ w) N st.1 ∧ (∀ k, i ≤ k → g st.1 k = g a k) ∧
      V (2 ^ w) (g st.1) i + st.2.toNat * (2 ^ w) ^ i = V (2 ^ w) (g a) i + V (2 ^ w) (g b) i)
    N 0 (a, false) ⟨ha, fun _ _ => rfl, by simp [V_zero]⟩ (by
      rintro i ⟨res, carry⟩ - hi ⟨hd, hk, hv⟩
      simp only at hd hk hv
      rw [Nat.zero_add] at hi
      obtain ⟨d, c', e1, e2, e3⟩ := partialAdd_eq (c := carry) hp hw (hd.2 i hi) (hb.2 i hi)
      have hl : i < res.length := by rw [hd.1]; exact hi
      simp only [rd_eq hl, rd_eq (show i < b.length by rw [hb.1]; exact hi), Option.bind_eq_bind, Option.bind_some, e1,
        wr_eq d hl]
      refine ⟨_, rfl, D_set hd e2, fun k hik => ?_, ?_⟩
      · show g (res.set i d) k = _
        rw [g_set_ne d (by omega), hk k (by omega)]
      · show V _ (g (res.set i d)) (i + 1) + c'.toNat * _ = _
        rw [V_succ, V_succ, V_succ, V_set_ge (Nat.le_refl _), g_set_eq d hl, ← hk i (Nat.le_refl _), pow_succ]
        have := congrArg (· * (2 ^ w) ^ i) e3
        simp only [Nat.add_mul] at this
        rw [show c'.toNat * ((2 ^ w) ^ i * 2 ^ w) = c'.toNat * 2 ^ w * (2 ^ w) ^ i by ring]
        omega)
  refine ⟨r, ?_, h2, c.toNat, by cases c <;> decide, by simpa using h4⟩
  simp only [add, Option.bind_eq_bind] at h1 ⊢
  rw [h1]; rfl

theorem sub_spec {I w N : Nat} (hp : I ≠ w) (hw : 1 ≤ w) {a b : List Nat} (ha : D (2 ^ w) N a) (hb : D (2 ^ w) N b) :
    ∃ r, sub I w N a b = some r ∧ D (2 ^ w) N r ∧ ∃ c ≤ 1,
      V (2 ^ w) (g a) N + c * (2 ^ w) ^ N = V (2 ^ w) (g b) N + V (2 ^ w) (g r) N := by
  obtain ⟨⟨r, c⟩, h1, h2, -, h4⟩ := loop_inv
    (body := fun i (res, carry) => do
      let (v, carry) ← partialSub I w (← rd res i) (← rd b i) carry
      some (← wr res i v, carry))
    (Inv := fun i (st : List Nat × Bool) => D (2 ^ w) N st.1 ∧ (∀ k, i ≤ k → g st.1 k = g a k) ∧
      V (2 ^ w) (g a) i + st.2.toNat * (2 ^ w) ^ i = V (2 ^ w) (g b) i + V (2 ^ w) (g st.1) i)
    N 0 (a, false) ⟨ha, fun _ _ => rfl, by simp [V_zero]⟩ (by
      rintro i ⟨res, carry⟩ - hi ⟨hd, hk, hv⟩
      simp only at hd hk hv
      rw [Nat.zero_add] at hi
      obtain ⟨d, c', e1, e2, e3⟩ := partialSub_eq (c := carry) hp hw (hd.2 i hi) (hb.2 i hi)
      have hl : i < res.length := by rw [hd.1]; exact hi
      simp only [rd_eq hl, rd_eq (show i < b.length by rw [hb.1]; exact hi), Option.bind_eq_bind, Option.bind_some, e1,
        wr_eq d hl]
      refine ⟨_, rfl, D_set hd e2, fun k hik => ?_, ?_⟩
      · show g (res.set i d) k = _
        rw [g_set_ne d (by omega), hk k (by omega)]
      · show _ + c'.toNat * _ = _ + V _ (g (res.set i d)) (i + 1)
        rw [V_succ, V_succ, V_succ, V_set_ge (Nat.le_refl _), g_set_eq d hl, ← hk i (Nat.le_refl _), pow_succ]
        have := congrArg (· * (2 ^ w) ^ i) e3
        simp only [Nat.add_mul] at this
        rw [show c'.toNat * ((2 ^ w) ^ i * 2 ^ w) = c'.toNat * 2 ^ w * (2 ^ w) ^ i by ring]
        omega)
  refine ⟨r, ?_, h2, c.toNat, by cases c <;> decide, by simpa using h4⟩
  simp only [sub, Option.bind_eq_bind] at h1 ⊢
  rw [h1]; rfl

theorem neg_spec {I w N : Nat} (hp : I ≠ w) (hw : 1 ≤ w) {a : List Nat} (ha : D (2 ^ w) N a) :
    ∃ r, neg I w N a = some r ∧ D (2 ^ w) N r ∧ ∃ c ≤ 1,
      c * (2 ^ w) ^ N = V (2 ^ w) (g a) N + V (2 ^ w) (g r) N := by
  obtain ⟨r, h1, h2, c, h3, h4⟩ := sub_spec hp hw (D_zero (two_pos w) N) ha
  rw [V_zeroArr, Nat.zero_add] at h4
  exact ⟨r, h1, h2, c, h3, h4⟩

/-! ### Element-wise operations -/

theorem map2_spec {w N : Nat} {a b : List Nat} (ha : D (2 ^ w) N a) (hb : D (2 ^ w) N b) (f : Nat → Nat → Nat)
    (hf : ∀ i < N, f (g a i) (g b i) < 2 ^ w) :
    ∃ r, loop (fun i res => do wr res i (f (← rd a i) (← rd b i))) N 0 (zero N) = some r ∧ D (2 ^ w) N r ∧
      ∀ i < N, g r i = f (g a i) (g b i) := by
  obtain ⟨r, h1, h2, h3⟩ := loop_inv
    (body := fun i res => do wr res i (f (← rd a i) (← rd b i)))
    (Inv := fun i (st : List Nat) => D (2 ^ w) N st ∧ ∀ k < i, g st k = f (g a k) (g b k))
    N 0 (zero N) ⟨D_zero (two_pos w) N, fun k hk => by omega⟩ (by
      intro i res _ hi ⟨hd, hk⟩
      rw [Nat.zero_add] at hi
      have hl : i < res.length := by rw [hd.1]; exact hi
      simp only [rd_eq (show i < a.length by rw [ha.1]; exact hi), rd_eq (show i < b.length by rw [hb.1]; exact hi),
        Option.bind_eq_bind, Option.bind_some, wr_eq _ hl]
      refine ⟨_, rfl, D_set hd (hf i hi), fun k hik => ?_⟩
      by_cases hki : i = k
      · subst hki; exact g_set_eq _ hl
      · rw [g_set_ne _ hki, hk k (by omega)])
  exact ⟨r, h1, h2, fun i hi => h3 i (by omega)⟩

/-! ### Comparison -/

theorem eqLoop_spec {B N : Nat} {a b : List Nat} (ha : D B N a) (hb : D B N b) :
    ∀ k ≤ N, eqLoop a b k = some (decide (V B (g a) k = V B (g b) k)) := by
  intro k
  induction k with
  | zero => intro _; simp [eqLoop, V_zero]
  | succ k ih =>
    intro hk
    simp only [eqLoop, rd_eq (show k < a.length by rw [ha.1]; omega), rd_eq (show k < b.length by rw [hb.1]; omega),
      Option.bind_eq_bind, Option.bind_some]
    split_ifs with h
    · rw [ih (by omega), V_succ, V_succ, h]
      simp
    · congr 1
      symm
      rw [decide_eq_false_iff_not]
      intro he
      exact h (V_inj (fun i hi => ha.2 i (by omega)) (fun i hi => hb.2 i (by omega)) he k (by omega))

theorem lessLoop_spec {B N : Nat} {a b : List Nat} (ha : D B N a) (hb : D B N b) :
    ∀ k ≤ N, lessLoop a b k = some (decide (V B (g a) k < V B (g b) k)) := by
  intro k
  induction k with
  | zero => intro _; simp [lessLoop, V_zero]
  | succ k ih =>
    intro hk
    simp only [lessLoop, rd_eq (show k < a.length by rw [ha.1]; omega), rd_eq (show k < b.length by rw [hb.1]; omega),
      Option.bind_eq_bind, Option.bind_some]
    have h1 := V_lt (B := B) (f := g a) (n := k) (fun i hi => ha.2 i (by omega))
    have h2 := V_lt (B := B) (f := g b) (n := k) (fun i hi => hb.2 i (by omega))
    split_ifs with h
    · rw [ih (by omega), V_succ, V_succ, h]
      simp
    · rw [V_succ, V_succ]
      congr 1
      rw [decide_eq_decide]
      rcases Nat.lt_or_gt_of_ne h with h | h
      · have : (g a k + 1) * B ^ k ≤ g b k * B ^ k := Nat.mul_le_mul_right _ h
        rw [Nat.add_mul] at this
        constructor <;> intro <;> omega
      · have : (g b k + 1) * B ^ k ≤ g a k * B ^ k := Nat.mul_le_mul_right _ h
        rw [Nat.add_mul] at this
        constructor <;> intro <;> omega

end Verif.MulPrec
