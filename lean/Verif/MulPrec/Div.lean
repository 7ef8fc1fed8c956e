import Verif.MulPrec.Mul
/-!
Division.
-/
namespace Verif.MulPrec
open Verif.Integer

/-! ### Short division -/

theorem divOp_nat {I w x y : Nat} (hp : I ≠ w) (hx : x < 2 ^ w) (hy : 0 < y) :
    divOp I (T w) (x : Int) (y : Int) = some ((x / y : Nat) : Int) := by
  rw [divOp, if_neg (by omega), Int.tdiv_eq_ediv_of_nonneg (by omega), ← Int.natCast_div,
    arith_nat hp (Nat.lt_of_le_of_lt (Nat.div_le_self _ _) hx)]

theorem modOp_nat {I w x y : Nat} (hp : I ≠ w) (hx : x < 2 ^ w) (hy : 0 < y) :
    modOp I (T w) (x : Int) (y : Int) = some ((x % y : Nat) : Int) := by
  rw [modOp, if_neg (by omega), Int.tdiv_eq_ediv_of_nonneg (by omega), ← Int.natCast_div,
    arith_nat hp (Nat.lt_of_le_of_lt (Nat.div_le_self _ _) hx), Int.tmod_eq_emod_of_nonneg (by omega), ← Int.natCast_mod]
  simp only [Option.bind_eq_bind, Option.bind_some]
  exact arith_nat hp (Nat.lt_of_le_of_lt (Nat.mod_le _ _) hx)

/-- Joining two digits. -/
theorem join_eq {I w x y : Nat} (hp : I ≠ w) (hw : 2 ≤ w) (hx : x < 2 ^ subw w) (hy : y < 2 ^ subw w) :
    ∃ z, shl (P I w) (x : Int) (subw w) = some z ∧ toT w (bitOr (P I w) z (y : Int)) = x * 2 ^ subw w + y ∧
      x * 2 ^ subw w + y < 2 ^ w := by
  have h1 := subw_le w
  have h2 := subw_pos hw
  have h3 := sq_le (w := w)
  have h4 : (x + 1) * 2 ^ subw w ≤ 2 ^ subw w * 2 ^ subw w := Nat.mul_le_mul_right _ hx
  rw [Nat.add_mul] at h4
  have h5 : y < 2 ^ w := Nat.lt_of_lt_of_le hy (Nat.pow_le_pow_right (by omega) (by omega))
  refine ⟨_, shl_nat hp (by omega) (by omega), ?_, by omega⟩
  rw [bitOr_nat hp (by omega) h5, ← Nat.shiftLeft_eq, ← Nat.shiftLeft_add_eq_or_of_lt hy, toT_nat (by rw [Nat.shiftLeft_eq]; omega),
    Nat.shiftLeft_eq]

theorem V_cons (B : Nat) (f : Nat → Nat) (n : Nat) : V B f (n + 1) = f 0 + B * V B (fun t => f (t + 1)) n := by
  rw [Nat.add_comm n 1, V_split]
  simp [V, Nat.add_comm]

theorem shortDiv_spec {I w N : Nat} (hp : I ≠ w) (hw : 2 ≤ w) {a : List Nat} {b : Nat}
    (ha : D (2 ^ subw w) (nsub w N) a) (hb0 : 0 < b) (hb : b < 2 ^ subw w) :
    ∃ q r, shortDiv I w N a b = some (q, r) ∧ D (2 ^ subw w) (nsub w N) q ∧ r < b ∧
      V (2 ^ subw w) (g a) (nsub w N) = b * V (2 ^ subw w) (g q) (nsub w N) + r := by
  obtain ⟨⟨q, r⟩, h1, h2, h3, -, h5⟩ := loop_inv
    (body := fun i (a, rem) => do
      let j := nsub w N - 1 - i
      let dividend := toT w (bitOr (P I w) (← shl (P I w) (rem : Nat) (subw w)) (← rd a j : Nat))
      let a ← wr a j (toT w (← divOp I (T w) dividend b))
      let rem := toT w (← modOp I (T w) dividend b)
      some (a, rem))
    (Inv := fun i (st : List Nat × Nat) => D (2 ^ subw w) (nsub w N) st.1 ∧ st.2 < b ∧
      (∀ k < nsub w N - i, g st.1 k = g a k) ∧
      V (2 ^ subw w) (fun t => g a (nsub w N - i + t)) i =
        b * V (2 ^ subw w) (fun t => g st.1 (nsub w N - i + t)) i + st.2)
    (nsub w N) 0 (a, 0) ⟨ha, hb0, fun _ _ => rfl, by simp [V_zero]⟩ (by
      rintro i ⟨q, rem⟩ - hi ⟨hd, hr, hk, hv⟩
      simp only at hd hr hk hv
      rw [Nat.zero_add] at hi
      have hj : nsub w N - 1 - i < nsub w N := by omega
      have hl : nsub w N - 1 - i < q.length := by rw [hd.1]; exact hj
      have haj := hd.2 _ hj
      obtain ⟨z, z1, z2, z3⟩ := join_eq hp hw (show rem < 2 ^ subw w by omega) haj
      have hq : (rem * 2 ^ subw w + g q (nsub w N - 1 - i)) / b < 2 ^ subw w := by
        apply Nat.div_lt_of_lt_mul
        have : (rem + 1) * 2 ^ subw w ≤ b * 2 ^ subw w := Nat.mul_le_mul_right _ hr
        rw [Nat.add_mul] at this
        omega
      have hqw : (rem * 2 ^ subw w + g q (nsub w N - 1 - i)) / b < 2 ^ w :=
        Nat.lt_of_le_of_lt (Nat.div_le_self _ _) z3
      have hrw : (rem * 2 ^ subw w + g q (nsub w N - 1 - i)) % b < 2 ^ w :=
        Nat.lt_of_le_of_lt (Nat.mod_le _ _) z3
      simp only [rd_eq hl, Option.bind_eq_bind, Option.bind_some, z1, z2, divOp_nat hp z3 hb0, modOp_nat hp z3 hb0,
        toT_nat hqw, toT_nat hrw, wr_eq _ hl]
      refine ⟨_, rfl, D_set hd hq, Nat.mod_lt _ hb0, fun k hik => ?_, ?_⟩
      · show g (q.set _ _) k = _
        rw [g_set_ne _ (by omega), hk k (by omega)]
      · have e0 : nsub w N - (i + 1) = nsub w N - 1 - i := by omega
        have e1 : ∀ t, nsub w N - 1 - i + (t + 1) = nsub w N - i + t := fun t => by omega
        show V _ (fun t => g a (nsub w N - (i + 1) + t)) (i + 1) =
          b * V _ (fun t => g (q.set _ _) (nsub w N - (i + 1) + t)) (i + 1) + _
        rw [e0, V_cons, V_cons]
        simp only [e1, Nat.add_zero]
        rw [hv, g_set_eq _ hl, ← hk _ (show nsub w N - 1 - i < nsub w N - i by omega)]
        have e2 : V (2 ^ subw w) (fun t => g (q.set (nsub w N - 1 - i)
            ((rem * 2 ^ subw w + g q (nsub w N - 1 - i)) / b)) (nsub w N - i + t)) i =
            V (2 ^ subw w) (fun t => g q (nsub w N - i + t)) i :=
          V_congr fun t _ => g_set_ne _ (by omega)
        rw [e2]
        have e3 := Nat.div_add_mod (rem * 2 ^ subw w + g q (nsub w N - 1 - i)) b
        generalize (rem * 2 ^ subw w + g q (nsub w N - 1 - i)) / b = dv at *
        generalize (rem * 2 ^ subw w + g q (nsub w N - 1 - i)) % b = md at *
        generalize V (2 ^ subw w) (fun t => g q (nsub w N - i + t)) i = X at *
        calc g q (nsub w N - 1 - i) + 2 ^ subw w * (b * X + rem)
            = (rem * 2 ^ subw w + g q (nsub w N - 1 - i)) + 2 ^ subw w * (b * X) := by ring
          _ = _ := by rw [← e3]; ring)
  refine ⟨q, r, h1, h2, h3, ?_⟩
  simp only [Nat.zero_add, Nat.sub_self] at h5
  exact h5

/-! ### Normalization -/

theorem normShift_spec {w t : Nat} (hw : 2 ≤ w) (h0 : 0 < t) (ht : t < 2 ^ subw w) :
    ∃ sh, normShift w t = some sh ∧ sh < subw w ∧ t * 2 ^ sh < 2 ^ subw w ∧ 2 ^ subw w ≤ 2 * (t * 2 ^ sh) := by
  have hs := subw_le w
  have hs0 := subw_pos hw
  have hlog : Nat.log2 t < subw w := (Nat.log2_lt (by omega)).2 ht
  have hb : bitsOf (T w) (t : Int) = t := by
    have : 2 ^ subw w ≤ 2 ^ w := Nat.pow_le_pow_right (by omega) (by omega)
    rw [bitsOf, show (T w).width = w from rfl, ← cast_pow, ← Int.natCast_mod, Int.toNat_natCast, Nat.mod_eq_of_lt (by omega)]
  have hm : findMsbPos (T w) (t : Int) = (Nat.log2 t : Int) := by
    simp only [findMsbPos, hb, show (T w).width = w from rfl]
    rw [if_neg (by omega)]
    omega
  refine ⟨subw w - 1 - Nat.log2 t, ?_, by omega, ?_, ?_⟩
  · simp only [normShift, hm]
    rw [if_neg (by omega)]
    congr 1; omega
  · have h1 : t < 2 ^ (Nat.log2 t + 1) := Nat.lt_log2_self
    calc t * 2 ^ (subw w - 1 - Nat.log2 t) < 2 ^ (Nat.log2 t + 1) * 2 ^ (subw w - 1 - Nat.log2 t) :=
          Nat.mul_lt_mul_of_pos_right h1 (two_pos _)
      _ = 2 ^ subw w := by rw [← pow_add]; congr 1; omega
  · have h1 : 2 ^ Nat.log2 t ≤ t := Nat.log2_self_le (by omega)
    calc 2 ^ subw w = 2 * (2 ^ Nat.log2 t * 2 ^ (subw w - 1 - Nat.log2 t)) := by
          rw [← pow_add, ← pow_succ']; congr 1; omega
      _ ≤ _ := Nat.mul_le_mul_left _ (Nat.mul_le_mul_right _ h1)

theorem normLo_eq {I w sh y : Nat} (hp : I ≠ w) (hI : 1 ≤ I) (hw : 2 ≤ w) (hsh : sh < subw w) (_hy : y < 2 ^ subw w) :
    normLo I w sh y = some (y * 2 ^ sh % 2 ^ subw w) := by
  have hs := subw_le w
  obtain ⟨z, z1, z2⟩ := shl_toT (I := I) (x := y) hp (show sh < w by omega)
  simp only [normLo, z1, mask_eq hI hw, Option.bind_eq_bind, Option.bind_some]
  have hz : ∃ k : Int, z = ((y * 2 ^ sh : Nat) : Int) + 2 ^ w * k := by
    rw [shl, if_pos (by have := P_width hp; omega)] at z1
    obtain ⟨k, hk⟩ := dvd_trans (p_dvd (P_width hp)) (cast_dvd (P I w) ((y : Int) * 2 ^ sh))
    refine ⟨k, ?_⟩
    rw [Option.some.inj z1] at hk
    push_cast
    linear_combination hk
  obtain ⟨k, rfl⟩ := hz
  rw [toT_bitAnd_mask hp (by omega)]
  obtain ⟨m, hm⟩ := p_dvd (show subw w ≤ w by omega)
  rw [hm, mul_assoc, Int.add_mul_emod_self_left, ← cast_pow, ← Int.natCast_mod, Int.toNat_natCast]

theorem normHi_eq {I w sh x y : Nat} (hp : I ≠ w) (hw : 2 ≤ w) (hx : x < 2 ^ subw w) (hy : y < 2 ^ subw w)
    (hd : 2 ^ sh ∣ x) (hsh : sh < subw w) :
    normHi I w sh x y = some (x + y / 2 ^ (subw w - sh)) ∧ x + y / 2 ^ (subw w - sh) < 2 ^ subw w := by
  have hs := subw_le w
  have hs0 := subw_pos hw
  have hsw : 2 ^ subw w ≤ 2 ^ w := Nat.pow_le_pow_right (by omega) (by omega)
  have hyl : y / 2 ^ (subw w - sh) < 2 ^ sh := by
    apply Nat.div_lt_of_lt_mul
    rw [← pow_add]
    rw [show subw w - sh + sh = subw w by omega]; exact hy
  have hyl' : y / 2 ^ (subw w - sh) < 2 ^ subw w := Nat.lt_of_le_of_lt (Nat.div_le_self _ _) hy
  obtain ⟨m, rfl⟩ := hd
  have hor : 2 ^ sh * m ||| y / 2 ^ (subw w - sh) = 2 ^ sh * m + y / 2 ^ (subw w - sh) :=
    (Nat.two_pow_add_eq_or_of_lt hyl m).symm
  have hlt : 2 ^ sh * m ||| y / 2 ^ (subw w - sh) < 2 ^ subw w := or_lt hx hyl'
  refine ⟨?_, by rw [← hor]; exact hlt⟩
  simp only [normHi, shr_nat hp (show subw w - sh < w by omega), Option.bind_eq_bind, Option.bind_some]
  rw [bitOr_nat hp (by omega) (by omega), toT_nat (by omega), hor]

/-- The loop that shifts a sequence of digits. -/
theorem norm_loop {I w sh L L' M e : Nat} (hp : I ≠ w) (hI : 1 ≤ I) (hw : 2 ≤ w) (hsh : sh < subw w) {a u : List Nat}
    (ha : D (2 ^ subw w) L' a) (hu : D (2 ^ subw w) L u) (hM : M < L) (hMe : M ≤ L')
    (hz : ∀ k < M, g u k = 0) (hd : 2 ^ sh ∣ g u M)
    (h0 : V (2 ^ subw w) (fun t => g u (M + t)) 1 = 2 ^ sh * V (2 ^ subw w) (fun t => g a (M + t)) e) :
    ∃ r, loop (fun i u => do
        let j := M - i
        let u ← wr u j (← normHi I w sh (← rd u j) (← rd a (j - 1)))
        wr u (j - 1) (← normLo I w sh (← rd a (j - 1)))) M 0 u = some r ∧ D (2 ^ subw w) L r ∧
      V (2 ^ subw w) (g r) (M + 1) = 2 ^ sh * V (2 ^ subw w) (g a) (M + e) := by
  obtain ⟨r, h1, h2, -, -, h5⟩ := loop_inv
    (body := fun i u => do
        let j := M - i
        let u ← wr u j (← normHi I w sh (← rd u j) (← rd a (j - 1)))
        wr u (j - 1) (← normLo I w sh (← rd a (j - 1))))
    (Inv := fun i (u : List Nat) => D (2 ^ subw w) L u ∧ (∀ k < M - i, g u k = 0) ∧ 2 ^ sh ∣ g u (M - i) ∧
      V (2 ^ subw w) (fun t => g u (M - i + t)) (i + 1) = 2 ^ sh * V (2 ^ subw w) (fun t => g a (M - i + t)) (i + e))
    M 0 u ⟨hu, by simpa using hz, by simpa using hd, by simpa using h0⟩ (by
      rintro i u - hi ⟨hdg, hzk, hdv, hv⟩
      rw [Nat.zero_add] at hi
      obtain ⟨j, hj⟩ : ∃ j, M - i = j + 1 := ⟨M - i - 1, by omega⟩
      rw [hj] at hzk hdv hv
      have hjl : j + 1 < u.length := by rw [hdg.1]; omega
      have hju := hdg.2 (j + 1) (by omega)
      have hja := ha.2 j (by omega)
      obtain ⟨e1, e2⟩ := normHi_eq (y := g a j) hp hw hju hja hdv hsh
      have e3 := normLo_eq hp hI hw hsh hja
      simp only [hj, Nat.add_sub_cancel, rd_eq hjl, rd_eq (show j < a.length by rw [ha.1]; omega), Option.bind_eq_bind,
        Option.bind_some, e1, e3, wr_eq _ hjl,
        wr_eq _ (show j < (u.set (j + 1) (g u (j + 1) + g a j / 2 ^ (subw w - sh))).length by simp; omega)]
      have hd1 : D (2 ^ subw w) L (u.set (j + 1) (g u (j + 1) + g a j / 2 ^ (subw w - sh))) := D_set hdg e2
      have hmi : M - (i + 1) = j := by omega
      refine ⟨_, rfl, D_set hd1 (Nat.mod_lt _ (two_pos _)), fun k hk => ?_, ?_, ?_⟩
      · rw [hmi] at hk
        rw [g_set_ne _ (by omega), g_set_ne _ (by omega), hzk k (by omega)]
      · rw [hmi, g_set_eq _ (by rw [hd1.1]; omega), Nat.dvd_mod_iff (pow_dvd_pow 2 (by omega))]
        exact Dvd.intro_left _ rfl
      · rw [hmi, V_cons _ _ (i + 1), show i + 1 + e = i + e + 1 by omega, V_cons _ (fun t => g a (j + t))]
        have key : ∀ xs : List Nat, (fun t => g xs (j + (t + 1))) = fun t => g xs (j + 1 + t) := fun xs => by
          funext t; congr 1; omega
        rw [key a, key, Nat.add_zero j]
        rw [g_set_eq _ (by rw [hd1.1]; omega)]
        have e4 : V (2 ^ subw w) (fun t => g ((u.set (j + 1) (g u (j + 1) + g a j / 2 ^ (subw w - sh))).set j
            (g a j * 2 ^ sh % 2 ^ subw w)) (j + 1 + t)) (i + 1) =
            V (2 ^ subw w) (fun t => g u (j + 1 + t)) (i + 1) + g a j / 2 ^ (subw w - sh) := by
          rw [V_cons, V_cons]
          rw [g_set_ne _ (by omega), Nat.add_zero, g_set_eq _ hjl]
          have : V (2 ^ subw w) (fun t => g ((u.set (j + 1) (g u (j + 1) + g a j / 2 ^ (subw w - sh))).set j
              (g a j * 2 ^ sh % 2 ^ subw w)) (j + 1 + (t + 1))) i = V (2 ^ subw w) (fun t => g u (j + 1 + (t + 1))) i :=
            V_congr fun t _ => by rw [g_set_ne _ (by omega), g_set_ne _ (by omega)]
          rw [this]; omega
        rw [e4, hv]
        have e5 : g a j * 2 ^ sh % 2 ^ subw w + 2 ^ subw w * (g a j / 2 ^ (subw w - sh)) = g a j * 2 ^ sh := by
          have := Nat.mod_add_div (g a j * 2 ^ sh) (2 ^ subw w)
          rw [show g a j * 2 ^ sh / 2 ^ subw w = g a j / 2 ^ (subw w - sh) by
            rw [show subw w = (subw w - sh) + sh by omega, pow_add,
              Nat.mul_div_mul_right _ _ (two_pos sh), Nat.add_sub_cancel]] at this
          exact this
        calc _ = (g a j * 2 ^ sh % 2 ^ subw w + 2 ^ subw w * (g a j / 2 ^ (subw w - sh))) +
              2 ^ subw w * (2 ^ sh * V (2 ^ subw w) (fun t => g a (j + 1 + t)) (i + e)) := by ring
          _ = _ := by rw [e5]; ring)
  refine ⟨r, h1, h2, ?_⟩
  simpa using h5

theorem normDividend_spec {I w N sh : Nat} (hp : I ≠ w) (hI : 1 ≤ I) (hw : 2 ≤ w) (hsh : sh < subw w) {a : List Nat}
    (ha : D (2 ^ subw w) (nsub w N) a) :
    ∃ u, normDividend I w N sh a = some u ∧ D (2 ^ subw w) (nsub w N + 1) u ∧
      V (2 ^ subw w) (g u) (nsub w N + 1) = 2 ^ sh * V (2 ^ subw w) (g a) (nsub w N) :=
  norm_loop (e := 0) hp hI hw hsh ha (D_zero (two_pos _) _) (by omega) (Nat.le_refl _) (fun k _ => g_zero _ _)
    (by rw [g_zero]; exact Nat.dvd_zero _) (by simp [V, g_zero])

theorem normDivisor_spec {I w N sh n : Nat} (hp : I ≠ w) (hI : 1 ≤ I) (hw : 2 ≤ w) (hsh : sh < subw w) {b : List Nat}
    (hb : D (2 ^ subw w) (nsub w N) b) (hn : 1 < n) (hnN : n ≤ nsub w N) (htop : g b (n - 1) * 2 ^ sh < 2 ^ subw w) :
    ∃ v, normDivisor I w N sh n b = some v ∧ D (2 ^ subw w) (nsub w N) v ∧
      V (2 ^ subw w) (g v) n = 2 ^ sh * V (2 ^ subw w) (g b) n := by
  have hs := subw_le w
  have hsw : 2 ^ subw w ≤ 2 ^ w := Nat.pow_le_pow_right (by omega) (by omega)
  have hl : n - 1 < (zero (nsub w N)).length := by rw [zero_length]; omega
  have hz := D_zero (two_pos (subw w)) (nsub w N)
  obtain ⟨v, h1, h2, h3⟩ := norm_loop (M := n - 1) (e := 1) hp hI hw hsh hb (D_set (i := n - 1) hz htop) (by omega) (by omega)
    (fun k hk => by rw [g_set_ne _ (by omega), g_zero])
    (by rw [g_set_eq _ hl]; exact Dvd.intro_left _ rfl)
    (by simp only [V, Nat.add_zero, g_set_eq _ hl]; ring)
  refine ⟨v, ?_, h2, ?_⟩
  · simp only [normDivisor, rd_eq (show n - 1 < b.length by rw [hb.1]; omega), Option.bind_eq_bind, Option.bind_some,
      shl_nat hp (show sh < w by omega) (show g b (n - 1) * 2 ^ sh < 2 ^ w by omega),
      toT_nat (show g b (n - 1) * 2 ^ sh < 2 ^ w by omega), wr_eq _ hl]
    exact h1
  · rw [show n - 1 + 1 = n by omega] at h3
    exact h3

end Verif.MulPrec
