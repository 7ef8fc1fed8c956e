import Verif.MulPrec.Scatter
/-!
Multiplication.
-/
namespace Verif.MulPrec
open Verif.Integer

theorem div_lt_sq {B v : Nat} (h : v < B * B) : v / B < B := Nat.div_lt_of_lt_mul h

theorem mul_add_lt {B a b c d : Nat} (ha : a < B) (hb : b < B) (hc : c < B) (hd : d < B) : a * b + c + d < B * B := by
  have : a * b ≤ (B - 1) * (B - 1) := Nat.mul_le_mul (by omega) (by omega)
  obtain ⟨k, rfl⟩ : ∃ k, B = k + 1 := ⟨B - 1, by omega⟩
  rw [Nat.add_sub_cancel] at this
  have e : (k + 1) * (k + 1) = k * k + k + k + 1 := by ring
  omega

theorem mulInner_spec {I w N : Nat} (hp : I ≠ w) (hI : 1 ≤ I) (hw : 2 ≤ w) {a b res0 : List Nat} {i : Nat}
    (ha : D (2 ^ subw w) (nsub w N) a) (hb : D (2 ^ subw w) (nsub w N) b) (hr : D (2 ^ subw w) (nsub w N) res0)
    (hi : i < nsub w N) :
    ∃ r, mulInner I w N a b i res0 = some r ∧ D (2 ^ subw w) (nsub w N) r ∧ ∃ c,
      V (2 ^ subw w) (g r) (nsub w N) + c * (2 ^ subw w) ^ nsub w N =
        V (2 ^ subw w) (g res0) (nsub w N) + g a i * (2 ^ subw w) ^ i * V (2 ^ subw w) (g b) (nsub w N - i) := by
  have hB := two_pos (subw w)
  obtain ⟨⟨r, c⟩, h1, h2, -, -, h5⟩ := loop_inv
    (body := fun j (res, carry) => do
      let (v, carry) ← mulStep I w (← rd a i) (← rd b j) (← rd res (i + j)) carry
      some (← wr res (i + j) v, carry))
    (Inv := fun j (st : List Nat × Nat) => D (2 ^ subw w) (nsub w N) st.1 ∧ st.2 < 2 ^ subw w ∧
      (∀ k, i + j ≤ k → g st.1 k = g res0 k) ∧
      V (2 ^ subw w) (g st.1) (i + j) + st.2 * (2 ^ subw w) ^ (i + j) =
        V (2 ^ subw w) (g res0) (i + j) + g a i * (2 ^ subw w) ^ i * V (2 ^ subw w) (g b) j)
    (nsub w N - i) 0 (res0, 0) ⟨hr, hB, fun _ _ => rfl, by simp [V_zero]⟩ (by
      rintro j ⟨res, carry⟩ - hj ⟨hd, hc, hk, hv⟩
      simp only at hd hc hk hv
      have hij : i + j < nsub w N := by omega
      have hl : i + j < res.length := by rw [hd.1]; exact hij
      have hbj := hb.2 j (by omega)
      have hai := ha.2 i hi
      have hrj := hd.2 (i + j) hij
      have hlt := mul_add_lt hai hbj hrj hc
      simp only [rd_eq hl, rd_eq (show i < a.length by rw [ha.1]; exact hi),
        rd_eq (show j < b.length by rw [hb.1]; omega), Option.bind_eq_bind, Option.bind_some,
        mulStep_eq hp hI hw hai hbj hrj hc, wr_eq _ hl]
      refine ⟨_, rfl, D_set hd (Nat.mod_lt _ hB), div_lt_sq hlt, fun k hik => ?_, ?_⟩
      · show g (res.set (i + j) _) k = _
        rw [g_set_ne _ (by omega), hk k (by omega)]
      · show V _ (g (res.set (i + j) _)) (i + j + 1) + _ * (2 ^ subw w) ^ (i + j + 1) = _
        have e := Nat.div_add_mod (g a i * g b j + g res (i + j) + carry) (2 ^ subw w)
        rw [V_succ, V_set_ge (Nat.le_refl _), g_set_eq _ hl, ← Nat.add_assoc i j 1, V_succ, V_succ, ← hk (i + j) (Nat.le_refl _)]
        generalize hdv : (g a i * g b j + g res (i + j) + carry) / 2 ^ subw w = dv at *
        generalize hmd : (g a i * g b j + g res (i + j) + carry) % 2 ^ subw w = md at *
        generalize 2 ^ subw w = B at *
        calc V B (g res) (i + j) + md * B ^ (i + j) + dv * B ^ (i + j + 1)
            = V B (g res) (i + j) + (B * dv + md) * B ^ (i + j) := by rw [pow_succ]; ring
          _ = (V B (g res) (i + j) + carry * B ^ (i + j)) + (g a i * g b j + g res (i + j)) * B ^ (i + j) := by rw [e]; ring
          _ = _ := by rw [hv, pow_add]; ring)
  refine ⟨r, ?_, h2, c, ?_⟩
  · simp only [mulInner, Option.bind_eq_bind] at h1 ⊢
    rw [h1]; rfl
  · have : i + (0 + (nsub w N - i)) = nsub w N := by omega
    simp only [Nat.zero_add] at h5
    rw [show i + (nsub w N - i) = nsub w N by omega] at h5
    exact h5

theorem mul_spec {I w N : Nat} (hp : I ≠ w) (hI : 1 ≤ I) (hw : 2 ≤ w) (hN : 0 < N) {a b : List Nat}
    (ha : D (2 ^ w) N a) (hb : D (2 ^ w) N b) :
    ∃ r, mul I w N a b = some r ∧ D (2 ^ w) N r ∧
      V (2 ^ w) (g r) N = V (2 ^ w) (g a) N * V (2 ^ w) (g b) N % 2 ^ (w * N) := by
  obtain ⟨as, ha1, ha2, ha3⟩ := scatter_spec hp hI hw hN ha
  obtain ⟨bs, hb1, hb2, hb3⟩ := scatter_spec hp hI hw hN hb
  obtain ⟨res, h1, h2, k, h3⟩ := loop_inv (body := mulInner I w N as bs)
    (Inv := fun i (res : List Nat) => D (2 ^ subw w) (nsub w N) res ∧ ∃ k,
      V (2 ^ subw w) (g res) (nsub w N) + k * (2 ^ subw w) ^ nsub w N =
        V (2 ^ subw w) (g as) i * V (2 ^ subw w) (g bs) (nsub w N))
    (nsub w N) 0 (zero (nsub w N)) ⟨D_zero (two_pos _) _, 0, by rw [V_zeroArr, V_zero]; simp⟩ (by
      rintro i res - hi ⟨hd, k, hk⟩
      rw [Nat.zero_add] at hi
      obtain ⟨r, e1, e2, c, e3⟩ := mulInner_spec hp hI hw ha2 hb2 hd hi
      refine ⟨r, e1, e2, k + c + g as i * V (2 ^ subw w) (fun t => g bs (nsub w N - i + t)) i, ?_⟩
      have hs := V_split (2 ^ subw w) (g bs) (nsub w N - i) i
      rw [show nsub w N - i + i = nsub w N by omega] at hs
      have hpw : (2 ^ subw w) ^ nsub w N = (2 ^ subw w) ^ i * (2 ^ subw w) ^ (nsub w N - i) := by
        rw [← pow_add]; congr 1; omega
      rw [V_succ]
      generalize 2 ^ subw w = B at *
      generalize V B (fun t => g bs (nsub w N - i + t)) i = H at *
      calc V B (g r) (nsub w N) + (k + c + g as i * H) * B ^ nsub w N
          = (V B (g r) (nsub w N) + c * B ^ nsub w N) + k * B ^ nsub w N + g as i * H * B ^ nsub w N := by ring
        _ = (V B (g res) (nsub w N) + k * B ^ nsub w N) + g as i * B ^ i * V B (g bs) (nsub w N - i)
              + g as i * H * B ^ nsub w N := by rw [e3]; ring
        _ = V B (g as) i * V B (g bs) (nsub w N) +
              g as i * B ^ i * (V B (g bs) (nsub w N - i) + B ^ (nsub w N - i) * H) := by rw [hk, hpw]; ring
        _ = (V B (g as) i + g as i * B ^ i) * V B (g bs) (nsub w N) := by rw [← hs]; ring)
  obtain ⟨r, g1, g2, g3⟩ := gather_spec (I := I) hp hw h2
  refine ⟨r, ?_, g2, ?_⟩
  · simp only [mul, ha1, hb1, Option.bind_eq_bind, Option.bind_some, h1, g1]
  · rw [g3, ← ha3, ← hb3]
    rw [Nat.zero_add] at h3
    rw [← h3]
    have hn := (nsub_bounds (N := N) hw).1
    have : (2 ^ subw w) ^ nsub w N = 2 ^ (w * N) * 2 ^ (subw w * nsub w N - w * N) := by
      rw [← pow_mul, ← pow_add]; congr 1; omega
    rw [this, show k * (2 ^ (w * N) * 2 ^ (subw w * nsub w N - w * N)) =
      2 ^ (w * N) * (k * 2 ^ (subw w * nsub w N - w * N)) by ring, Nat.add_mul_mod_self_left]

end Verif.MulPrec
