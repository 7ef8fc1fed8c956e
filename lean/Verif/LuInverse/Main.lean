import Verif.LuInverse.Decompose
import Verif.LuInverse.Tri

/-!
# Correctness of determinant, and inversion
-/

namespace Verif.LuInverse

open Spec

section

variable {K : Type} [Field K]

/-- A sum where the first factor vanishes below, and the second factor vanishes above. -/
theorem sum_band (f g : ℕ → K) {N i c : ℕ} (hc : c < N) :
    ∑ k : Fin N, (if i ≤ k.val then f k else 0) * (if k.val ≤ c then g k else 0) = ∑ k ∈ Finset.Ico i (c + 1), f k * g k := by
  rw [Fin.sum_univ_eq_sum_range (fun k => (if i ≤ k then f k else 0) * (if k ≤ c then g k else 0)) N]
  have : ∀ k ∈ Finset.range N, (if i ≤ k then f k else 0) * (if k ≤ c then g k else 0) =
      if k ∈ Finset.Ico i (c + 1) then f k * g k else 0 := by
    intro k _
    by_cases h1 : i ≤ k
    · by_cases h2 : k ≤ c
      · rw [if_pos h1, if_pos h2, if_pos (Finset.mem_Ico.mpr ⟨h1, by omega⟩)]
      · rw [if_pos h1, if_neg h2, if_neg (fun h => by rw [Finset.mem_Ico] at h; omega)]; ring
    · have h3 : k ∉ Finset.Ico i (c + 1) := fun h => by rw [Finset.mem_Ico] at h; omega
      rw [if_neg h1, if_neg h3]; ring
  rw [Finset.sum_congr rfl this, ← Finset.sum_filter]
  apply Finset.sum_congr _ (fun _ _ => rfl)
  ext k
  simp only [Finset.mem_filter, Finset.mem_range, Finset.mem_Ico]
  omega

/-- Components of a triangular matrix, where the diagonal is considered to consist of ones if the matrix is assumed to be
unitriangular. -/
def upperEff (u : Bool) (N : ℕ) (m : Mat K) : Matrix (Fin N) (Fin N) K := if u then upperUnitri N N m else upperTri N N m

theorem upperEff_apply (u : Bool) (N : ℕ) (m : Mat K) (i j : Fin N) : upperEff u N m i j = if i.val ≤ j.val then eff u m i j else 0 := by
  unfold upperEff eff
  cases u
  · simp [upperTri]
  · simp only [if_true, upperUnitri, Matrix.of_apply, true_and]
    split_ifs <;> first | rfl | omega

end

variable {K : Type} [Field K] [LinearOrder K]

omit [LinearOrder K] in
theorem triInv_mul {u : Bool} {N : ℕ} {m v : Mat K} (h : TriInv u m N v) : upperEff u N v * upperEff u N m = 1 := by
  ext i c
  rw [Matrix.mul_apply, Matrix.one_apply]
  have e : ∀ k : Fin N, upperEff u N v i k * upperEff u N m k c =
      (if i.val ≤ k.val then eff u v i k else 0) * (if k.val ≤ c.val then eff u m k c else 0) := by
    intro k; rw [upperEff_apply, upperEff_apply]
  rw [Finset.sum_congr rfl (fun k _ => e k), sum_band (fun k => eff u v i k) (fun k => eff u m k c) c.2]
  by_cases hic : i.val ≤ c.val
  · rw [h.prod c i c.2 hic]
    simp only [Fin.ext_iff]
  · rw [Finset.Ico_eq_empty (by omega), Finset.sum_empty, if_neg]
    intro h; apply hic; rw [h]

/-! ### Solving for the inverse -/

omit [LinearOrder K] in
theorem solveColumn_eq (N : ℕ) (j : ℕ) (s : Mat K) :
    solveColumn N (j + 1) s = fun x y => if x < N ∧ y = j then
      (if j < x then 0 else s x j) - ∑ k ∈ Finset.Ico (j + 1) N, s x k * s k j else s x y := by
  unfold solveColumn
  simp only [Nat.add_sub_cancel]
  refine loop_inv (fun i (t : Mat K) => t = fun x y => if x < i ∧ y = j then
      (if j < x then 0 else s x j) - ∑ k ∈ Finset.Ico (j + 1) N, s x k * s k j else s x y) (Nat.zero_le _) ?_ ?_
  · funext x y
    rw [if_neg (by omega)]
  · rintro i t - hi rfl
    simp only
    rw [loop_sum, zero_add]
    have hsum : ∑ k ∈ Finset.Ico (j + 1) N, (if i < i ∧ k = j then
        (if j < i then 0 else s i j) - ∑ k ∈ Finset.Ico (j + 1) N, s i k * s k j else s i k) * s.col j k =
        ∑ k ∈ Finset.Ico (j + 1) N, s i k * s k j := by
      apply Finset.sum_congr rfl
      intro k _
      rw [if_neg (by omega)]
      rfl
    rw [hsum]
    funext x y
    by_cases hij : i ≥ j + 1
    · rw [if_pos hij]
      simp only [Mat.set]
      by_cases hx : x = i ∧ y = j
      · obtain ⟨rfl, rfl⟩ := hx
        rw [if_pos ⟨rfl, rfl⟩, if_pos (by omega), if_pos (by omega), zero_sub]
      · rw [if_neg hx]
        by_cases hx2 : x < i ∧ y = j
        · rw [if_pos hx2, if_pos (show x < i + 1 ∧ y = j by omega)]
        · rw [if_neg hx2, if_neg (by omega)]
    · rw [if_neg hij]
      simp only [Mat.set]
      by_cases hx : x = i ∧ y = j
      · obtain ⟨rfl, rfl⟩ := hx
        rw [if_pos ⟨rfl, rfl⟩, if_neg (show ¬(x < x ∧ True) by omega), if_pos (show x < x + 1 ∧ y = y by omega),
          if_neg (show ¬y < x by omega)]
      · rw [if_neg hx]
        by_cases hx2 : x < i ∧ y = j
        · rw [if_pos hx2, if_pos (show x < i + 1 ∧ y = j by omega)]
        · rw [if_neg hx2, if_neg (by omega)]

omit [LinearOrder K] in
theorem solve_spec (N : ℕ) (v : Mat K) :
    ∀ i c, i < N → c < N → ∑ k ∈ Finset.Ico c N, loopDown (solveColumn N) (N - 1) v i k * low v k c = upp v i c := by
  have := loopDown_inv (fun j (s : Mat K) => (∀ x y, y < j → s x y = v x y) ∧
      ∀ i c, i < N → j ≤ c → c < N → ∑ k ∈ Finset.Ico c N, s i k * low v k c = upp v i c)
    (f := solveColumn N) (N - 1) v ?_ ?_
  · intro i c hi hc
    exact this.2 i c hi (Nat.zero_le _) hc
  · refine ⟨fun _ _ _ => rfl, ?_⟩
    intro i c hi h1 h2
    have : N = c + 1 := by omega
    rw [this, Nat.Ico_succ_singleton, Finset.sum_singleton]
    unfold low upp
    rw [if_neg (lt_irrefl c), if_pos rfl, if_pos (by omega), mul_one]
  · rintro j s hj ⟨h1, h2⟩
    rw [solveColumn_eq]
    refine ⟨?_, ?_⟩
    · intro x y hy
      simp only
      rw [if_neg (by omega)]
      exact h1 x y (by omega)
    · intro i c hi h3 h4
      simp only
      rcases Nat.lt_or_eq_of_le h3 with hlt | rfl
      · rw [← h2 i c hi hlt h4]
        apply Finset.sum_congr rfl
        intro k hk
        rw [Finset.mem_Ico] at hk
        rw [if_neg (show ¬(i < N ∧ k = j) by omega)]
      · rw [Finset.sum_eq_sum_Ico_succ_bot h4, if_pos ⟨hi, rfl⟩]
        have e1 : low v j j = 1 := by
          unfold low; rw [if_neg (lt_irrefl j), if_pos rfl]
        have e2 : ∑ k ∈ Finset.Ico (j + 1) N, (if i < N ∧ k = j then
            (if j < i then 0 else s i j) - ∑ k ∈ Finset.Ico (j + 1) N, s i k * s k j else s i k) * low v k j =
            ∑ k ∈ Finset.Ico (j + 1) N, s i k * s k j := by
          apply Finset.sum_congr rfl
          intro k hk
          rw [Finset.mem_Ico] at hk
          rw [if_neg (show ¬(i < N ∧ k = j) by omega), h1 k j (by omega)]
          unfold low
          rw [if_pos (by omega)]
        rw [e1, e2, h1 i j (by omega)]
        unfold upp
        by_cases hij : j < i
        · rw [if_pos hij, if_neg (by omega)]; ring
        · rw [if_neg hij, if_pos (by omega)]; ring

omit [LinearOrder K] in
theorem undoPivot_apply (ps : List ℕ) (j : ℕ) (s : Mat K) (x y : ℕ) :
    undoPivot ps (j + 1) s x (permFun j (ps.getD j 0) y) = s x y := by
  unfold undoPivot
  simp only [Nat.add_sub_cancel]
  generalize ps.getD j 0 = p
  by_cases hp : p = j
  · subst hp
    rw [if_neg (by simp)]
    congr 1
    unfold permFun; split_ifs <;> omega
  · rw [if_pos hp]
    have hpf : permFun j p y = if y = p then j else if y = j then p else y := rfl
    simp only [Mat.setCol, Mat.col]
    generalize permFun j p y = z at *
    by_cases h1 : y = p
    · rw [if_pos h1] at hpf
      subst hpf h1
      rw [if_neg (Ne.symm hp), if_pos rfl]
    · rw [if_neg h1] at hpf
      by_cases h2 : y = j
      · rw [if_pos h2] at hpf
        subst hpf h2
        rw [if_pos rfl]
      · rw [if_neg h2] at hpf
        subst hpf
        rw [if_neg h1, if_neg h2]

omit [LinearOrder K] in
theorem undo_spec (N : ℕ) (ps : List ℕ) (hlen : ps.length = N) (hpiv : ∀ k (h : k < ps.length), k ≤ ps[k] ∧ ps[k] < N) (X : Mat K)
    (x y : ℕ) : loopDown (undoPivot ps) (N - 1) X x (sigma 0 ps y) = X x y := by
  have := loopDown_inv (fun j (s : Mat K) => ∀ x y, s x (sigma j (ps.drop j) y) = X x y) (f := undoPivot ps) (N - 1) X ?_ ?_
  · simpa using this x y
  · intro x y
    rcases Nat.eq_zero_or_pos N with h0 | h0
    · have : ps = [] := List.length_eq_zero_iff.mp (by omega)
      subst this
      simp [sigma]
    · have hN : N - 1 < ps.length := by omega
      rw [List.drop_eq_getElem_cons hN, List.drop_eq_nil_of_le (by omega)]
      simp only [sigma]
      have : ps[N - 1] = N - 1 := by have := hpiv (N - 1) hN; omega
      rw [this]
      congr 1
      unfold permFun; split_ifs <;> omega
  · intro j s hj h x y
    have hlt : j < ps.length := by omega
    rw [List.drop_eq_getElem_cons hlt]
    simp only [sigma]
    have e : ps.getD j 0 = ps[j] := by simp [List.getD_eq_getElem?_getD, hlt]
    rw [← e, undoPivot_apply]
    exact h x y

/-! ### Matrix form -/

omit [LinearOrder K] in
theorem mul_permMat {M n k p : ℕ} (hk : k < M) (hp : p < M) (X : Matrix (Fin n) (Fin M) K) (i : Fin n) (c : Fin M) :
    (X * (permMat M k p : Matrix (Fin M) (Fin M) K)) i c = X i ⟨permFun k p c, permFun_lt hk hp c.2⟩ := by
  rw [Matrix.mul_apply, Finset.sum_eq_single ⟨permFun k p c, permFun_lt hk hp c.2⟩]
  · simp [permMat]
  · intro b _ hb
    have : permFun k p c ≠ b := by
      intro h
      apply hb
      apply Fin.ext
      exact h.symm
    simp [permMat, this]
  · intro h; exact absurd (Finset.mem_univ _) h

omit [LinearOrder K] in
theorem mul_permProd {M n : ℕ} (ps : List ℕ) : ∀ (k : ℕ), k + ps.length ≤ M → (∀ a (h : a < ps.length), ps[a] < M) →
    ∀ (X Y : Matrix (Fin n) (Fin M) K), (∀ (i : Fin n) (c : Fin M) (h : sigma k ps c < M), X i ⟨sigma k ps c, h⟩ = Y i c) →
    X * permProd M k ps = Y := by
  induction ps with
  | nil =>
    intro k _ _ X Y h
    rw [permProd, Matrix.mul_one]
    ext i c
    exact h i c c.2
  | cons p ps ih =>
    intro k hk hp X Y h
    simp only [List.length_cons] at hk
    have h0 : p < M := hp 0 (by simp)
    have hkM : k < M := by omega
    have hps : ∀ a (h : a < ps.length), ps[a] < M := fun a ha => hp (a + 1) (by simpa using ha)
    rw [permProd, ← Matrix.mul_assoc]
    apply ih (k + 1) (by omega) hps
    intro i c hc
    rw [mul_permMat hkM h0]
    exact h i c _

omit [LinearOrder K] in
theorem det_permMat {N k p : ℕ} (hk : k < N) (hp : p < N) :
    (permMat N k p : Matrix (Fin N) (Fin N) K).det = if p ≠ k then -1 else 1 := by
  have e : (permMat N k p : Matrix (Fin N) (Fin N) K) = (1 : Matrix (Fin N) (Fin N) K).submatrix (Equiv.swap ⟨k, hk⟩ ⟨p, hp⟩) id := by
    ext i j
    simp only [permMat, Matrix.of_apply, Matrix.submatrix_apply, id, Matrix.one_apply]
    have : (permFun k p j = i) ↔ (Equiv.swap (⟨k, hk⟩ : Fin N) ⟨p, hp⟩ i = j) := by
      rw [Equiv.swap_apply_def]
      unfold permFun
      simp only [Fin.ext_iff]
      split_ifs <;> first | omega | (simp only []; omega)
    by_cases h : permFun k p j = i
    · rw [if_pos h, if_pos (this.mp h)]
    · rw [if_neg h, if_neg (fun h' => h (this.mpr h'))]
  rw [e, Matrix.det_permute, Matrix.det_one, mul_one]
  by_cases h : p = k
  · subst h; simp
  · rw [Equiv.Perm.sign_swap (by simp [Fin.ext_iff, Ne.symm h]), if_pos h]
    simp

omit [LinearOrder K] in
theorem det_permProd {N : ℕ} (ps : List ℕ) : ∀ (k : ℕ), k + ps.length ≤ N → (∀ a (h : a < ps.length), ps[a] < N) →
    (permProd N k ps : Matrix (Fin N) (Fin N) K).det = ∏ a ∈ Finset.range ps.length, if ps.getD a 0 ≠ k + a then -1 else 1 := by
  induction ps with
  | nil => intro k _ _; simp [permProd]
  | cons p ps ih =>
    intro k hk hp
    simp only [List.length_cons] at hk
    have h0 : p < N := hp 0 (by simp)
    have hps : ∀ a (h : a < ps.length), ps[a] < N := fun a ha => hp (a + 1) (by simpa using ha)
    rw [permProd, Matrix.det_mul, det_permMat (by omega) h0, ih (k + 1) (by omega) hps, List.length_cons, Finset.prod_range_succ']
    rw [mul_comm]
    congr 1
    apply Finset.prod_congr rfl
    intro a _
    have : k + 1 + a = k + (a + 1) := by omega
    rw [this]
    simp

omit [LinearOrder K] in
theorem neg_one_count (ps : List ℕ) (N : ℕ) :
    (-1 : K) ^ (loop 0 N (fun i n => if ps.getD i 0 ≠ i then n + 1 else n) 0) =
      ∏ a ∈ Finset.range N, if ps.getD a 0 ≠ a then -1 else 1 := by
  refine loop_inv (fun i n => (-1 : K) ^ n = ∏ a ∈ Finset.range i, if ps.getD a 0 ≠ a then -1 else 1) (Nat.zero_le _) (by simp) ?_
  intro i n _ _ h
  rw [Finset.prod_range_succ, ← h]
  split
  · rw [pow_succ]
  · rw [mul_one]

omit [LinearOrder K] in
theorem loop_prod (b : Mat K) (N : ℕ) : loop 0 N (fun i c => c * b i i) 1 = ∏ a ∈ Finset.range N, b a a := by
  refine loop_inv (fun i c => c = ∏ a ∈ Finset.range i, b a a) (Nat.zero_le _) (by simp) ?_
  intro i n _ _ h
  rw [Finset.prod_range_succ, ← h]

omit [LinearOrder K] in
theorem det_lowerUnitri (N : ℕ) (b : Mat K) : (lowerUnitri N N b).det = 1 := by
  rw [Matrix.det_of_isLowerTriangular]
  · apply Finset.prod_eq_one
    intro i _
    simp [lowerUnitri]
  · intro i j hij
    have : i < j := hij
    simp only [lowerUnitri, Matrix.of_apply]
    have : i.val < j.val := this
    rw [if_neg (by omega), if_neg (by omega)]

omit [LinearOrder K] in
theorem det_upperTri (N : ℕ) (b : Mat K) : (upperTri N N b).det = ∏ a ∈ Finset.range N, b a a := by
  rw [Matrix.det_of_isUpperTriangular]
  · rw [← Fin.prod_univ_eq_prod_range (fun a => b a a) N]
    apply Finset.prod_congr rfl
    intro i _
    simp [upperTri]
  · intro i j hij
    have : j < i := hij
    have : j.val < i.val := this
    simp only [upperTri, Matrix.of_apply]
    rw [if_neg (by omega)]

variable [IsStrictOrderedRing K]

theorem decompose_mat (M N : ℕ) (A : Mat K) :
    toMat M N A = permProd M 0 (decompose M N A).2 * lowerUnitri M (min M N) (decompose M N A).1 * upperTri (min M N) N (decompose M N A).1 := by
  have hinv := decompose_inv M N A
  rw [Matrix.mul_assoc]
  symm
  apply permProd_mul
  · rw [hinv.len]; omega
  · intro a ha; exact (hinv.piv a ha).2
  · intro i h c
    rw [Matrix.mul_apply]
    show A (sigma 0 _ i) c = _
    rw [decompose_eq M N A i.2 c.2, ← Fin.sum_univ_eq_sum_range (fun k => low (decompose M N A).1 i k * upp (decompose M N A).1 k c)]
    rfl

theorem det_eq (N : ℕ) (A : Mat K) : det N A = (toMat N N A).det := by
  have hinv := decompose_inv N N A
  have hmat := decompose_mat N N A
  rw [Nat.min_self] at hmat hinv
  rw [hmat, Matrix.det_mul, Matrix.det_mul, det_lowerUnitri, det_upperTri, mul_one,
    det_permProd _ 0 (by rw [hinv.len]; omega) (fun a ha => (hinv.piv a ha).2), hinv.len]
  unfold det
  simp only
  rw [loop_prod]
  have := neg_one_count (K := K) (decompose N N A).2 N
  generalize loop 0 N (fun i n => if (decompose N N A).2.getD i 0 ≠ i then n + 1 else n) 0 = n at *
  simp only [Nat.zero_add]
  rw [← this]
  split
  · rename_i h
    rw [(Nat.even_iff.mpr h).neg_one_pow, one_mul]
  · rename_i h
    rw [(Nat.odd_iff.mpr (by omega)).neg_one_pow, neg_one_mul]

theorem tryInv_spec (N : ℕ) (A : Mat K) :
    (∃ R, tryInv N A = some R ∧ toMat N N R * toMat N N A = 1) ∨ (tryInv N A = none ∧ (toMat N N A).det = 0) := by
  have hinv := decompose_inv N N A
  have hmat := decompose_mat N N A
  rw [Nat.min_self] at hmat hinv
  unfold tryInv
  rcases tryUpperTriInv_spec false N (decompose N N A).1 with ⟨v, e, hv⟩ | ⟨e, -, i, hi, h0⟩
  · left
    refine ⟨_, by simp only; rw [e]; rfl, ?_⟩
    simp only
    generalize hX : loopDown (solveColumn N) (N - 1) v = X
    generalize hR : loopDown (undoPivot (decompose N N A).2) (N - 1) X = R
    have hXL : toMat N N X * lowerUnitri N N (decompose N N A).1 = upperTri N N v := by
      ext i c
      rw [Matrix.mul_apply]
      have hs := solve_spec N v i c i.2 c.2
      rw [hX] at hs
      have e1 : upperTri N N v i c = upp v i c := rfl
      rw [e1, ← hs]
      have e2 : ∀ k : Fin N, toMat N N X i k * lowerUnitri N N (decompose N N A).1 k c =
          (if c.val ≤ k.val then X i k * low v k c else 0) * (if k.val ≤ N - 1 then (fun _ => (1 : K)) k.val else 0) := by
        intro k
        have := k.2
        rw [if_pos (show k.val ≤ N - 1 by omega), mul_one]
        show X i k * low (decompose N N A).1 k c = _
        unfold low
        by_cases h1 : c.val < k.val
        · rw [if_pos h1, if_pos h1, if_pos h1.le, hv.same k c (Or.inl h1)]
        · rw [if_neg h1, if_neg h1]
          by_cases h2 : k.val = c.val
          · rw [if_pos h2, if_pos (show c.val ≤ k.val by omega)]
          · rw [if_neg h2]
            split <;> simp
      rw [Finset.sum_congr rfl (fun k _ => e2 k),
        sum_band (fun k => X i k * low v k c) (fun _ => (1 : K)) (by have := i.2; omega)]
      have : N - 1 + 1 = N := by have := i.2; omega
      rw [this]
      simp
    have hRP : toMat N N R * permProd N 0 (decompose N N A).2 = toMat N N X := by
      apply mul_permProd _ 0 (by rw [hinv.len]; omega) (fun a ha => (hinv.piv a ha).2)
      intro i c h
      show R i (sigma 0 _ c) = X i c
      rw [← hR]
      exact undo_spec N _ hinv.len hinv.piv X i c
    rw [hmat, ← Matrix.mul_assoc, ← Matrix.mul_assoc, hRP, hXL]
    exact triInv_mul hv
  · right
    refine ⟨by simp only; rw [e]; rfl, ?_⟩
    rw [hmat, Matrix.det_mul, det_upperTri, Finset.prod_eq_zero (f := fun a => (decompose N N A).1 a a) (Finset.mem_range.mpr hi) h0, mul_zero]

end Verif.LuInverse
