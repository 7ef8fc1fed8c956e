import Verif.Buffer.Lemmas
/-
The properties of buffers and of the growth policy. `M` is the maximum value of `std::size_t`.
-/
namespace Verif.Buffer

/-! ### C16 -/

/-- The suggested size is between the requirements and the maximum, no assertion fails, and the growth is by at
least one half unless capped by the maximum. All intermediate values are bounded by the result, so they do
not overflow. -/
theorem C16_suggest (cur min max : Nat) (h1 : cur ≤ max) (h2 : min ≤ max) :
    ∃ n, suggestNewBufferSize cur min max = .ok n ∧ min ≤ n ∧ cur ≤ n ∧ n ≤ max ∧
      (min ≤ cur → n = cur) ∧ (cur < min → n = max ∨ cur + cur / 2 ≤ n) := by
  obtain ⟨n, hn, h3, h4, h5, h6⟩ := suggest_spec h1 h2
  refine ⟨n, hn, h3, h4, h5, ?_, fun h => (h6 h).imp id And.left⟩
  intro h
  unfold suggestNewBufferSize at hn
  simp only [h1, h2, not_true_eq_false, if_false, ge_iff_le, h, if_true] at hn
  cases hn; rfl

example : suggestNewBufferSize 10 11 100 = .ok 15 := by decide
example : suggestNewBufferSize 10 40 100 = .ok 40 := by decide
example : suggestNewBufferSize 18446744073709551000 18446744073709551001 18446744073709551615 = .ok 18446744073709551615 := by
  decide +kernel

/-- Append elements one at a time, and count reallocations (reallocation always changes the size). -/
def pushAll (M : Nat) (d : α) : List α → List α × Nat → Nat → Res ((List α × Nat) × Nat)
  | [], st, k => .ok (st, k)
  | v :: vs, st, k =>
    match appendA M d st.1 v st.2 1 with
    | .ok st' => pushAll M d vs st' (if st'.1.length = st.1.length then k else k + 1)
    | .error e => .error e

theorem pushAll_spec (M : Nat) (d : α) : ∀ (vs mem : List α) (o k : Nat), o ≤ mem.length → mem.length ≤ M →
    o + vs.length ≤ M →
    (k = 0 ∨ mem.length = M ∨ (1 ≤ mem.length ∧ 4 ^ (k - 1) ≤ 3 ^ (k - 1) * mem.length)) →
    (k ≤ 2 ∨ 4 ^ (k - 2) ≤ 3 ^ (k - 2) * o) →
    ∃ mem' k', pushAll M d vs (mem, o) k = .ok ((mem', o + vs.length), k') ∧ o + vs.length ≤ mem'.length ∧
      mem'.take (o + vs.length) = mem.take o ++ vs ∧
      (k' ≤ 2 ∨ 4 ^ (k' - 2) ≤ 3 ^ (k' - 2) * (o + vs.length))
  | [], mem, o, k, h1, h2, h3, hP, hQ => ⟨mem, k, rfl, by simpa using h1, by simp, by simpa using hQ⟩
  | v :: vs, mem, o, k, h1, h2, h3, hP, hQ => by
    simp only [List.length_cons] at h3
    obtain ⟨m', e1, e2, e3, e4, e5, e6, e7⟩ := (append_spec (d := d) (data := [v]) h1 h2).1 (by simp; omega)
    simp only [List.length_singleton] at e1 e2 e5 e6 e7
    unfold pushAll
    dsimp only
    rw [appendA_eq, show List.replicate 1 v = [v] from rfl, e1]
    dsimp only
    have key : ∃ mem' k', pushAll M d vs (m', o + 1) (if m'.length = mem.length then k else k + 1) =
          .ok ((mem', o + 1 + vs.length), k') ∧ o + 1 + vs.length ≤ mem'.length ∧
        mem'.take (o + 1 + vs.length) = m'.take (o + 1) ++ vs ∧
        (k' ≤ 2 ∨ 4 ^ (k' - 2) ≤ 3 ^ (k' - 2) * (o + 1 + vs.length)) := by
      by_cases hl : m'.length = mem.length
      · rw [if_pos hl]
        refine pushAll_spec M d vs m' (o + 1) k e2 e4 (by omega) (by rw [hl]; exact hP) ?_
        rcases hQ with hQ | hQ
        · exact Or.inl hQ
        · right; rw [Nat.mul_add]; omega
      · rw [if_neg hl]
        have hlt : mem.length < o + 1 := by
          by_contra hc
          exact hl (e6 (by omega))
        have hLo : mem.length = o := by omega
        refine pushAll_spec M d vs m' (o + 1) (k + 1) e2 e4 (by omega) (Or.inr ?_) ?_
        · rcases e7 hlt with h | h
          · exact Or.inl h
          · right
            have hge : mem.length + mem.length / 2 ≤ m'.length ∧ mem.length + 1 ≤ m'.length := by
              rw [h, hLo]; exact ⟨Nat.le_max_left _ _, Nat.le_max_right _ _⟩
            refine ⟨by omega, ?_⟩
            rcases hP with hP | hP | hP
            · subst hP; simp; omega
            · omega
            · rcases Nat.eq_zero_or_pos k with hk | hk
              · subst hk; simp; omega
              · obtain ⟨j, rfl⟩ : ∃ j, k = j + 1 := ⟨k - 1, by omega⟩
                simp only [Nat.add_sub_cancel] at hP ⊢
                rw [pow_succ, pow_succ]
                have h5 : 4 * mem.length ≤ 3 * m'.length := by omega
                calc 4 ^ j * 4 ≤ 3 ^ j * mem.length * 4 := Nat.mul_le_mul_right 4 hP.2
                  _ = 3 ^ j * (4 * mem.length) := by ring
                  _ ≤ 3 ^ j * (3 * m'.length) := Nat.mul_le_mul_left _ h5
                  _ = 3 ^ j * 3 * m'.length := by ring
        · rcases Nat.lt_or_ge k 2 with hk | hk
          · left; omega
          · right
            rcases hP with hP | hP | hP
            · omega
            · omega
            · rw [show k + 1 - 2 = k - 1 by omega, Nat.mul_add]
              rw [hLo] at hP; omega
    obtain ⟨mem', k', f1, f2, f3, f4⟩ := key
    refine ⟨mem', k', ?_, ?_, ?_, ?_⟩ <;> simp only [List.length_cons, show o + (vs.length + 1) = o + 1 + vs.length by omega]
    · exact f1
    · exact f2
    · rw [f3, e5]; simp
    · exact f4

/-- Appending any number of elements one at a time succeeds as long as the size is representable, keeps everything
in order, and the number of reallocations is at most logarithmic in the number of elements. -/
theorem C16_amortized (M : Nat) (d : α) (vs mem : List α) (o : Nat) (h1 : o ≤ mem.length) (h2 : mem.length ≤ M)
    (h3 : o + vs.length ≤ M) :
    ∃ mem' k, pushAll M d vs (mem, o) 0 = .ok ((mem', o + vs.length), k) ∧
      mem'.take (o + vs.length) = mem.take o ++ vs ∧ (k ≤ 2 ∨ 4 ^ (k - 2) ≤ 3 ^ (k - 2) * (o + vs.length)) := by
  obtain ⟨mem', k, f1, -, f3, f4⟩ := pushAll_spec M d vs mem o 0 h1 h2 h3 (Or.inl rfl) (Or.inl (by omega))
  exact ⟨mem', k, f1, f3, f4⟩

example : pushAll 100 0 [1, 2, 3, 4, 5] ([], 0) 0 = .ok (([1, 2, 3, 4, 5, 0], 5), 5) := by decide +kernel
example : pushAll 5 0 [1, 2, 3, 4, 5] ([9, 9], 1) 0 = .error .lengthError := by decide +kernel

/-! ### C58 -/

/-- `append()` places the data after the first `offset` elements, reallocating if needed, and fails with
`std::length_error` exactly if the required size exceeds the maximum of `std::size_t`. -/
theorem C58_append (M : Nat) (d : α) (mem data : List α) (offset : Nat) (ho : offset ≤ mem.length)
    (hm : mem.length ≤ M) :
    (offset + data.length ≤ M → ∃ mem', append M d mem data offset = .ok (mem', offset + data.length) ∧
      offset + data.length ≤ mem'.length ∧ mem'.length ≤ M ∧
      mem'.take (offset + data.length) = mem.take offset ++ data) ∧
    (M < offset + data.length → append M d mem data offset = .error .lengthError) := by
  refine ⟨fun h => ?_, (append_spec ho hm).2⟩
  obtain ⟨m', e1, e2, -, e4, e5, -⟩ := (append_spec (d := d) (data := data) ho hm).1 h
  exact ⟨m', e1, e2, e4, e5⟩

/-- The same for the repetition of one value. -/
theorem C58_append_a (M : Nat) (d : α) (mem : List α) (v : α) (offset n : Nat) :
    appendA M d mem v offset n = append M d mem (List.replicate n v) offset := appendA_eq M d mem v offset n

/-- `prepend()` places the data before the last `size() - offset` elements. -/
theorem C58_prepend (M : Nat) (d : α) (mem data : List α) (offset : Nat) (ho : offset ≤ mem.length)
    (hm : mem.length ≤ M) :
    (mem.length - offset + data.length ≤ M → ∃ mem' o, prepend M d mem data offset = .ok (mem', o) ∧
      o ≤ mem'.length ∧ mem'.length ≤ M ∧ mem'.drop o = data ++ mem.drop offset) ∧
    (M < mem.length - offset + data.length → prepend M d mem data offset = .error .lengthError) := by
  refine ⟨fun h => ?_, (prepend_spec ho hm).2⟩
  obtain ⟨m', o, e1, e2, e3, e4, -⟩ := (prepend_spec (d := d) (data := data) ho hm).1 h
  exact ⟨m', o, e1, e2, e4, e3⟩

/-- The same for the repetition of one value. -/
theorem C58_prepend_a (M : Nat) (d : α) (mem : List α) (v : α) (offset n : Nat) :
    prependA M d mem v offset n = prepend M d mem (List.replicate n v) offset := prependA_eq M d mem v offset n

/-- `assign()` places the data at the beginning. -/
theorem C58_assign (M : Nat) (d : α) (mem data : List α) (hm : mem.length ≤ M) :
    (data.length ≤ M → ∃ mem', assign M d mem data = .ok mem' ∧ mem'.take data.length = data) ∧
    (M < data.length → assign M d mem data = .error .lengthError) := by
  unfold assign reserve reserveA
  constructor
  · intro h
    by_cases h1 : data.length ≤ mem.length
    · rw [if_pos h1, bind_ok, copyN_ok (by omega) (by omega)]
      exact ⟨_, rfl, by simp⟩
    · rw [if_neg h1]
      unfold doReserve
      rw [if_pos ⟨h, by omega⟩]
      obtain ⟨n, hn, h2, h3, h4, -⟩ := suggest_spec hm h
      rw [Nat.add_zero, hn, bind_ok]
      dsimp only
      rw [copyN_ok (by omega) (by omega), bind_ok, copyN_ok (by omega) (by simp; omega)]
      exact ⟨_, rfl, by simp⟩
  · intro h
    rw [if_neg (by omega)]
    unfold doReserve
    rw [if_neg (by omega), bind_err]

/-- Expansion grows by at least one element, and preserves the used part. -/
theorem C58_expand (d : α) (mem : List α) (used max : Nat) (hu : used ≤ mem.length) :
    (mem.length < max → ∃ mem', expand d mem used max = .ok mem' ∧ mem.length < mem'.length ∧ mem'.length ≤ max ∧
      mem'.take used = mem.take used) ∧
    (max ≤ mem.length → expand d mem used max = .error .lengthError) := by
  unfold expand expandA reserveExtraA
  simp only [le_refl, not_true_eq_false, if_false, Nat.sub_self, show ¬ (1 ≤ 0) by omega]
  unfold doReserve
  constructor
  · intro h
    rw [if_pos ⟨by omega, by omega⟩]
    obtain ⟨n, hn, h2, h3, h4, -⟩ := suggest_spec (show mem.length ≤ max by omega) (show mem.length + 1 ≤ max by omega)
    rw [hn, bind_ok]
    dsimp only
    rw [copyN_ok (by omega) (by simp; omega)]
    refine ⟨_, rfl, ?_, ?_, ?_⟩
    · simp; omega
    · simp; omega
    · simp [List.take_append_of_le_length, hu]
  · intro h
    rw [if_neg (by omega)]

example : append 100 0 [1, 2, 3, 9] [4, 5] 3 = .ok ([1, 2, 3, 4, 5, 0], 5) := by decide +kernel
example : prepend 100 0 [9, 2, 3] [4, 5] 1 = .ok ([4, 5, 2, 3], 0) := by decide +kernel
example : prepend 100 0 [9, 9, 9, 9, 2] [4, 5] 4 = .ok ([9, 9, 4, 5, 2], 2) := by decide +kernel

/-! ### C15 for buffers -/

/-- Checked access to a buffer is correct for every index except the size. Full claim: the same without the
hypothesis; it is false, see `C15_buffer_defect`. -/
theorem C15_buffer_partial (mem : List α) (i : Nat) (h : i ≠ mem.length) :
    at_ mem i = match mem[i]? with
      | some x => .ok x
      | none => .error .outOfRange := by
  unfold at_
  by_cases hi : i < mem.length
  · rw [if_pos (by omega), List.getElem?_eq_getElem hi]
  · rw [if_neg (by omega), List.getElem?_eq_none (by omega)]

/-- The defect: when the index is equal to the size, memory outside the buffer is accessed. -/
theorem C15_buffer_defect (mem : List α) : at_ mem mem.length = .error .ub := by
  unfold at_
  rw [if_pos (Nat.le_refl _), List.getElem?_eq_none (Nat.le_refl _)]

example : at_ [10, 20, 30] 2 = .ok 30 := by decide
example : at_ [10, 20, 30] 4 = .error .outOfRange := by decide

end Verif.Buffer
