import Verif.Buffer.Model
import Mathlib.Tactic.Linarith
import Mathlib.Tactic.Ring
namespace Verif.Buffer

theorem bind_ok (x : α) (f : α → Res β) : ((Except.ok x : Res α) >>= f) = f x := rfl
theorem bind_err (e : Err) (f : α → Res β) : ((Except.error e : Res α) >>= f) = .error e := rfl

theorem suggest_spec {cur min max : Nat} (h1 : cur ≤ max) (h2 : min ≤ max) :
    ∃ n, suggestNewBufferSize cur min max = .ok n ∧ min ≤ n ∧ cur ≤ n ∧ n ≤ max ∧
      (cur < min → n = max ∨ (cur + cur / 2 ≤ n ∧ n = Nat.max (cur + cur / 2) min)) := by
  unfold suggestNewBufferSize
  simp only [h1, h2, not_true_eq_false, if_false, ge_iff_le]
  split
  · exact ⟨cur, rfl, by omega, by omega, by omega, by omega⟩
  · split
    · split
      · refine ⟨_, rfl, by omega, by omega, by omega, fun _ => Or.inr ⟨by omega, ?_⟩⟩
        exact (Nat.max_eq_left (by omega)).symm
      · refine ⟨_, rfl, by omega, by omega, by omega, fun _ => Or.inr ⟨by omega, ?_⟩⟩
        exact (Nat.max_eq_right (by omega)).symm
    · exact ⟨max, rfl, by omega, by omega, by omega, fun _ => Or.inl rfl⟩

theorem copyN_ok {src dst : List α} {i n j : Nat} (h1 : i + n ≤ src.length) (h2 : j + n ≤ dst.length) :
    copyN src i n dst j = .ok (dst.take j ++ (src.drop i).take n ++ dst.drop (j + n)) := by
  unfold copyN; rw [if_pos ⟨h1, h2⟩]

theorem fillN_ok {dst : List α} {j n : Nat} {v : α} (h2 : j + n ≤ dst.length) :
    fillN dst j n v = .ok (dst.take j ++ List.replicate n v ++ dst.drop (j + n)) := by
  unfold fillN; rw [if_pos h2]

/-- Reserving extra space: exact outcome. -/
theorem reserveExtra_spec {d : α} {mem : List α} {extra used max : Nat} (hu : used ≤ mem.length) (hm : mem.length ≤ max) :
    (used + extra ≤ max → ∃ mem', reserveExtra d mem extra used max = .ok mem' ∧ used + extra ≤ mem'.length ∧
      mem.length ≤ mem'.length ∧ mem'.length ≤ max ∧ mem'.take used = mem.take used ∧
      (used + extra ≤ mem.length → mem' = mem) ∧
      (mem.length < used + extra → mem'.length = max ∨ mem'.length = Nat.max (mem.length + mem.length / 2) (used + extra))) ∧
    (max < used + extra → reserveExtra d mem extra used max = .error .lengthError) := by
  unfold reserveExtra reserveExtraA
  simp only [hu, not_true_eq_false, if_false]
  constructor
  · intro h
    by_cases h1 : extra ≤ mem.length - used
    · rw [if_pos h1]
      exact ⟨mem, rfl, by omega, by omega, by omega, rfl, fun _ => rfl, by omega⟩
    · rw [if_neg h1]
      unfold doReserve
      rw [if_pos ⟨by omega, by omega⟩]
      obtain ⟨n, hn, h2, h3, h4, h5⟩ := suggest_spec hm h
      rw [hn, bind_ok]
      dsimp only
      rw [copyN_ok (by omega) (by simp; omega)]
      refine ⟨_, rfl, ?_, ?_, ?_, ?_, by omega, ?_⟩ <;> simp only [List.take_zero, List.nil_append, List.drop_zero,
        List.length_append, List.length_take, List.length_drop, List.length_replicate]
      · omega
      · omega
      · omega
      · rw [List.take_append_of_le_length (by rw [List.length_take]; omega), List.take_take, Nat.min_self]
      · intro hlt
        have e : min used mem.length + (n - (0 + used)) = n := by omega
        rw [e]
        rcases h5 (by omega) with h | h
        · exact Or.inl h
        · exact Or.inr h.2
  · intro h
    rw [if_neg (by omega)]
    unfold doReserve
    rw [if_neg (by omega)]

theorem take_copy {mem data : List α} {j : Nat} (h : j + data.length ≤ mem.length) :
    (mem.take j ++ data ++ mem.drop (j + data.length)).take (j + data.length) = mem.take j ++ data := by
  rw [List.take_append_of_le_length (by simp; omega), List.take_of_length_le (by simp)]

theorem append_spec {M : Nat} {d : α} {mem data : List α} {offset : Nat} (ho : offset ≤ mem.length) (hm : mem.length ≤ M) :
    (offset + data.length ≤ M → ∃ mem', append M d mem data offset = .ok (mem', offset + data.length) ∧
      offset + data.length ≤ mem'.length ∧ mem.length ≤ mem'.length ∧ mem'.length ≤ M ∧
      mem'.take (offset + data.length) = mem.take offset ++ data ∧
      (offset + data.length ≤ mem.length → mem'.length = mem.length) ∧
      (mem.length < offset + data.length → mem'.length = M ∨
        mem'.length = Nat.max (mem.length + mem.length / 2) (offset + data.length))) ∧
    (M < offset + data.length → append M d mem data offset = .error .lengthError) := by
  have hr := reserveExtra_spec (d := d) (extra := data.length) ho hm
  unfold append
  constructor
  · intro h
    obtain ⟨mem', h1, h2, h3, h4, h5, h6, h7⟩ := hr.1 h
    rw [h1, bind_ok, copyN_ok (by omega) (by omega), bind_ok]
    simp only [List.drop_zero, List.take_length]
    refine ⟨_, rfl, ?_, ?_, ?_, ?_, ?_, ?_⟩
    · simp; omega
    · simp; omega
    · simp; omega
    · rw [take_copy h2, h5]
    · intro hle; rw [h6 hle]; simp; omega
    · intro hlt
      have : (mem'.take offset ++ data ++ mem'.drop (offset + data.length)).length = mem'.length := by simp; omega
      rw [this]; exact h7 hlt
  · intro h
    rw [hr.2 h, bind_err]

theorem appendA_eq (M : Nat) (d : α) (mem : List α) (v : α) (offset n : Nat) :
    appendA M d mem v offset n = append M d mem (List.replicate n v) offset := by
  unfold appendA append
  simp only [List.length_replicate]
  cases reserveExtra d mem n offset M with
  | error e => rfl
  | ok mem' =>
    rw [bind_ok, bind_ok]
    unfold fillN copyN
    by_cases h : offset + n ≤ mem'.length
    · rw [if_pos h, if_pos ⟨by simp, h⟩]
      simp only [List.drop_zero, List.take_of_length_le (show (List.replicate n v).length ≤ n by simp)]
    · rw [if_neg h, if_neg (by omega)]

theorem prependReserve_spec {M : Nat} {d : α} {mem : List α} {n offset : Nat} (ho : offset ≤ mem.length) (hm : mem.length ≤ M) :
    (mem.length - offset + n ≤ M → ∃ mem' o, prependReserve M d mem n offset = .ok (mem', o) ∧ n ≤ o ∧ o ≤ mem'.length ∧
      mem'.drop o = mem.drop offset ∧ mem'.length ≤ M ∧ mem.length ≤ mem'.length ∧ (n ≤ offset → mem' = mem ∧ o = offset)) ∧
    (M < mem.length - offset + n → prependReserve M d mem n offset = .error .lengthError) := by
  unfold prependReserve reserveExtraA
  simp only [show ¬ offset > mem.length by omega, if_false, show mem.length - offset ≤ mem.length by omega,
    not_true_eq_false]
  constructor
  · intro h
    by_cases h1 : n ≤ mem.length - (mem.length - offset)
    · rw [if_pos h1, bind_ok]
      exact ⟨mem, _, rfl, by omega, by omega, by simp, by omega, by omega, fun _ => ⟨rfl, by omega⟩⟩
    · rw [if_neg h1]
      unfold doReserve
      rw [if_pos ⟨by omega, by omega⟩]
      obtain ⟨k, hk, h2, h3, h4, -⟩ := suggest_spec hm h
      rw [hk, bind_ok]
      dsimp only
      rw [copyN_ok (by omega) (by simp; omega), bind_ok]
      simp only [List.length_replicate]
      have e : (mem.drop offset).take (mem.length - offset) = mem.drop offset :=
        List.take_of_length_le (by simp)
      rw [e]
      have hl : (List.take (k - (mem.length - offset)) (List.replicate k d) ++ List.drop offset mem ++
          List.drop (k - (mem.length - offset) + (mem.length - offset)) (List.replicate k d)).length = k := by
        simp; omega
      refine ⟨_, _, rfl, ?_, ?_, ?_, ?_, ?_, by omega⟩
      · rw [hl]; omega
      · rw [hl]; omega
      · rw [hl, show offset + (k - mem.length) = k - (mem.length - offset) by omega, List.append_assoc,
          List.drop_append_of_le_length (by simp)]
        rw [List.drop_of_length_le (by simp), List.nil_append]
        simp only [List.drop_replicate]
        rw [show k - (k - (mem.length - offset) + (mem.length - offset)) = 0 by omega]
        simp
      · rw [hl]; exact h4
      · rw [hl]; exact h3
  · intro h
    rw [if_neg (by omega)]
    unfold doReserve
    rw [if_neg (by omega), bind_err]

theorem prepend_spec {M : Nat} {d : α} {mem data : List α} {offset : Nat} (ho : offset ≤ mem.length) (hm : mem.length ≤ M) :
    (mem.length - offset + data.length ≤ M → ∃ mem' o, prepend M d mem data offset = .ok (mem', o) ∧ o ≤ mem'.length ∧
      mem'.drop o = data ++ mem.drop offset ∧ mem'.length ≤ M ∧ mem.length ≤ mem'.length) ∧
    (M < mem.length - offset + data.length → prepend M d mem data offset = .error .lengthError) := by
  have hr := prependReserve_spec (d := d) (n := data.length) ho hm
  unfold prepend
  constructor
  · intro h
    obtain ⟨mem', o, h1, h2, h3, h4, h5, h6, -⟩ := hr.1 h
    rw [h1, bind_ok]
    dsimp only
    rw [if_neg (by omega), copyN_ok (by omega) (by omega), bind_ok]
    refine ⟨_, _, rfl, ?_, ?_, ?_, ?_⟩
    · simp; omega
    · simp only [List.drop_zero, List.take_length]
      rw [List.append_assoc, List.drop_append_of_le_length (by simp; omega), List.drop_of_length_le (by simp),
        List.nil_append, show o - data.length + data.length = o by omega, h4]
    · simp; omega
    · simp; omega
  · intro h
    rw [hr.2 h, bind_err]

theorem prependA_eq (M : Nat) (d : α) (mem : List α) (v : α) (offset n : Nat) :
    prependA M d mem v offset n = prepend M d mem (List.replicate n v) offset := by
  unfold prependA prepend
  simp only [List.length_replicate]
  cases prependReserve M d mem n offset with
  | error e => rfl
  | ok r =>
    obtain ⟨mem', o⟩ := r
    rw [bind_ok, bind_ok]
    dsimp only
    split
    · rfl
    · unfold fillN copyN
      by_cases h : o - n + n ≤ mem'.length
      · rw [if_pos h, if_pos ⟨by simp, h⟩]
        simp only [List.drop_zero, List.take_of_length_le (show (List.replicate n v).length ≤ n by simp)]
      · rw [if_neg h, if_neg (by omega)]

end Verif.Buffer
