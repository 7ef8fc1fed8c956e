import Verif.Edid.Model
import Mathlib.Algebra.BigOperators.Group.List.Basic
import Mathlib.Data.List.GetD
import Mathlib.Data.List.Induction

/-!
# Properties of parser for EDID (C143)
-/

namespace Verif.Edid

/-! ## Specification -/

/-- The base block is acceptable: it is complete, the sum of its bytes is a multiple of 256, and the version is at least 1.4. -/
def Acceptable (data : List ℕ) : Prop :=
  128 ≤ data.length ∧ 256 ∣ (data.take 128).sum ∧ (1 < data.getD 18 0 ∨ (data.getD 18 0 = 1 ∧ 4 ≤ data.getD 19 0))

/-- A descriptor. There are four, of 18 bytes each, beginning at byte 54. -/
def slot (data : List ℕ) (j : ℕ) : List ℕ := (data.drop (54 + j * 18)).take 18

/-- If a descriptor specifies the name of the monitor, this is the name: It begins at byte 5 of the descriptor, and ends before the first
newline character, or at the end of the descriptor. -/
def slotName (slot : List ℕ) : Option (List ℕ) :=
  if slot.getD 0 0 = 0 ∧ slot.getD 1 0 = 0 ∧ slot.getD 3 0 = 0xFC then some ((slot.drop 5).takeWhile (· ≠ 0x0A)) else none

/-- The names that are specified by the descriptors. -/
def names (data : List ℕ) : List (List ℕ) := ((List.range 4).map (slot data)).filterMap slotName

/-! ## Proofs -/

theorem read_eq {data : List ℕ} {i : ℕ} (h : i < data.length) : read data i = some (data.getD i 0) := by
  unfold read
  rw [List.getD_eq_getElem?_getD, List.getElem?_eq_getElem h]
  rfl

theorem sumLoop_eq (data : List ℕ) (hb : ∀ x ∈ data, x < 256) : ∀ (k i u c : ℕ), i + k ≤ data.length → u < 256 →
    ∃ u', u' < 256 ∧ sumLoop data k i u c = some (u', c + ((data.drop i).take k).sum) := by
  intro k
  induction k with
  | zero => intro i u c _ hu; exact ⟨u, hu, by simp [sumLoop]⟩
  | succ k ih =>
    intro i u c hi hu
    have hlt : i < data.length := by omega
    have hx : data[i] < 256 := hb _ (List.getElem_mem hlt)
    obtain ⟨u', h1, h2⟩ := ih (i + 1) (u ||| data[i]) (c + data[i]) (by omega) (Nat.or_lt_two_pow (n := 8) hu hx)
    refine ⟨u', h1, ?_⟩
    rw [sumLoop, read_eq hlt, List.getD_eq_getElem _ _ hlt]
    simp only [Option.bind_eq_bind, Option.bind_some, h2]
    rw [List.drop_eq_getElem_cons hlt, List.take_succ_cons, List.sum_cons]
    congr 2
    omega

theorem nameLoop_eq (data : List ℕ) (base : ℕ) : ∀ (k n : ℕ), base + 5 + n + k ≤ data.length →
    ∃ m, nameLoop data base k n = some m ∧ n ≤ m ∧ m ≤ n + k ∧
      (data.drop (base + 5 + n)).take (m - n) = ((data.drop (base + 5 + n)).take k).takeWhile (· ≠ 0x0A) := by
  intro k
  induction k with
  | zero => intro n _; exact ⟨n, rfl, Nat.le_refl _, Nat.le_refl _, by simp⟩
  | succ k ih =>
    intro n h
    have hlt : base + 5 + n < data.length := by omega
    rw [nameLoop, read_eq hlt, List.getD_eq_getElem _ _ hlt]
    simp only [Option.bind_eq_bind, Option.bind_some]
    by_cases hc : data[base + 5 + n] ≠ 0x0A
    · rw [if_pos hc]
      obtain ⟨m, h1, h2, h3, h4⟩ := ih (n + 1) (by omega)
      refine ⟨m, h1, by omega, by omega, ?_⟩
      rw [List.drop_eq_getElem_cons hlt, List.take_succ_cons, List.takeWhile_cons, if_pos (by simpa using hc)]
      rw [show m - n = (m - (n + 1)) + 1 by omega, List.take_succ_cons]
      congr 1
    · rw [if_neg hc]
      refine ⟨n, rfl, Nat.le_refl _, by omega, ?_⟩
      rw [List.drop_eq_getElem_cons hlt, List.take_succ_cons, List.takeWhile_cons, if_neg (by simpa using hc), Nat.sub_self, List.take_zero]

/-- Effect of a name on the result. -/
def addName (transcode : List ℕ → List ℕ) (s : Option (ℕ × ℕ) × List ℕ) (name : List ℕ) : Option (ℕ × ℕ) × List ℕ :=
  (some (s.2.length, (transcode name).length), s.2 ++ transcode name)

theorem descriptor_eq (transcode : List ℕ → List ℕ) (data : List ℕ) (hl : 128 ≤ data.length) (j : ℕ) (hj : j < 4)
    (s : Option (ℕ × ℕ) × List ℕ) :
    descriptor transcode data j s = some (match slotName (slot data j) with
      | some name => addName transcode s name
      | none => s) := by
  have hg : ∀ i, i < 18 → (slot data j).getD i 0 = data.getD (54 + j * 18 + i) 0 := by
    intro i hi
    simp only [slot, List.getD_eq_getElem?_getD, List.getElem?_take, hi, if_true, List.getElem?_drop]
  have hdrop : (slot data j).drop 5 = (data.drop (54 + j * 18 + 5)).take 13 := by
    rw [slot, List.drop_take, List.drop_drop]
  unfold descriptor slotName
  rw [hg 0 (by omega), hg 1 (by omega), hg 3 (by omega), hdrop]
  simp only [read_eq (show 54 + j * 18 < data.length by omega), read_eq (show 54 + j * 18 + 1 < data.length by omega),
    read_eq (show 54 + j * 18 + 3 < data.length by omega), Option.bind_eq_bind, Option.bind_some, add_zero]
  obtain ⟨n, h1, -, h3, h4⟩ := nameLoop_eq data (54 + j * 18) 13 0 (by omega)
  simp only [Nat.sub_zero, add_zero] at h4
  rw [h1]
  generalize data.getD (54 + j * 18) 0 = b0
  generalize data.getD (54 + j * 18 + 1) 0 = b1
  generalize data.getD (54 + j * 18 + 3) 0 = b3
  by_cases h0 : b0 = 0
  · by_cases h01 : b1 = 0
    · by_cases h03 : b3 = 0xFC
      · simp only [h0, h01, h03, if_true, and_self, h4, addName, Option.bind_some, Option.pure_def, decide_true]
        simp
      · simp [h0, h01, h03]
    · simp [h0, h01]
  · simp [h0]

theorem descriptors_eq (transcode : List ℕ → List ℕ) (data : List ℕ) (hl : 128 ≤ data.length) : ∀ (k j : ℕ) (s : Option (ℕ × ℕ) × List ℕ),
    j + k ≤ 4 → descriptors transcode data k j s =
      some ((((List.range' j k).map (slot data)).filterMap slotName).foldl (addName transcode) s) := by
  intro k
  induction k with
  | zero => intro j s _; rfl
  | succ k ih =>
    intro j s h
    rw [descriptors, descriptor_eq transcode data hl j (by omega)]
    simp only [Option.bind_eq_bind, Option.bind_some, List.range'_succ, List.map_cons]
    rw [ih _ _ (by omega)]
    cases hn : slotName (slot data j) with
    | none => rw [List.filterMap_cons_none hn]
    | some name => rw [List.filterMap_cons_some hn, List.foldl_cons]

theorem foldl_addName (transcode : List ℕ → List ℕ) : ∀ (l : List (List ℕ)) (s : Option (ℕ × ℕ) × List ℕ),
    l.foldl (addName transcode) s = (match l.getLast? with
      | some name => some ((s.2 ++ (l.dropLast.map transcode).flatten).length, (transcode name).length)
      | none => s.1, s.2 ++ (l.map transcode).flatten) := by
  intro l
  induction l using List.reverseRecOn with
  | nil => intro s; simp
  | append_singleton l x ih =>
    intro s
    rw [List.foldl_append, ih]
    simp [addName]

/-- There is no undefined behavior, and the data is accepted exactly when the base block is acceptable. -/
theorem C143_accept (transcode : List ℕ → List ℕ) (data : List ℕ) (hb : ∀ x ∈ data, x < 256) (stringData : List ℕ) :
    ∃ r, parse transcode data stringData = some r ∧ (r.isSome ↔ Acceptable data) := by
  unfold parse Acceptable
  by_cases hl : data.length ≥ 128
  · rw [if_pos hl]
    obtain ⟨u, hu, hs⟩ := sumLoop_eq data hb 128 0 0 0 (by omega) (by omega)
    rw [List.drop_zero, Nat.zero_add] at hs
    have hu' : (u ||| 255) = 255 := by
      have : ∀ u, u < 256 → (u ||| 255) = 255 := by decide +kernel
      exact this u hu
    simp only [hs, read_eq (show 18 < data.length by omega), read_eq (show 19 < data.length by omega), Option.bind_eq_bind, Option.bind_some,
      hu', true_and, Nat.dvd_iff_mod_eq_zero, descriptors_eq transcode data hl 4 0 _ (by omega)]
    by_cases h1 : (data.take 128).sum % 256 = 0
    · rw [if_pos h1]
      by_cases h2 : data.getD 18 0 > 1 ∨ (data.getD 18 0 = 1 ∧ data.getD 19 0 ≥ 4)
      · rw [if_pos h2]
        exact ⟨_, rfl, by simpa [h1, hl] using h2⟩
      · rw [if_neg h2]
        exact ⟨_, rfl, by simpa [h1, hl] using h2⟩
    · rw [if_neg h1]
      exact ⟨_, rfl, by simp [h1]⟩
  · rw [if_neg hl]
    exact ⟨none, rfl, by simp [hl]⟩

/-- When the data is accepted, the version is reported as it is in the data. If no descriptor specifies a name, no name is reported, and the
string data is left as it was. Otherwise, what was already there is retained, and the reported name is the part of the string data that is
the last specified name in the local encoding. -/
theorem C143_result (transcode : List ℕ → List ℕ) (data : List ℕ) (hb : ∀ x ∈ data, x < 256) (stringData : List ℕ) (info : Info)
    (stringData' : List ℕ) (h : parse transcode data stringData = some (some (info, stringData'))) :
    info.major = data.getD 18 0 ∧ info.minor = data.getD 19 0 ∧ stringData <+: stringData' ∧
    (names data = [] → info.monitorName = none ∧ stringData' = stringData) ∧
    ∀ name, (names data).getLast? = some name → ∃ offset size, info.monitorName = some (offset, size) ∧
      stringData.length ≤ offset ∧ offset + size = stringData'.length ∧ (stringData'.drop offset).take size = transcode name := by
  unfold parse at h
  by_cases hl : data.length ≥ 128
  · rw [if_pos hl] at h
    obtain ⟨u, hu, hs⟩ := sumLoop_eq data hb 128 0 0 0 (by omega) (by omega)
    simp only [hs, read_eq (show 18 < data.length by omega), read_eq (show 19 < data.length by omega), Option.bind_eq_bind, Option.bind_some,
      descriptors_eq transcode data hl 4 0 _ (by omega)] at h
    split_ifs at h
    · rw [foldl_addName] at h
      have hnames : ((List.range' 0 4).map (slot data)).filterMap slotName = names data := by
        rw [names, List.range_eq_range']
      rw [hnames] at h
      simp only [Option.pure_def, Option.some.injEq, Prod.mk.injEq] at h
      obtain ⟨rfl, rfl⟩ := h
      refine ⟨rfl, rfl, List.prefix_append _ _, ?_, ?_⟩
      · intro hn
        simp [hn]
      · intro name hn
        obtain ⟨l, hl2⟩ := List.getLast?_eq_some_iff.mp hn
        simp only [hn]
        refine ⟨_, _, rfl, by simp, ?_, ?_⟩
        · rw [hl2]; simp; omega
        · rw [hl2]
          simp only [List.dropLast_concat, List.map_append, List.flatten_append, List.map_cons, List.map_nil, List.flatten_cons,
            List.flatten_nil, List.append_nil]
          rw [← List.append_assoc, List.drop_left', List.take_length]
          rfl
    all_goals cases h
  · rw [if_neg hl] at h
    cases h

/-- Only the first 128 bytes, and the previous string data have an influence on the result. -/
theorem C143_base_block (transcode : List ℕ → List ℕ) (data rest : List ℕ) (hb : ∀ x ∈ data ++ rest, x < 256) (hl : data.length = 128)
    (stringData : List ℕ) : parse transcode (data ++ rest) stringData = parse transcode data stringData := by
  have hb1 : ∀ x ∈ data, x < 256 := fun x hx => hb x (List.mem_append_left _ hx)
  obtain ⟨u, hu, hs⟩ := sumLoop_eq data hb1 128 0 0 0 (by omega) (by omega)
  obtain ⟨v, hv, ht⟩ := sumLoop_eq (data ++ rest) hb 128 0 0 0 (by simp; omega) (by omega)
  have hor : ∀ u, u < 256 → (u ||| 255) = 255 := by decide +kernel
  have htake : (data ++ rest).take 128 = data.take 128 := by rw [List.take_append_of_le_length (by omega)]
  have hget : ∀ i, i < 128 → (data ++ rest).getD i 0 = data.getD i 0 := by
    intro i hi
    rw [List.getD_append _ _ _ _ (by omega)]
  have hslot : ∀ j, j < 4 → slot (data ++ rest) j = slot data j := by
    intro j hj
    unfold slot
    rw [List.drop_append_of_le_length (by omega), List.take_append_of_le_length (by rw [List.length_drop]; omega)]
  have hslots : (List.range' 0 4).map (slot (data ++ rest)) = (List.range' 0 4).map (slot data) := by
    apply List.map_congr_left
    intro j hj
    rw [List.mem_range'_1] at hj
    exact hslot j (by omega)
  have hl1 : (data ++ rest).length ≥ 128 := by simp; omega
  unfold parse
  rw [if_pos hl1, if_pos (show data.length ≥ 128 by omega)]
  simp only [hs, ht, List.drop_zero, htake, read_eq (show 18 < data.length by omega), read_eq (show 19 < data.length by omega),
    read_eq (show 18 < (data ++ rest).length by omega), read_eq (show 19 < (data ++ rest).length by omega), hget 18 (by omega),
    hget 19 (by omega), Option.bind_eq_bind, Option.bind_some, hor u hu, hor v hv,
    descriptors_eq transcode (data ++ rest) hl1 4 0 _ (by omega), descriptors_eq transcode data (by omega) 4 0 _ (by omega), hslots]

/-- A base block of version 1.4 whose second descriptor specifies the name "Hi". -/
def sample : List ℕ :=
  List.replicate 18 0 ++ [1, 4] ++ List.replicate 52 0 ++ [0, 0, 0, 0xFC, 0, 72, 105, 0x0A, 32] ++ List.replicate 46 0 ++ [0x24]

example : sample.length = 128 ∧ names sample = [[72, 105]] := by decide +kernel
example : Acceptable sample := by
  refine ⟨by decide +kernel, by decide +kernel, Or.inr (by decide +kernel)⟩
example : parse id sample [1, 2, 3] = some (some ({ major := 1, minor := 4, monitorName := some (3, 2) }, [1, 2, 3, 72, 105])) := by
  decide +kernel

end Verif.Edid
