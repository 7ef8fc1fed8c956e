import Verif.LiteralHashMap.Model

/-
Property theorem about literal hash maps (claim C38).
-/
namespace Verif.LiteralHashMap

set_option linter.unusedSimpArgs false

variable {K V : Type}

/-- Associations of one bucket. -/
def bucket (h : K → Nat) (M i : Nat) (assocs : List (K × V)) : List (K × V) :=
  assocs.filter (fun a => decide (h a.1 % M = i))

theorem fillBucket_spec (h : K → Nat) (N M i : Nat) (hM : M ≠ 0) (assocs : List (K × V)) :
    ∀ entries, entries.length + (bucket h M i assocs).length ≤ N →
    fillBucket h N M i assocs entries = some (entries ++ bucket h M i assocs) := by
  induction assocs with
  | nil => intro es _; simp [fillBucket, bucket]
  | cons a assocs ih =>
    intro es hlen
    obtain ⟨k, v⟩ := a
    simp only [fillBucket, hash, if_neg hM, Option.bind_eq_bind, Option.bind_some]
    by_cases c : h k % M = i
    · have hb : bucket h M i ((k, v) :: assocs) = (k, v) :: bucket h M i assocs := by
        simp [bucket, List.filter_cons, c]
      rw [hb] at hlen ⊢
      simp only [List.length_cons] at hlen
      rw [if_neg (by simp [c]), if_pos (by omega), ih _ (by simp; omega)]
      simp
    · have hb : bucket h M i ((k, v) :: assocs) = bucket h M i assocs := by
        simp [bucket, List.filter_cons, c]
      rw [hb] at hlen ⊢
      rw [if_pos c]
      exact ih _ hlen

/-- Concatenation of the first `m` buckets. -/
def upTo (h : K → Nat) (M : Nat) (assocs : List (K × V)) (m : Nat) : List (K × V) :=
  (List.range m).flatMap (fun i => bucket h M i assocs)

theorem upTo_succ (h : K → Nat) (M : Nat) (assocs : List (K × V)) (m : Nat) :
    upTo h M assocs (m + 1) = upTo h M assocs m ++ bucket h M m assocs := by
  simp [upTo, List.range_succ]

theorem filter_lt_succ (h : K → Nat) (M m : Nat) (assocs : List (K × V)) :
    (assocs.filter (fun a => decide (h a.1 % M < m + 1))).length =
      (assocs.filter (fun a => decide (h a.1 % M < m))).length + (bucket h M m assocs).length := by
  induction assocs with
  | nil => rfl
  | cons a as ih =>
    unfold bucket at *
    simp only [List.filter_cons]
    by_cases c1 : h a.1 % M < m
    · simp [c1, show h a.1 % M < m + 1 by omega, show h a.1 % M ≠ m by omega]; omega
    · by_cases c2 : h a.1 % M = m
      · simp [c2]; omega
      · simp [c1, c2, show ¬ h a.1 % M < m + 1 by omega]; omega

theorem upTo_length (h : K → Nat) (M : Nat) (assocs : List (K × V)) (m : Nat) :
    (upTo h M assocs m).length = (assocs.filter (fun a => decide (h a.1 % M < m))).length := by
  induction m with
  | zero => simp [upTo]; exact (List.length_eq_zero_iff.mpr (by simp)).symm
  | succ m ih => rw [upTo_succ, List.length_append, filter_lt_succ, ih]

theorem upTo_length_all (h : K → Nat) (M : Nat) (hM : M ≠ 0) (assocs : List (K × V)) :
    (upTo h M assocs M).length = assocs.length := by
  rw [upTo_length, List.filter_eq_self.mpr]
  intro a _
  simpa using Nat.mod_lt _ (by omega)

theorem fillBuckets_spec (h : K → Nat) (M : Nat) (hM : M ≠ 0) (assocs : List (K × V)) (n : Nat) :
    ∀ m buckets, m + n ≤ M →
    fillBuckets h assocs.length M assocs (List.range' m n) (upTo h M assocs m) buckets =
      some (upTo h M assocs (m + n), buckets ++ (List.range' m n).map (fun i => (upTo h M assocs i).length)) := by
  induction n with
  | zero => intro m b _; simp [fillBuckets]
  | succ n ih =>
    intro m b hm
    rw [List.range'_succ]
    simp only [fillBuckets, Option.bind_eq_bind]
    rw [fillBucket_spec h _ M m hM, Option.bind_some, ← upTo_succ, ih (m + 1) _ (by omega)]
    · simp [Nat.add_assoc, Nat.add_comm 1 n]
    · rw [← List.length_append, ← upTo_succ, upTo_length]
      exact List.length_filter_le ..

theorem findLoop_spec [DecidableEq K] (key : K) (slice : List (K × V)) :
    ∀ pre post, findLoop (pre ++ slice ++ post) key pre.length slice.length =
      some ((slice.find? (fun a => decide (a.1 = key))).map (·.2)) := by
  induction slice with
  | nil => intro pre post; rfl
  | cons a as ih =>
    intro pre post
    have hg : (pre ++ a :: as ++ post)[pre.length]? = some a := by simp
    simp only [List.length_cons, findLoop, hg, Option.bind_eq_bind, Option.bind_some, List.find?_cons]
    by_cases c : a.1 = key
    · simp [c]
    · simp only [c, decide_false, if_false]
      have := ih (pre ++ [a]) post
      simp only [List.length_append, List.length_cons, List.length_nil, List.append_assoc, List.cons_append,
        List.nil_append] at this
      simpa using this

theorem find_bucket [DecidableEq K] (h : K → Nat) (M : Nat) (assocs : List (K × V)) (key : K) :
    (bucket h M (h key % M) assocs).find? (fun a => decide (a.1 = key)) =
      assocs.find? (fun a => decide (a.1 = key)) := by
  induction assocs with
  | nil => rfl
  | cons a as ih =>
    unfold bucket at *
    rw [List.filter_cons]
    by_cases c : a.1 = key
    · simp [c]
    · by_cases c2 : h a.1 % M = h key % M
      · simp [c, c2, ih]
      · simp [c, c2, ih]

theorem upTo_split (h : K → Nat) (M : Nat) (assocs : List (K × V)) (i : Nat) (hi : i < M) :
    ∃ post, upTo h M assocs M = upTo h M assocs i ++ bucket h M i assocs ++ post := by
  rw [← upTo_succ]
  obtain ⟨d, rfl⟩ : ∃ d, M = i + 1 + d := ⟨M - (i + 1), by omega⟩
  refine ⟨(List.range' (i + 1) d).flatMap (fun j => bucket h (i + 1 + d) j assocs), ?_⟩
  unfold upTo
  rw [← List.flatMap_append, List.range_eq_range', List.range_eq_range']
  have := List.range'_append_1 (s := 0) (m := i + 1) (n := d)
  rw [Nat.zero_add] at this
  rw [this]

/-- C38. For every list of associations, number of buckets (at least one), and hash function,
initialization succeeds, and a lookup then returns the value of the first association with that key,
or fails if there is no such association; there is no access outside the arrays. -/
theorem C38_find [DecidableEq K] (h : K → Nat) (M : Nat) (hM : 0 < M) (assocs : List (K × V)) :
    ∃ st, init h M assocs = some st ∧
      ∀ key, find h M st assocs.length key = some ((assocs.find? (fun a => decide (a.1 = key))).map (·.2)) := by
  have hM' : M ≠ 0 := by omega
  have hf := fillBuckets_spec h M hM' assocs M 0 [] (by omega)
  rw [← List.range_eq_range', Nat.zero_add, List.nil_append] at hf
  have h0 : upTo h M assocs 0 = [] := rfl
  rw [h0] at hf
  refine ⟨(upTo h M assocs M, (List.range M).map (fun i => (upTo h M assocs i).length)), ?_, ?_⟩
  · simp only [init, hf, Option.bind_eq_bind, Option.bind_some]
    rw [if_pos (upTo_length_all h M hM' assocs)]
  · intro key
    have hlt : h key % M < M := Nat.mod_lt _ hM
    obtain ⟨post, hpost⟩ := upTo_split h M assocs (h key % M) hlt
    simp only [find, hash, if_neg hM', Option.bind_eq_bind, Option.bind_some]
    have hb : ((List.range M).map (fun i => (upTo h M assocs i).length))[h key % M]? =
        some (upTo h M assocs (h key % M)).length := by simp [List.getElem?_range hlt]
    rw [hb, Option.bind_some]
    have he : (if M - h key % M = 1 then some assocs.length
        else ((List.range M).map (fun i => (upTo h M assocs i).length))[h key % M + 1]?) =
        some (upTo h M assocs (h key % M + 1)).length := by
      by_cases c : M - h key % M = 1
      · rw [if_pos c, show h key % M + 1 = M by omega, upTo_length_all h M hM']
      · rw [if_neg c]
        have hlt2 : h key % M + 1 < M := by omega
        simp [List.getElem?_range hlt2]
    have hj : ∀ g : Nat → Option (Option V), (if M - h key % M = 1 then g assocs.length
        else ((List.range M).map (fun i => (upTo h M assocs i).length))[h key % M + 1]?.bind g) =
        g (upTo h M assocs (h key % M + 1)).length := by
      intro g
      by_cases c : M - h key % M = 1
      · rw [if_pos c] at he ⊢
        injection he with he; rw [he]
      · rw [if_neg c] at he ⊢
        rw [he]; rfl
    rw [hj (fun e => findLoop (upTo h M assocs M) key (upTo h M assocs (h key % M)).length
      (e - (upTo h M assocs (h key % M)).length))]
    have hd : (upTo h M assocs (h key % M + 1)).length - (upTo h M assocs (h key % M)).length =
        (bucket h M (h key % M) assocs).length := by
      rw [upTo_succ, List.length_append]; omega
    rw [hd, hpost, findLoop_spec, find_bucket]

/-- C38 for maps initialized from reversed pairs. -/
theorem C38_find_rev [DecidableEq K] (h : K → Nat) (M : Nat) (hM : 0 < M) (assocs : List (V × K)) :
    ∃ st, initRev h M assocs = some st ∧
      ∀ key, find h M st assocs.length key = some ((assocs.find? (fun a => decide (a.2 = key))).map (·.1)) := by
  obtain ⟨st, e, hf⟩ := C38_find h M hM (assocs.map (fun a => (a.2, a.1)))
  refine ⟨st, e, fun key => ?_⟩
  rw [List.length_map] at hf
  rw [hf, List.find?_map, Option.map_map]
  rfl

/-- The number of buckets that is chosen when none is specified is good (arrays are never empty). -/
theorem C38_default_buckets (M N : Nat) (hN : 0 < N) : 0 < numBuckets M N := by
  unfold numBuckets; split <;> omega

/-- Collisions, an empty bucket, a duplicate key. -/
example : (do
    let st ← init (fun k : Nat => k) 3 [(4, 'a'), (1, 'b'), (7, 'c'), (0, 'd'), (4, 'e')]
    let a ← find (fun k : Nat => k) 3 st 5 4
    let b ← find (fun k : Nat => k) 3 st 5 7
    let c ← find (fun k : Nat => k) 3 st 5 10
    let d ← find (fun k : Nat => k) 3 st 5 2
    some (st, a, b, c, d)) =
    some (([(0, 'd'), (4, 'a'), (1, 'b'), (7, 'c'), (4, 'e')], [0, 1, 5]), some 'a', some 'c', none, none) := by
  decide +kernel

end Verif.LiteralHashMap
