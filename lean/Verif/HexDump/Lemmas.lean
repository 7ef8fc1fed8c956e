import Verif.HexDump.Model
import Verif.HexDump.Spec
import Verif.IntText.Props
/-!
Lemmas about the model of the hex dump.
-/
namespace Verif.HexDump
open Verif.Buffer (Err Res bind_ok bind_err)
variable {C : Type}

/-- `fmt` gives the text `txt x` of each element `x` among those with property `P`, for any memory of a size of at most `M`. -/
def Formats (M : Nat) (fmt : Format C) (P : Int → Prop) (txt : Int → List C) : Prop :=
  ∀ x mem, P x → mem.length ≤ M → ∃ mem', mem'.length ≤ M ∧ fmt x mem = .ok (mem', txt x)

/-- Elements, each preceded by the separator. -/
def tail (sep : List C) (ts : List (List C)) : List C := ts.flatMap (sep ++ ·)

@[simp] theorem tail_nil (sep : List C) : tail sep [] = [] := rfl
@[simp] theorem tail_cons (sep t : List C) (ts) : tail sep (t :: ts) = sep ++ t ++ tail sep ts := rfl

theorem complete_cons (sep t : List C) (ts) : Spec.complete sep (t :: ts) = t ++ tail sep ts := by
  induction ts generalizing t with
  | nil => simp [Spec.complete]
  | cons u ts ih => rw [Spec.complete, ih, tail_cons]; simp

theorem tail_take_le (sep : List C) (ts : List (List C)) {k k' : Nat} (h : k ≤ k') :
    (tail sep (ts.take k)).length ≤ (tail sep (ts.take k')).length := by
  induction ts generalizing k k' with
  | nil => simp
  | cons t ts ih =>
    rcases k with _ | k
    · simp
    · rcases k' with _ | k'
      · omega
      · simp only [List.take_succ_cons, tail_cons, List.length_append]
        have := ih (k := k) (k' := k') (by omega)
        omega

theorem subSize_eq {M a b : Nat} (h : b ≤ a) (ha : a ≤ M) : subSize M a b = a - b := by
  unfold subSize
  rw [show a + (M + 1) - b = (a - b) + (M + 1) by omega, Nat.add_mod_right, Nat.mod_eq_of_lt (by omega)]

variable {M : Nat} {fmt : Format C} {P : Int → Prop} {txt : Int → List C}

theorem unlimited1_spec (F : Formats M fmt P txt) (sep : List C) (rest : List Int) (str mem out : List C)
    (hP : ∀ x ∈ rest, P x) (hm : mem.length ≤ M) :
    unlimited1 fmt sep str rest mem out = .ok (out ++ (str ++ tail sep (rest.map txt))) := by
  induction rest generalizing str mem out with
  | nil => simp [unlimited1]
  | cons x rest ih =>
    obtain ⟨mem', h1, h2⟩ := F x mem (hP x (by simp)) hm
    rw [unlimited1, h2, bind_ok]
    dsimp only
    rw [ih _ _ _ (fun y hy => hP y (by simp [hy])) h1]
    simp

theorem unlimited3_spec (F : Formats M fmt P txt) (sep : List C) (x : Int) (rest : List Int) (mem out : List C)
    (hP : ∀ y ∈ x :: rest, P y) (hm : mem.length ≤ M) :
    unlimited3 fmt sep (x :: rest) mem out = .ok (out ++ (txt x ++ tail sep (rest.map txt))) := by
  obtain ⟨mem', h1, h2⟩ := F x mem (hP x (by simp)) hm
  rw [unlimited3, h2, bind_ok]
  dsimp only
  rw [unlimited1_spec F _ _ _ _ _ (fun y hy => hP y (by simp [hy])) h1]

theorem lookAhead_spec (F : Formats M fmt P txt) (sep : List C) (rest : List Int) (size maxSize : Nat) (mem : List C)
    (hP : ∀ x ∈ rest, P x) (hm : mem.length ≤ M) (hM : maxSize ≤ M) :
    ∃ mem', mem'.length ≤ M ∧ lookAhead M fmt sep rest size maxSize mem =
      .ok (mem', decide (size + (tail sep (rest.map txt)).length ≤ maxSize)) := by
  induction rest generalizing size maxSize mem with
  | nil =>
    rw [lookAhead]
    split_ifs with h
    · exact ⟨mem, hm, by simp; omega⟩
    · exact ⟨mem, hm, by simp; omega⟩
  | cons x rest ih =>
    rw [lookAhead]
    split_ifs with h
    · refine ⟨mem, hm, ?_⟩
      rw [decide_eq_false (by omega)]
    · obtain ⟨mem', h1, h2⟩ := F x mem (hP x (by simp)) hm
      simp only [h2, bind_ok]
      split_ifs with h3
      · obtain ⟨m, h4, h5⟩ := ih (sep.length + (txt x).length) (subSize M maxSize size) mem'
          (fun y hy => hP y (by simp [hy])) h1 (by rw [subSize_eq (by omega) hM]; omega)
        refine ⟨m, h4, ?_⟩
        rw [h5, subSize_eq (by omega) hM]
        congr 3
        simp only [List.map_cons, tail_cons, List.length_append, eq_iff_iff]
        omega
      · refine ⟨mem', h1, ?_⟩
        rw [decide_eq_false]
        simp only [List.map_cons, tail_cons, List.length_append]
        omega

/-- The outcome of `next`. -/
def TailDump (sep dots : List C) (limit : Nat) (ts : List (List C)) (out : List C) : Prop :=
  ((tail sep ts).length ≤ limit → out = tail sep ts) ∧
  (limit < (tail sep ts).length → ∃ k < ts.length, out = tail sep (ts.take k) ++ dots ∧
    (tail sep (ts.take k)).length + 3 ≤ limit ∧ limit < (tail sep (ts.take (k + 1))).length + 3)

theorem next_spec (F : Formats M fmt P txt) (widen : Nat → C) (sep : List C) (data : List Int) (maxSize : Nat)
    (mem out : List C) (hne : data ≠ []) (hP : ∀ x ∈ data, P x) (hm : mem.length ≤ M) (hM : maxSize ≤ M)
    (h3 : 3 ≤ maxSize) :
    ∃ o, next M fmt widen sep data maxSize mem out = .ok (out ++ o) ∧
      TailDump sep (List.replicate 3 (widen 46)) maxSize (data.map txt) o := by
  induction data generalizing maxSize mem out with
  | nil => exact absurd rfl hne
  | cons x rest ih =>
    obtain ⟨mem', h1, h2⟩ := F x mem (hP x (by simp)) hm
    rw [next, h2, bind_ok]
    dsimp only
    by_cases hs : sep.length + (txt x).length ≤ M
    · rw [if_pos hs, subSize_eq h3 hM]
      by_cases hf : sep.length + (txt x).length ≤ maxSize - 3
      · rw [if_pos hf]
        rcases rest with _ | ⟨y, rest⟩
        · refine ⟨sep ++ txt x, by simp, ?_, ?_⟩
          · intro; simp
          · intro h; exfalso
            simp only [List.map_cons, List.map_nil, tail_cons, tail_nil, List.length_append, List.length_nil] at h
            omega
        · have hsub : subSize M maxSize (sep.length + (txt x).length) = maxSize - (sep.length + (txt x).length) :=
            subSize_eq (by omega) hM
          obtain ⟨o, e1, e2, e3⟩ := ih (subSize M maxSize (sep.length + (txt x).length)) mem' (out ++ sep ++ txt x)
            (by simp) (fun z hz => hP z (by simp at hz ⊢; tauto)) h1 (by omega) (by omega)
          refine ⟨sep ++ txt x ++ o, ?_, ?_, ?_⟩
          · dsimp only
            rw [e1]; simp
          · intro h
            rw [List.map_cons, tail_cons, List.length_append, List.length_append] at h
            rw [e2 (by omega), List.map_cons (l := y :: rest), tail_cons]
          · intro h
            rw [List.map_cons, tail_cons, List.length_append, List.length_append] at h
            obtain ⟨k, k1, k2, k3, k4⟩ := e3 (by omega)
            refine ⟨k + 1, by rw [List.map_cons, List.length_cons]; omega, ?_, ?_, ?_⟩
            · rw [k2, List.map_cons (l := y :: rest), List.take_succ_cons, tail_cons]; simp
            · rw [List.map_cons, List.take_succ_cons, tail_cons, List.length_append, List.length_append]; omega
            · rw [List.map_cons, List.take_succ_cons, tail_cons, List.length_append, List.length_append]; omega
      · rw [if_neg hf]
        obtain ⟨m, e1, e2⟩ := lookAhead_spec F sep rest (sep.length + (txt x).length) maxSize mem'
          (fun y hy => hP y (by simp [hy])) h1 hM
        rw [e2, bind_ok]
        dsimp only
        by_cases hfit : sep.length + (txt x).length + (tail sep (rest.map txt)).length ≤ maxSize
        · rw [decide_eq_true hfit, if_pos rfl]
          unfold unlimited2
          rw [unlimited3_spec F sep x rest m _ hP e1]
          refine ⟨_, by rw [List.append_assoc], ?_, ?_⟩
          · intro _; simp
          · intro h; exfalso
            rw [List.map_cons, tail_cons, List.length_append, List.length_append] at h
            omega
        · rw [decide_eq_false hfit, if_neg (by simp)]
          refine ⟨List.replicate 3 (widen 46), rfl, ?_, ?_⟩
          · intro h; exfalso
            rw [List.map_cons, tail_cons, List.length_append, List.length_append] at h
            omega
          · intro _
            refine ⟨0, by simp, by simp, by simpa using h3, ?_⟩
            simp only [List.map_cons, Nat.zero_add, List.take_succ_cons, List.take_zero, tail_cons, tail_nil,
              List.length_append, List.length_nil]
            omega
    · rw [if_neg hs]
      refine ⟨List.replicate 3 (widen 46), rfl, ?_, ?_⟩
      · intro h; exfalso
        rw [List.map_cons, tail_cons, List.length_append, List.length_append] at h
        omega
      · intro _
        refine ⟨0, by simp, by simp, by simpa using h3, ?_⟩
        simp only [List.map_cons, Nat.zero_add, List.take_succ_cons, List.take_zero, tail_cons, tail_nil,
          List.length_append, List.length_nil]
        omega

theorem complete_take_le (sep : List C) (ts : List (List C)) {k k' : Nat} (h : k ≤ k') :
    (Spec.complete sep (ts.take k)).length ≤ (Spec.complete sep (ts.take k')).length := by
  rcases ts with _ | ⟨t, ts⟩
  · simp
  rcases k with _ | k
  · simp [Spec.complete]
  rcases k' with _ | k'
  · omega
  rw [List.take_succ_cons, List.take_succ_cons, complete_cons, complete_cons, List.length_append, List.length_append]
  have := tail_take_le sep ts (k := k) (k' := k') (by omega)
  omega

theorem isDump_of {sep dots : List C} {L : Nat} {ts : List (List C)} (hd : dots.length = 3) (k : Nat)
    (hk : k < ts.length) (h1 : (Spec.complete sep (ts.take k)).length + 3 ≤ L)
    (h2 : L < (Spec.complete sep (ts.take (k + 1))).length + 3) :
    ∃ k' < ts.length, Spec.complete sep (ts.take k) ++ dots = Spec.complete sep (ts.take k') ++ dots ∧
      (Spec.complete sep (ts.take k) ++ dots).length ≤ L ∧
      ∀ k'' ≤ ts.length, (Spec.complete sep (ts.take k'') ++ dots).length ≤ L → k'' ≤ k' := by
  refine ⟨k, hk, rfl, by rw [List.length_append]; omega, ?_⟩
  intro k'' _ h
  by_contra hc
  have := complete_take_le sep ts (k := k + 1) (k' := k'') (by omega)
  rw [List.length_append] at h
  omega

theorem dump_limited (F : Formats M fmt P txt) (widen : Nat → C) (sep : List C) (data : List Int) (maxSize : Nat)
    (mem : List C) (hP : ∀ x ∈ data, P x) (hm : mem.length ≤ M) (hM : maxSize < M) (h3 : 3 ≤ M) :
    ∃ o, dump M fmt widen sep maxSize data mem = .ok o ∧
      Spec.IsDump sep (List.replicate 3 (widen 46)) (max maxSize 3) (data.map txt) o := by
  rcases data with _ | ⟨x, rest⟩
  · refine ⟨[], rfl, fun _ => rfl, fun h => ?_⟩
    simp [Spec.complete] at h
  obtain ⟨mem', h1, h2⟩ := F x mem (hP x (by simp)) hm
  rw [dump, h2, bind_ok]
  dsimp only
  rw [if_pos (show maxSize ≠ M by omega)]
  have hL : 3 ≤ max maxSize 3 := by omega
  have hLM : max maxSize 3 ≤ M := by omega
  generalize max maxSize 3 = L at *
  have hdots : (List.replicate 3 (widen 46)).length = 3 := by simp
  generalize hell : List.replicate 3 (widen 46) = dots at *
  rw [subSize_eq hL hLM]
  by_cases hf : (txt x).length ≤ L - 3
  · rw [if_pos hf]
    rcases rest with _ | ⟨y, rest⟩
    · refine ⟨txt x, rfl, ?_, ?_⟩
      · intro; simp [Spec.complete]
      · intro h; exfalso
        simp only [List.map_cons, List.map_nil, Spec.complete] at h
        omega
    · have hsub : subSize M L (txt x).length = L - (txt x).length := subSize_eq (by omega) hLM
      obtain ⟨o, e1, e2, e3⟩ := next_spec F widen sep (y :: rest) (subSize M L (txt x).length) mem' (txt x)
        (by simp) (fun z hz => hP z (by simp at hz ⊢; tauto)) h1 (by omega) (by omega)
      dsimp only
      refine ⟨txt x ++ o, e1, ?_, ?_⟩
      · intro h
        rw [List.map_cons, complete_cons, List.length_append] at h
        rw [e2 (by omega), List.map_cons (l := y :: rest), complete_cons]
      · intro h
        rw [List.map_cons, complete_cons, List.length_append] at h
        obtain ⟨k, k1, k2, k3, k4⟩ := e3 (by omega)
        have := isDump_of (sep := sep) (L := L) (ts := (x :: y :: rest).map txt) hdots (k + 1)
          (by rw [List.map_cons, List.length_cons]; omega)
          (by rw [List.map_cons, List.take_succ_cons, complete_cons, List.length_append]; omega)
          (by rw [List.map_cons, List.take_succ_cons, complete_cons, List.length_append]; omega)
        rw [k2, hell]
        rw [List.map_cons, List.take_succ_cons, complete_cons, List.append_assoc] at this
        exact this
  · rw [if_neg hf]
    obtain ⟨m, e1, e2⟩ := lookAhead_spec F sep rest (txt x).length L mem'
      (fun y hy => hP y (by simp [hy])) h1 hLM
    rw [e2, bind_ok]
    dsimp only
    by_cases hfit : (txt x).length + (tail sep (rest.map txt)).length ≤ L
    · rw [decide_eq_true hfit, if_pos rfl, unlimited3_spec F sep x rest m _ hP e1]
      refine ⟨_, rfl, ?_, ?_⟩
      · intro _; rw [List.map_cons, complete_cons]; rfl
      · intro h; exfalso
        rw [List.map_cons, complete_cons, List.length_append] at h
        omega
    · rw [decide_eq_false hfit, if_neg (by simp)]
      refine ⟨_, rfl, ?_, ?_⟩
      · intro h; exfalso
        rw [List.map_cons, complete_cons, List.length_append] at h
        omega
      · intro _
        have := isDump_of (sep := sep) (L := L) (ts := (x :: rest).map txt) hdots 0
          (by simp) (by simpa [Spec.complete] using hL)
          (by rw [List.map_cons, List.take_succ_cons, complete_cons, List.length_append]; omega)
        unfold ellipsis
        rw [hell]
        exact this

theorem dump_unlimited (F : Formats M fmt P txt) (widen : Nat → C) (sep : List C) (data : List Int)
    (mem : List C) (hP : ∀ x ∈ data, P x) (hm : mem.length ≤ M) :
    dump M fmt widen sep M data mem = .ok (Spec.complete sep (data.map txt)) := by
  rcases data with _ | ⟨x, rest⟩
  · rfl
  obtain ⟨mem', h1, h2⟩ := F x mem (hP x (by simp)) hm
  rw [dump, h2, bind_ok]
  dsimp only
  rw [if_neg (by simp), unlimited1_spec F _ _ _ _ _ (fun y hy => hP y (by simp [hy])) h1, List.map_cons, complete_cons]
  rfl

end Verif.HexDump
