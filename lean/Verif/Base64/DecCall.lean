import Verif.Base64.DecLemmas

namespace Verif.Base64
open Spec

/-- Prepend output to a result. -/
def pre (w : List Nat) (r : List Nat × Verdict) : List Nat × Verdict := (w ++ r.1, r.2)

theorem pre_pre (a b : List Nat) (r) : pre a (pre b r) = pre (a ++ b) r := by simp [pre]
theorem pre_nil (r : List Nat × Verdict) : pre [] r = r := by simp [pre]

/-- What one call of the decoder achieves. -/
structure DecPost (cfg : DecCfg) (eoi : Bool) (cap : Nat) (total : List Nat → List Nat × Verdict)
    (r : DecRes) (w : List Nat) : Prop where
  len : w.length ≤ cap
  inv : DecInv cfg r.st r.rest
  tot : ∀ more, (eoi = true → more = []) → total more = pre w (decRem cfg r.st (r.rest ++ more))
  full : r.why = .full → w.length = cap ∧ ∀ more, (decRem cfg r.st (r.rest ++ more)).1 ≠ []
  need : r.why = .needInput → eoi = false ∧ r.rest = []
  done : r.why = .done → eoi = true ∧ r.rest = [] ∧ decRem cfg r.st [] = ([], .done)
  bad : r.why = .bad → r.rest ≠ [] ∧ ∀ more, decRem cfg r.st (r.rest ++ more) = ([], .bad)
  prem : r.why = .premature → eoi = true ∧ r.rest = [] ∧ decRem cfg r.st [] = ([], .premature)

theorem DecPost.shift {cfg eoi cap cap' w w' r} {total total' : List Nat → List Nat × Verdict}
    (h : DecPost cfg eoi cap' total' r w') (hc : w.length + cap' = cap)
    (ht : ∀ more, (eoi = true → more = []) → total more = pre w (total' more)) :
    DecPost cfg eoi cap total r (w ++ w') where
  len := by have := h.len; simp; omega
  inv := h.inv
  tot m hm := by rw [ht m hm, h.tot m hm, pre_pre]
  full hf := by
    obtain ⟨h1, h2⟩ := h.full hf
    exact ⟨by simp; omega, h2⟩
  need := h.need
  done := h.done
  bad := h.bad
  prem := h.prem

theorem decRem_in {cfg : DecCfg} {s : DecSt} (inv : DInvIn s) (data) :
    decRem cfg s data = dref cfg s.P data := by simp [decRem, inv.inp, inv.pad]

theorem decRem_out {cfg : DecCfg} {s : DecSt} (inv : DInvOut s) (hp : s.paddingSize = 0) (data) :
    decRem cfg s data = pre s.Q (dref cfg [] data) := by simp [decRem, inv.outp, hp, pre]

theorem decRem_outBad {cfg : DecCfg} {s : DecSt} (inv : DInvOut s) (hp : s.paddingSize ≠ 0) (data) :
    decRem cfg s data = (s.Q, .bad) := by simp [decRem, inv.outp, hp]

theorem Q_length {s : DecSt} (inv : DInvOut s) : s.Q.length = s.holdingSize := by
  have := inv.len; have := inv.size
  simp [DecSt.Q]; omega

theorem Q_drop {s : DecSt} (inv : DInvOut s) {cap : Nat} (hc : cap < s.holdingSize) :
    DecSt.Q { s with holdingSize := s.holdingSize - cap } = s.Q.drop cap := by
  have := inv.size
  simp only [DecSt.Q, List.drop_drop]
  congr 1; omega

theorem inv_full {s : DecSt} (inv : DInvOut s) {cap : Nat} (hc : cap < s.holdingSize) :
    DInvOut { s with holdingSize := s.holdingSize - cap } :=
  ⟨inv.outp, by simp only; omega, by have := inv.size; simp only; omega, inv.len⟩

theorem inv_toInput {s : DecSt} (inv : DInvOut s) (hp : s.paddingSize = 0) :
    DInvIn { s with holdingSize := 0, holdingOutput := false } :=
  ⟨rfl, hp, by simp, inv.len, by simp [DecSt.P]⟩

theorem P_toInput (s : DecSt) : DecSt.P { s with holdingSize := 0, holdingOutput := false } = [] := by
  simp [DecSt.P]

/-- The buffer became full while producing output. -/
theorem DecPost.ofFull {cfg : DecCfg} {eoi cap rest} {out : List Nat} {s : DecSt}
    {total : List Nat → List Nat × Verdict} (inv : DInvOut s) (hc : cap < s.holdingSize)
    (hr : s.paddingSize ≠ 0 → cfg.padding ≠ .reject ∧ ∃ t, rest = 61 :: t)
    (ht : ∀ more, (eoi = true → more = []) → total more = decRem cfg s (rest ++ more)) :
    DecPost cfg eoi cap total ⟨.full, { s with holdingSize := s.holdingSize - cap }, rest, out⟩
      (s.Q.take cap) where
  len := by simp; omega
  inv := .inr (.inl ⟨inv_full inv hc, hr⟩)
  tot m hm := by
    rw [ht m hm]
    by_cases hp : s.paddingSize = 0
    · rw [decRem_out inv hp, decRem_out (inv_full inv hc) hp, Q_drop inv hc, pre_pre, List.take_append_drop]
    · rw [decRem_outBad inv hp, decRem_outBad (inv_full inv hc) hp, Q_drop inv hc, pre, List.take_append_drop]
  full _ := by
    have hl := Q_length inv
    refine ⟨by simp; omega, ?_⟩
    intro more h
    have hd : s.Q.drop cap = [] := by
      by_cases hp : s.paddingSize = 0
      · rw [decRem_out (inv_full inv hc) hp, Q_drop inv hc, pre] at h
        simp only [List.append_eq_nil_iff] at h
        exact h.1
      · rw [decRem_outBad (inv_full inv hc) hp, Q_drop inv hc] at h
        exact h
    have := congrArg List.length hd
    simp at this; omega
  need := by simp
  done := by simp
  bad := by simp
  prem := by simp

theorem DecPost.ofBad {cfg : DecCfg} {eoi cap rest} {out : List Nat} {s : DecSt}
    {total : List Nat → List Nat × Verdict}
    (inv : DecInv cfg s rest) (hr : rest ≠ [])
    (ht : ∀ more, (eoi = true → more = []) → total more = decRem cfg s (rest ++ more))
    (hb : ∀ more, decRem cfg s (rest ++ more) = ([], .bad)) :
    DecPost cfg eoi cap total ⟨.bad, s, rest, out⟩ [] where
  len := by simp
  inv := inv
  tot m hm := by rw [ht m hm, pre_nil]
  full := by simp
  need := by simp
  done := by simp
  bad _ := ⟨hr, hb⟩
  prem := by simp

theorem decodeChar_eq : decodeChar 61 = 64 := by decide

theorem not_regular_64 (cfg : DecCfg) : isRegular cfg 64 = false := by
  cases cfg with | mk u p w => cases u <;> rfl

theorem validPartial_none {s : DecSt} (h3 : s.hold.length = 4) (hs : s.holdingSize < 4)
    (h : partialBytes s.P = none) : validPartial s = false := by
  have := validPartial_iff s h3 hs
  rw [h] at this
  simpa using this

theorem dref_pad (cfg : DecCfg) (P t : List Nat) (hp : cfg.padding ≠ .reject) :
    dref cfg P (61 :: t) = ((partialBytes P).getD [], .bad) := by
  rw [dref.eq_def]
  simp [decodeChar_eq, not_regular_64, hp]

theorem dref_pad' (cfg : DecCfg) (P t : List Nat) (hp : ¬ cfg.padding ≠ .reject) :
    dref cfg P (61 :: t) = ([], .bad) := by
  rw [dref.eq_def]
  simp only [decodeChar_eq, not_regular_64, hp]
  simp

/-- The loop on an unconsumed `=`. -/
theorem decPadding_spec (cfg : DecCfg) (eoi : Bool) (t : List Nat) (cap : Nat) (s : DecSt) (out : List Nat)
    (inv : DInvIn s) :
    ∃ r w, decPadding cfg (61 :: t) 4 cap s out = some r ∧ r.out = out ++ w ∧
      DecPost cfg eoi cap (fun more => decRem cfg s (61 :: t ++ more)) r w := by
  by_cases hp : cfg.padding ≠ .reject
  · cases hx : partialBytes s.P with
    | none =>
      have hv := validPartial_none inv.len inv.size hx
      refine ⟨⟨.bad, s, 61 :: t, out⟩, [], by simp [decPadding, hv], by simp, DecPost.ofBad (.inl inv) (by simp) (by simp) ?_⟩
      intro more
      rw [decRem_in inv, List.cons_append, dref_pad cfg _ _ hp, hx]; rfl
    | some x =>
      -- the state when `partial` is reached
      let s1 : DecSt := { s with paddingSize := 4 - s.holdingSize }
      have hl : s.P.length = s.holdingSize := by
        have := inv.len; have := inv.size; simp [DecSt.P]; omega
      have hsz := partialBytes_size hx
      rw [hl] at hsz
      have hv : ∀ k, validPartial { s with paddingSize := k } = true := fun k =>
        (validPartial_iff { s with paddingSize := k } inv.len inv.size).mpr (by
          show (partialBytes s.P).isSome = true; simp [hx])
      have hv0 : validPartial s = true := hv s.paddingSize
      have hpad := inv.pad
      obtain ⟨s2, e2, inv2, hQ2, hp2⟩ := decPartial_spec s1 x inv.inp inv.size inv.len inv.vals hx
      have hp2' : s2.paddingSize ≠ 0 := by rw [hp2]; simp only [s1]; omega
      have key : ∀ fuel, decPadding cfg (61 :: t) (fuel + 2) cap s out =
          (if s.holdingSize + 1 < 4 then
            decPadding cfg (61 :: t) (fuel + 1) cap { s with paddingSize := 1 } out else
            match decPartial s1 with
            | none => none
            | some s =>
              match decOutput cap s out with
              | none => none
              | some (.full s out) => some ⟨.full, s, 61 :: t, out⟩
              | some (.toInput s cap out) => decPadding cfg (61 :: t) (fuel + 1) cap s out) := by
        intro fuel
        rw [decPadding.eq_def]
        simp only [hp, hv0, and_self, if_true, hpad, Nat.zero_add, ne_eq, not_false_eq_true]
        split
        · rfl
        · have : s1 = { s with paddingSize := 1 } := by
            simp only [s1]; congr 1; omega
          rw [this]
          rfl
      have key2 : ∀ fuel, s.holdingSize = 2 → decPadding cfg (61 :: t) (fuel + 1) cap { s with paddingSize := 1 } out =
            match decPartial s1 with
            | none => none
            | some s =>
              match decOutput cap s out with
              | none => none
              | some (.full s out) => some ⟨.full, s, 61 :: t, out⟩
              | some (.toInput s cap out) => decPadding cfg (61 :: t) fuel cap s out := by
        intro fuel h2
        rw [decPadding.eq_def]
        have hv1 := hv 1
        rw [h2] at hv1
        have : s1 = { s with paddingSize := 2, holdingSize := 2 } := by
            simp only [s1, h2]
        rw [this]
        simp only [hp, h2, hv1, and_self, if_true, ne_eq, not_false_eq_true]
        rfl
      have main : ∃ fuel, decPadding cfg (61 :: t) 4 cap s out =
          match decPartial s1 with
            | none => none
            | some s =>
              match decOutput cap s out with
              | none => none
              | some (.full s out) => some ⟨.full, s, 61 :: t, out⟩
              | some (.toInput s cap out) => decPadding cfg (61 :: t) (fuel + 1) cap s out := by
        rw [key 2]
        rcases hsz.1 with h2 | h2
        · rw [if_pos (by omega), key2 _ h2]
          exact ⟨1, rfl⟩
        · rw [if_neg (by omega)]
          exact ⟨2, rfl⟩
      obtain ⟨fuel, main⟩ := main
      rw [main]
      simp only [e2]
      have htot : ∀ more, decRem cfg s (61 :: t ++ more) = (s2.Q, .bad) := by
        intro more
        rw [decRem_in inv, List.cons_append, dref_pad cfg _ _ hp, hx, hQ2]; rfl
      rcases decOutput_spec cap s2 out inv2 with ⟨hc, e3⟩ | ⟨hc, e3⟩
      · simp only [e3]
        refine ⟨_, _, rfl, rfl, DecPost.ofFull inv2 hc (fun _ => ⟨hp, t, rfl⟩) ?_⟩
        intro more _
        rw [htot, decRem_outBad inv2 hp2']
      · simp only [e3]
        rw [decPadding.eq_def]
        have hv3 : validPartial { s2 with holdingSize := 0, holdingOutput := false } = false := by
          simp [validPartial]
        simp only [hv3, Bool.false_eq_true, and_false, if_false]
        refine ⟨_, s2.Q ++ [], rfl, by simp, ?_⟩
        refine DecPost.shift (cap' := cap - s2.holdingSize) (total' := fun _ => ([], .bad))
          (DecPost.ofBad (.inr (.inr ⟨⟨⟨rfl, hp2', rfl, inv2.len⟩, t, rfl⟩, hp⟩)) (by simp) ?_ ?_) ?_ ?_
        · intro more _; simp [decRem, hp2']
        · intro more; simp [decRem, hp2']
        · rw [Q_length inv2]; omega
        · intro more _; rw [htot]; simp [pre]
  · refine ⟨⟨.bad, s, 61 :: t, out⟩, [], ?_, by simp, DecPost.ofBad (.inl inv) (by simp) (by simp) ?_⟩
    · rw [decPadding.eq_def]; simp only [hp, false_and, if_false]
    · intro more
      rw [decRem_in inv, List.cons_append, dref_pad' cfg _ _ hp]

theorem decodeChar_64 {ch : Nat} (h : decodeChar ch = 64) : ch = 61 := by
  unfold decodeChar at h
  split at h
  · rename_i hm
    have : alnum.idxOf ch < alnum.length := List.idxOf_lt_length_iff.mpr hm
    rw [h] at this
    simp [alnum] at this
  · split at h; · omega
    split at h; · omega
    split at h; · omega
    split at h; · omega
    split at h
    · assumption
    split at h <;> omega

theorem decInput_spec (cfg : DecCfg) (eoi : Bool) (data : List Nat) (cap : Nat) (s : DecSt)
    (out : List Nat) (inv : DInvIn s) :
    ∃ r w, decInput cfg eoi data cap s out = some r ∧ r.out = out ++ w ∧
      DecPost cfg eoi cap (fun more => decRem cfg s (data ++ more)) r w := by
  have hPlen : ∀ s : DecSt, DInvIn s → s.P.length = s.holdingSize := by
    intro s inv
    have := inv.len; have := inv.size
    simp [DecSt.P]; omega
  induction data generalizing cap s out with
  | nil =>
    unfold decInput
    simp only [inv.inp, Bool.false_eq_true, if_false, inv.pad, if_true]
    have hl := hPlen s inv
    cases eoi with
    | false =>
      refine ⟨_, [], rfl, by simp, ⟨by simp, .inl inv, by simp [pre_nil], by simp, by simp, by simp, by simp, by simp⟩⟩
    | true =>
      simp only [Bool.not_true, Bool.false_eq_true, if_false]
      by_cases h0 : s.holdingSize = 0
      · have hP : s.P = [] := by apply List.eq_nil_of_length_eq_zero; omega
        have hv := validPartial_none inv.len inv.size (by rw [hP]; rfl)
        simp only [hv, Bool.false_eq_true, and_false, if_false, h0, if_true]
        refine ⟨_, [], rfl, by simp, ⟨by simp, .inl inv, by simp [pre_nil], by simp, by simp, ?_, by simp, by simp⟩⟩
        intro _
        refine ⟨rfl, rfl, ?_⟩
        rw [decRem_in inv, hP]; simp [dref]
      · have hne : s.P ≠ [] := by intro h; rw [h] at hl; simp at hl; omega
        cases hx : partialBytes s.P with
        | none =>
          have hv := validPartial_none inv.len inv.size hx
          simp only [hv, Bool.false_eq_true, and_false, if_false, h0]
          refine ⟨_, [], rfl, by simp, ⟨by simp, .inl inv, by simp [pre_nil], by simp, by simp, by simp, by simp, ?_⟩⟩
          intro _
          refine ⟨rfl, rfl, ?_⟩
          rw [decRem_in inv]; simp [dref, hne, hx]
        | some x =>
          have hv : validPartial s = true := (validPartial_iff s inv.len inv.size).mpr (by simp [hx])
          by_cases hreq : cfg.padding = .require
          · simp only [hreq, ne_eq, not_true_eq_false, false_and, if_false, h0]
            refine ⟨_, [], rfl, by simp, ⟨by simp, .inl inv, by simp [pre_nil], by simp, by simp, by simp, by simp, ?_⟩⟩
            intro _
            refine ⟨rfl, rfl, ?_⟩
            rw [decRem_in inv]; simp [dref, hne, hx, hreq]
          · simp only [hreq, ne_eq, not_false_eq_true, true_and, hv, if_true]
            obtain ⟨s2, e2, inv2, hQ2, hp2⟩ := decPartial_spec s x inv.inp inv.size inv.len inv.vals hx
            simp only [e2]
            have hp2' : s2.paddingSize = 0 := by rw [hp2, inv.pad]
            have htot : decRem cfg s [] = (s2.Q, .done) := by
              rw [decRem_in inv, hQ2]; simp [dref, hne, hx, hreq]
            rcases decOutput_spec cap s2 out inv2 with ⟨hc, e3⟩ | ⟨hc, e3⟩
            · simp only [e3]
              refine ⟨_, _, rfl, rfl, DecPost.ofFull inv2 hc (fun h => absurd hp2' h) ?_⟩
              intro more hm
              have := hm rfl
              subst this
              simp only [List.append_nil]
              rw [htot, decRem_out inv2 hp2']
              simp [dref, pre]
            · simp only [e3]
              rw [if_neg (by simp [hp2'])]
              have inv3 := inv_toInput inv2 hp2'
              have hr3 : decRem cfg { s2 with holdingSize := 0, holdingOutput := false } [] = ([], .done) := by
                rw [decRem_in inv3, P_toInput]; simp [dref]
              refine ⟨_, s2.Q, rfl, rfl, ⟨by rw [Q_length inv2]; omega, .inl inv3, ?_, by simp, by simp, ?_, by simp, by simp⟩⟩
              · intro more hm
                have := hm rfl
                subst this
                simp only [List.append_nil]
                rw [htot, hr3]; simp [pre]
              · intro _
                exact ⟨rfl, rfl, hr3⟩
  | cons ch rest ih =>
    unfold decInput
    have hl := hPlen s inv
    have hsz := inv.size
    have hlen := inv.len
    have hg : ¬(s.holdingOutput = true ∨ s.holdingSize ≥ 4) := by simp [inv.inp]; omega
    simp only [hg, if_false]
    by_cases hreg : isRegular cfg (decodeChar ch) = true
    · simp only [hreg, if_true, inv.pad]
      have hP' : (s.hold.set s.holdingSize (decodeChar ch &&& 63)).take (s.holdingSize + 1) =
          s.P ++ [decodeChar ch % 64] := by
        rw [and_63, List.take_set, List.take_add_one]
        have hl : s.holdingSize < s.hold.length := by omega
        unfold DecSt.P
        rw [List.getElem?_eq_getElem hl, Option.toList_some, List.set_append]
        have hlen : (List.take s.holdingSize s.hold).length = s.holdingSize := by simp; omega
        rw [hlen]; simp
      have hvals : ∀ v ∈ s.P ++ [decodeChar ch % 64], v < 64 := by
        intro v hv
        rw [List.mem_append] at hv
        rcases hv with hv | hv
        · exact inv.vals v hv
        · rw [List.mem_singleton] at hv; subst hv; exact Nat.mod_lt _ (by decide)
      by_cases h3 : s.holdingSize + 1 < 4
      · simp only [h3, if_true]
        have inv1 : DInvIn { s with hold := s.hold.set s.holdingSize (decodeChar ch &&& 63), holdingSize := s.holdingSize + 1 } :=
          ⟨inv.inp, inv.pad, h3, by simpa using inv.len, by
            show ∀ v ∈ (s.hold.set s.holdingSize (decodeChar ch &&& 63)).take (s.holdingSize + 1), v < 64
            rw [hP']; exact hvals⟩
        have hst : (⟨s.holdingOutput, 0, s.holdingSize + 1, s.hold.set s.holdingSize (decodeChar ch &&& 63)⟩ : DecSt) =
            { s with hold := s.hold.set s.holdingSize (decodeChar ch &&& 63), holdingSize := s.holdingSize + 1 } := by
          simp [inv.pad]
        obtain ⟨r, w, e, ho, post⟩ := ih cap _ out inv1
        refine ⟨r, w, by first | exact e | (rw [hst]; exact e), ho, ?_⟩
        have heq : ∀ more, decRem cfg s (ch :: rest ++ more) =
            decRem cfg { s with hold := s.hold.set s.holdingSize (decodeChar ch &&& 63), holdingSize := s.holdingSize + 1 } (rest ++ more) := by
          intro more
          rw [decRem_in inv, decRem_in inv1]
          show _ = dref cfg ((s.hold.set s.holdingSize (decodeChar ch &&& 63)).take (s.holdingSize + 1)) _
          rw [hP', List.cons_append, dref.eq_def]
          simp only [hreg, if_true]
          split
          · rename_i h; rw [h] at hl; simp at hl; omega
          · rfl
        simp only [heq]; exact post
      · simp only [h3, if_false]
        have h4 : s.holdingSize = 3 := by omega
        have hhold : s.hold.set s.holdingSize (decodeChar ch &&& 63) = s.P ++ [decodeChar ch % 64] := by
          rw [← hP', List.take_of_length_le]; simp; omega
        obtain ⟨s1, a, b, c, d, hh, e1, inv1, hQ1, hp1⟩ := decBatch_spec
          { s with hold := s.hold.set s.holdingSize (decodeChar ch &&& 63), holdingSize := s.holdingSize + 1 }
          inv.inp (by simp only; omega) (by simpa using inv.len) (by
            show ∀ v ∈ s.hold.set s.holdingSize (decodeChar ch &&& 63), v < 64
            rw [hhold]; exact hvals)
        simp only at hh
        rw [hhold] at hh
        have hPabc : s.P = [a, b, c] ∧ decodeChar ch % 64 = d := by
          have : s.P ++ [decodeChar ch % 64] = [a, b, c] ++ [d] := hh
          have := List.append_inj this (by simp [hl, h4])
          simpa using this
        have hp1' : s1.paddingSize = 0 := by rw [hp1]; exact inv.pad
        have hst : (⟨s.holdingOutput, 0, s.holdingSize + 1, s.hold.set s.holdingSize (decodeChar ch &&& 63)⟩ : DecSt) =
            { s with hold := s.hold.set s.holdingSize (decodeChar ch &&& 63), holdingSize := s.holdingSize + 1 } := by
          simp [inv.pad]
        first | rw [e1] | rw [hst, e1]
        have hrem : ∀ more, decRem cfg s (ch :: rest ++ more) = decRem cfg s1 (rest ++ more) := by
          intro more
          rw [decRem_in inv, decRem_out inv1 hp1', hQ1, List.cons_append, hPabc.1]
          rw [dref.eq_def]
          simp only [hreg, if_true, hPabc.2, pre]
        simp only
        rcases decOutput_spec cap s1 out inv1 with ⟨hc, e3⟩ | ⟨hc, e3⟩
        · simp only [e3]
          refine ⟨_, _, rfl, rfl, DecPost.ofFull inv1 hc (fun h => absurd hp1' h) ?_⟩
          intro more _
          rw [hrem]
        · simp only [e3]
          have inv3 := inv_toInput inv1 hp1'
          obtain ⟨r, w2, e, ho, post⟩ := ih (cap - s1.holdingSize) _ (out ++ s1.Q) inv3
          refine ⟨r, s1.Q ++ w2, e, by rw [ho, List.append_assoc], post.shift (by rw [Q_length inv1]; omega) ?_⟩
          intro more _
          rw [hrem, decRem_out inv1 hp1', decRem_in inv3, P_toInput]
    · simp only [hreg, Bool.false_eq_true, if_false]
      have hb : ∀ more, ¬(decodeChar ch = 65 ∧ cfg.allowWs = true) → decodeChar ch ≠ 64 →
          decRem cfg s (ch :: rest ++ more) = ([], .bad) := by
        intro more h1 h2
        rw [decRem_in inv, List.cons_append, dref.eq_def]
        simp only [hreg, h1, h2, Bool.false_eq_true, if_false, false_and]
      by_cases h65 : decodeChar ch = 65
      · simp only [h65, if_true]
        by_cases hws : cfg.allowWs = true
        · simp only [hws, if_true]
          obtain ⟨r, w, e, ho, post⟩ := ih cap s out inv
          refine ⟨r, w, e, ho, ?_⟩
          have heq : ∀ more, decRem cfg s (ch :: rest ++ more) = decRem cfg s (rest ++ more) := by
            intro more
            rw [decRem_in inv, decRem_in inv, List.cons_append, dref.eq_def]
            dsimp only
            rw [if_neg hreg, if_pos ⟨h65, hws⟩]
          simp only [heq]; exact post
        · simp only [hws, Bool.false_eq_true, if_false]
          exact ⟨_, [], rfl, by simp, DecPost.ofBad (.inl inv) (by simp) (by simp)
            (fun more => hb more (by simp [hws]) (by omega))⟩
      · simp only [h65, if_false]
        by_cases h64 : decodeChar ch = 64
        · simp only [h64, if_true]
          have := decodeChar_64 h64
          subst this
          exact decPadding_spec cfg eoi rest cap s out inv
        · simp only [h64, if_false]
          exact ⟨_, [], rfl, by simp, DecPost.ofBad (.inl inv) (by simp) (by simp)
            (fun more => hb more (by simp [h65]) h64)⟩

theorem decodeCall_spec (cfg : DecCfg) (eoi : Bool) (data : List Nat) (cap : Nat) (s : DecSt)
    (inv : DecInv cfg s data) :
    ∃ r, decodeCall cfg s data eoi cap = some r ∧
      DecPost cfg eoi cap (fun more => decRem cfg s (data ++ more)) r r.out := by
  unfold decodeCall
  have badcase : ∀ (s : DecSt) (t out) (cap : Nat), DInvBad s → cfg.padding ≠ .reject →
      decInput cfg eoi (61 :: t) cap s out = some ⟨.bad, s, 61 :: t, out⟩ ∧
      DecPost cfg eoi cap (fun more => decRem cfg s (61 :: t ++ more)) ⟨.bad, s, 61 :: t, out⟩ [] := by
    intro s t out cap inv hp
    have hv : validPartial s = false := by simp [validPartial, inv.size]
    refine ⟨?_, DecPost.ofBad (.inr (.inr ⟨⟨inv, t, rfl⟩, hp⟩)) (by simp) (by simp) ?_⟩
    · rw [decInput.eq_def]
      simp only [inv.inp, inv.size, decodeChar_eq, not_regular_64]
      rw [decPadding.eq_def]
      simp [hv]
    · intro more; simp [decRem, inv.inp, inv.pad]
  rcases inv with inv | ⟨inv, hr⟩ | ⟨⟨inv, t, hr⟩, hp⟩
  · simp only [inv.inp, Bool.false_eq_true, if_false]
    obtain ⟨r, w, e, ho, post⟩ := decInput_spec cfg eoi data cap s [] inv
    refine ⟨r, e, by rw [ho]; exact post⟩
  · simp only [inv.outp, if_true]
    rcases decOutput_spec cap s [] inv with ⟨hc, e3⟩ | ⟨hc, e3⟩
    · simp only [e3]
      exact ⟨_, rfl, DecPost.ofFull inv hc hr (fun _ _ => rfl)⟩
    · simp only [e3]
      by_cases hp0 : s.paddingSize = 0
      · have inv3 := inv_toInput inv hp0
        obtain ⟨r, w2, e, ho, post⟩ := decInput_spec cfg eoi data (cap - s.holdingSize) _ ([] ++ s.Q) inv3
        refine ⟨r, e, ?_⟩
        rw [ho]
        refine post.shift (by rw [List.nil_append, Q_length inv]; omega) ?_
        intro more _
        rw [decRem_out inv hp0, decRem_in inv3, P_toInput]; rfl
      · obtain ⟨hp, t, ht⟩ := hr hp0
        subst ht
        obtain ⟨h1, h2⟩ := badcase { s with holdingSize := 0, holdingOutput := false } t ([] ++ s.Q)
          (cap - s.holdingSize) ⟨rfl, hp0, rfl, inv.len⟩ hp
        refine ⟨_, h1, ?_⟩
        have := h2.shift (w := s.Q) (cap := cap) (total := fun more => decRem cfg s (61 :: t ++ more))
          (by rw [Q_length inv]; omega) (by intro more _; rw [decRem_outBad inv hp0]; simp [decRem, hp0, pre])
        simpa using this
  · subst hr
    simp only [inv.inp, Bool.false_eq_true, if_false]
    obtain ⟨h1, h2⟩ := badcase s t [] cap inv hp
    exact ⟨_, h1, h2⟩

end Verif.Base64
