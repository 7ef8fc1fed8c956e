import Verif.Base64.EncLemmas

namespace Verif.Base64
open Spec

/-- What one call of the encoder achieves; `total` is the output that remained before the call, for
any further input `more`. -/
structure EncPost (cfg : EncCfg) (eoi : Bool) (cap : Nat) (total : List Nat → List Nat)
    (r : EncRes) (w : List Nat) : Prop where
  len : w.length ≤ cap
  inv : r.done = false → EncInv cfg r.st
  more : eoi = false → r.done = false ∧ (∀ more, IsBytes more → total more = w ++ encRem cfg r.st (r.rest ++ more)) ∧
    (w.length = cap ∨ r.rest = [])
  fin : eoi = true → r.done = true → r.rest = [] ∧ total [] = w
  cont : eoi = true → r.done = false → w.length = cap ∧ total [] = w ++ encRem cfg r.st r.rest ∧
    encRem cfg r.st r.rest ≠ []
  restBytes : IsBytes r.rest

theorem ls_ne_nil (n l : Nat) (s : List Nat) (h : s ≠ [] ∨ (n ≠ 0 ∧ l ≠ 0)) : ls n l s ≠ [] := by
  cases s with
  | nil =>
    have h : n ≠ 0 ∧ l ≠ 0 := by simpa using h
    simp [ls, h]
  | cons c s => unfold ls; split <;> simp

theorem encRem_out {cfg : EncCfg} {s : EncSt} (inv : InvOut cfg s) (data : List Nat) :
    encRem cfg s data = ls cfg.lineSize s.lineSize (s.Q ++ encodeText cfg.urlSafe cfg.usePadding data) := by
  simp [encRem, inv.outp]

theorem encRem_in {cfg : EncCfg} {s : EncSt} (inv : InvIn cfg s) (data : List Nat) :
    encRem cfg s data = ls cfg.lineSize s.lineSize (encodeText cfg.urlSafe cfg.usePadding (s.P ++ data)) := by
  simp [encRem, inv.inp]

theorem encRem_out_ne {cfg : EncCfg} {s : EncSt} (inv : InvOut cfg s) (data : List Nat) :
    encRem cfg s data ≠ [] := by
  rw [encRem_out inv]
  apply ls_ne_nil
  rcases inv.nonempty with h | ⟨h1, h2⟩
  · left
    obtain ⟨ch, _, hQ⟩ := Q_cons inv.len (by omega) inv.size
    rw [hQ]; simp
  · right; omega

theorem EncInv_init (cfg : EncCfg) (hold : List Nat) (h : hold.length = 4) :
    InvIn cfg (EncSt.init hold) :=
  ⟨rfl, by simp [EncSt.init], h, by simp [EncSt.init]; omega, by simp [EncSt.P, EncSt.init, IsBytes]⟩

theorem encFinalize_post (cfg : EncCfg) (cap : Nat) (s : EncSt) (out : List Nat) (inv : InvIn cfg s)
    (h0 : s.holdingSize = 0) :
    ∃ w, (encFinalize cfg cap s out).out = out ++ w ∧
      EncPost cfg true cap (fun more => encRem cfg s more) (encFinalize cfg cap s out) w := by
  have hP : s.P = [] := by simp [EncSt.P, h0]
  have hr : encRem cfg s [] = if cfg.lineSize = 0 ∨ s.lineSize = 0 then [] else [10] := by
    rw [encRem_in inv, hP]; simp [encodeText_nil, ls]
  unfold encFinalize
  by_cases h1 : cfg.lineSize = 0 ∨ s.lineSize = 0
  · simp only [h1, if_true]
    refine ⟨[], by simp, by simp, by simp, by simp, by simp [hr, h1], by simp, by simp [IsBytes]⟩
  · simp only [h1, if_false]
    by_cases h2 : cap = 0
    · simp only [h2, ne_eq, not_true_eq_false, if_false]
      refine ⟨[], by simp, by simp, fun _ => .inl inv, by simp, by simp, ?_, by simp [IsBytes]⟩
      intro _ _
      simp [hr, h1]
    · simp only [h2, ne_eq, not_false_eq_true, if_true]
      refine ⟨['\n'.toNat], rfl, by simp; omega, by simp, by simp, ?_, by simp, by simp [IsBytes]⟩
      intro _ _
      simp [hr, h1]

theorem EncPost.shift {cfg eoi cap cap' w w' r} {total total' : List Nat → List Nat}
    (h : EncPost cfg eoi cap' total' r w') (hc : w.length + cap' = cap)
    (ht : ∀ more, IsBytes more → total more = w ++ total' more) : EncPost cfg eoi cap total r (w ++ w') where
  len := by have := h.len; simp; omega
  inv := h.inv
  more he := by
    obtain ⟨h1, h2, h3⟩ := h.more he
    refine ⟨h1, fun m hm => by rw [ht m hm, h2 m hm, List.append_assoc], ?_⟩
    rcases h3 with h3 | h3
    · left; simp; omega
    · right; exact h3
  fin he hd := by
    obtain ⟨h1, h2⟩ := h.fin he hd
    exact ⟨h1, by rw [ht [] (by simp [IsBytes]), h2]⟩
  cont he hd := by
    obtain ⟨h1, h2, h3⟩ := h.cont he hd
    exact ⟨by simp; omega, by rw [ht [] (by simp [IsBytes]), h2, List.append_assoc], h3⟩
  restBytes := h.restBytes

theorem EncPost.full {cfg : EncCfg} {eoi cap w s rest} {out : List Nat} {total : List Nat → List Nat} (inv : InvOut cfg s)
    (hw : w.length = cap) (hr : IsBytes rest)
    (ht : ∀ more, IsBytes more → total more = w ++ encRem cfg s (rest ++ more)) :
    EncPost cfg eoi cap total ⟨false, s, rest, out⟩ w where
  len := by omega
  inv _ := .inr inv
  more _ := ⟨rfl, ht, .inl hw⟩
  fin := by simp
  cont _ _ := ⟨hw, by simpa using ht [] (by simp [IsBytes]), encRem_out_ne inv rest⟩
  restBytes := hr

theorem isBytes_cons {a : Nat} {l : List Nat} : IsBytes (a :: l) ↔ a < 256 ∧ IsBytes l := by
  simp [IsBytes]

theorem isBytes_append {a l : List Nat} : IsBytes (a ++ l) ↔ IsBytes a ∧ IsBytes l := by
  simp only [IsBytes, List.mem_append, or_imp, forall_and]

theorem encInput_spec (cfg : EncCfg) (eoi : Bool) (data : List Nat) (cap : Nat) (s : EncSt)
    (out : List Nat) (inv : InvIn cfg s) (hb : IsBytes data) :
    ∃ r w, encInput cfg eoi data cap s out = some r ∧ r.out = out ++ w ∧
      EncPost cfg eoi cap (fun more => encRem cfg s (data ++ more)) r w := by
  induction data generalizing cap s out with
  | nil =>
    unfold encInput
    simp only [inv.inp, Bool.false_eq_true, if_false]
    cases eoi with
    | false =>
      refine ⟨_, [], rfl, by simp, ⟨by simp, fun _ => .inl inv, ?_, by simp, by simp, by simp [IsBytes]⟩⟩
      intro _
      exact ⟨rfl, by simp, by simp⟩
    | true =>
      simp only [Bool.not_true, Bool.false_eq_true, if_false]
      by_cases h0 : s.holdingSize > 0
      · simp only [h0, if_true]
        obtain ⟨s1, e1, inv1, hl1, hQ1⟩ := encPartial_spec cfg s inv h0
        simp only [e1]
        have hrem : encRem cfg s [] = ls cfg.lineSize s1.lineSize (s1.Q ++ []) := by
          rw [encRem_in inv, hl1, hQ1]; simp
        rcases encOutput_spec cfg cap s1 out inv1 with ⟨s2, w, e2, hw, inv2, ht⟩ | ⟨s2, cap2, w, e2, hw, inv2, hz, ht⟩
        · simp only [e2]
          refine ⟨_, w, rfl, rfl, ⟨by omega, fun _ => .inr inv2, by simp, by simp, ?_, by simp [IsBytes]⟩⟩
          intro _ _
          refine ⟨hw, ?_, encRem_out_ne inv2 []⟩
          have := ht []
          simp only [List.append_nil] at hrem this ⊢
          rw [hrem, this, encRem_out inv2]; simp [encodeText_nil]
        · simp only [e2, inv2.inp, hz]
          obtain ⟨w2, hw2, post⟩ := encFinalize_post cfg cap2 s2 (out ++ w) inv2 hz
          refine ⟨_, w ++ w2, rfl, by rw [hw2, List.append_assoc], ⟨by have := post.len; simp; omega, post.inv, by simp, ?_, ?_, post.restBytes⟩⟩
          · intro he hd
            obtain ⟨h1, h2⟩ := post.fin he hd
            refine ⟨h1, ?_⟩
            simp only [List.append_nil] at h2 ⊢
            rw [hrem, ht [], ← h2, encRem_in inv2]
            simp [EncSt.P, hz, encodeText_nil]
          · intro he hd
            obtain ⟨h1, h2, h3⟩ := post.cont he hd
            refine ⟨by simp; omega, ?_, h3⟩
            simp only [List.append_nil] at h2 ⊢
            rw [hrem, ht [], List.append_assoc, ← h2, encRem_in inv2]
            simp [EncSt.P, hz, encodeText_nil]
      · simp only [h0, if_false]
        obtain ⟨w2, hw2, post⟩ := encFinalize_post cfg cap s out inv (by omega)
        exact ⟨_, w2, rfl, hw2, by simpa using post⟩
  | cons ch rest ih =>
    obtain ⟨hch, hrest⟩ := isBytes_cons.mp hb
    unfold encInput
    have hsz := inv.size
    have hg : ¬(s.holdingOutput = true ∨ s.holdingSize ≥ 4) := by simp [inv.inp]; omega
    simp only [hg, if_false]
    have hP' : (s.hold.set s.holdingSize ch).take (s.holdingSize + 1) = s.P ++ [ch] := by
      rw [List.take_set, List.take_add_one]
      have hl : s.holdingSize < s.hold.length := by have := inv.len; omega
      unfold EncSt.P
      rw [List.getElem?_eq_getElem hl, Option.toList_some, List.set_append]
      have hlen : (List.take s.holdingSize s.hold).length = s.holdingSize := by simp; omega
      rw [hlen]; simp
    by_cases h3 : s.holdingSize + 1 < 3
    · simp only [h3, if_true]
      have inv1 : InvIn cfg { s with hold := s.hold.set s.holdingSize ch, holdingSize := s.holdingSize + 1 } :=
        ⟨inv.inp, h3, by simpa using inv.len, inv.line, by
          show IsBytes ((s.hold.set s.holdingSize ch).take (s.holdingSize + 1))
          rw [hP', isBytes_append]
          exact ⟨inv.bytes, by simpa [IsBytes] using hch⟩⟩
      obtain ⟨r, w, e, ho, post⟩ := ih cap _ out inv1 hrest
      refine ⟨r, w, e, ho, ?_⟩
      have heq : ∀ more, encRem cfg s (ch :: rest ++ more) =
          encRem cfg { s with hold := s.hold.set s.holdingSize ch, holdingSize := s.holdingSize + 1 } (rest ++ more) := by
        intro more
        rw [encRem_in inv, encRem_in inv1]
        show _ = ls _ _ (encodeText _ _ ((s.hold.set s.holdingSize ch).take (s.holdingSize + 1) ++ _))
        rw [hP']; simp
      simp only [heq]; exact post
    · simp only [h3, if_false]
      obtain ⟨s1, e1, inv1, hl1, hQ1⟩ := encBatch_spec cfg
        { s with hold := s.hold.set s.holdingSize ch, holdingSize := s.holdingSize + 1 }
        inv.inp (by simp only; omega) (by simpa using inv.len) (by
          show IsBytes ((s.hold.set s.holdingSize ch).take (s.holdingSize + 1))
          rw [hP', isBytes_append]
          exact ⟨inv.bytes, by simpa [IsBytes] using hch⟩) inv.line
      simp only [e1]
      have hQ2 : ∀ t, s1.Q ++ encodeText cfg.urlSafe cfg.usePadding t =
          encodeText cfg.urlSafe cfg.usePadding (s.P ++ ch :: t) := by
        intro t
        rw [hQ1 t]
        show encodeText _ _ ((s.hold.set s.holdingSize ch).take (s.holdingSize + 1) ++ t) = _
        rw [hP']; simp
      have hrem : ∀ more, encRem cfg s (ch :: rest ++ more) = encRem cfg s1 (rest ++ more) := by
        intro more
        rw [encRem_in inv, encRem_out inv1, hQ2, hl1]; simp
      rcases encOutput_spec cfg cap s1 out inv1 with ⟨s2, w, e2, hw, inv2, ht⟩ | ⟨s2, cap2, w, e2, hw, inv2, hz, ht⟩
      · simp only [e2]
        refine ⟨_, w, rfl, rfl, EncPost.full inv2 hw hrest ?_⟩
        intro more _
        rw [hrem, encRem_out inv1, ht, encRem_out inv2]
      · simp only [e2]
        obtain ⟨r, w2, e, ho, post⟩ := ih cap2 s2 (out ++ w) inv2 hrest
        refine ⟨r, w ++ w2, e, by rw [ho, List.append_assoc], post.shift hw ?_⟩
        intro more _
        rw [hrem, encRem_out inv1, ht, encRem_in inv2]
        simp [EncSt.P, hz]

theorem encodeCall_spec (cfg : EncCfg) (s : EncSt) (data : List Nat) (eoi : Bool) (cap : Nat)
    (inv : EncInv cfg s) (hb : IsBytes data) :
    ∃ r, encodeCall cfg s data eoi cap = some r ∧
      EncPost cfg eoi cap (fun more => encRem cfg s (data ++ more)) r r.out := by
  unfold encodeCall
  rcases inv with inv | inv
  · have hlen := inv.len
    have hg : s.hold.length ≥ 4 ∧ (s.holdingOutput = true ∨ s.holdingSize < 3) :=
      ⟨by omega, .inr inv.size⟩
    rw [if_pos hg]
    simp only [inv.inp, Bool.false_eq_true, if_false]
    obtain ⟨r, w, e, ho, post⟩ := encInput_spec cfg eoi data cap s [] inv hb
    exact ⟨r, e, by rw [ho]; exact post⟩
  · have hlen := inv.len
    have hg : s.hold.length ≥ 4 ∧ (s.holdingOutput = true ∨ s.holdingSize < 3) :=
      ⟨by omega, .inl inv.outp⟩
    rw [if_pos hg]
    simp only [inv.outp, if_true]
    rcases encOutput_spec cfg cap s [] inv with ⟨s2, w, e2, hw, inv2, ht⟩ | ⟨s2, cap2, w, e2, hw, inv2, hz, ht⟩
    · simp only [e2]
      refine ⟨_, rfl, EncPost.full inv2 hw hb ?_⟩
      intro more _
      rw [encRem_out inv, ht, encRem_out inv2]; simp
    · simp only [e2]
      obtain ⟨r, w2, e, ho, post⟩ := encInput_spec cfg eoi data cap2 s2 ([] ++ w) inv2 hb
      refine ⟨r, e, ?_⟩
      rw [ho]
      apply post.shift hw
      intro more _
      rw [encRem_out inv, ht, encRem_in inv2]
      simp [EncSt.P, hz]

end Verif.Base64
