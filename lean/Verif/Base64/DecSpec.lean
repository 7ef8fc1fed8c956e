import Verif.Base64.DecCall

namespace Verif.Base64
open Spec

theorem regular_table : ∀ u : Bool, ∀ ch : Fin 256,
    (isRegular ⟨u, .allow, false⟩ (decodeChar ch.val) = true →
      alphabet u (decodeChar ch.val % 64) = ch.val ∧ isSpace ch.val = false) ∧
    (decodeChar ch.val = 65 ↔ isSpace ch.val = true) := by decide +kernel

theorem alphabet_table : ∀ u : Bool, ∀ v : Fin 64,
    isRegular ⟨u, .allow, false⟩ (decodeChar (alphabet u v.val)) = true ∧
      decodeChar (alphabet u v.val) % 64 = v.val := by decide +kernel

theorem isRegular_cfg (cfg : DecCfg) (v : Nat) :
    isRegular cfg v = isRegular ⟨cfg.urlSafe, .allow, false⟩ v := rfl

theorem regular_char (cfg : DecCfg) {ch : Nat} (hc : ch < 256)
    (h : isRegular cfg (decodeChar ch) = true) :
    alphabet cfg.urlSafe (decodeChar ch % 64) = ch ∧ isSpace ch = false := by
  rw [isRegular_cfg] at h
  exact (regular_table cfg.urlSafe ⟨ch, hc⟩).1 h

theorem space_char {ch : Nat} (hc : ch < 256) : decodeChar ch = 65 ↔ isSpace ch = true :=
  (regular_table false ⟨ch, hc⟩).2

theorem alphabet_char (cfg : DecCfg) {v : Nat} (hv : v < 64) :
    isRegular cfg (decodeChar (alphabet cfg.urlSafe v)) = true ∧
      decodeChar (alphabet cfg.urlSafe v) % 64 = v := by
  rw [isRegular_cfg]
  exact alphabet_table cfg.urlSafe ⟨v, hv⟩

theorem partialBytes_iff (P x : List Nat) (hv : ∀ v ∈ P, v < 64) (hl : P.length < 4) :
    partialBytes P = some x ↔ P = sextets x ∧ IsBytes x ∧ x.length % 3 ≠ 0 := by
  constructor
  · intro h
    unfold partialBytes at h
    split at h
    · rename_i a b
      split at h
      · simp only [Option.some.injEq] at h; subst h
        have ha : a < 64 := hv a (by simp)
        have hb : b < 64 := hv b (by simp)
        refine ⟨?_, ?_, by simp⟩
        · simp only [sextets]
          congr 1
          · omega
          · congr 1; omega
        · intro y hy; simp at hy; omega
      · simp at h
    · rename_i a b c
      split at h
      · simp only [Option.some.injEq] at h; subst h
        have ha : a < 64 := hv a (by simp)
        have hb : b < 64 := hv b (by simp)
        have hc : c < 64 := hv c (by simp)
        refine ⟨?_, ?_, by simp⟩
        · simp only [sextets]
          congr 1
          · omega
          · congr 1
            · omega
            · congr 1; omega
        · intro y hy; simp at hy; omega
      · simp at h
    · simp at h
  · rintro ⟨h1, h2, h3⟩
    subst h1
    match x with
    | [] => simp at h3
    | [a] =>
      have ha : a < 256 := h2 a (by simp)
      simp only [sextets, partialBytes]
      rw [if_pos (by omega)]
      simp only [Option.some.injEq, List.cons.injEq, and_true]; omega
    | [a, b] =>
      have ha : a < 256 := h2 a (by simp)
      have hb : b < 256 := h2 b (by simp)
      simp only [sextets, partialBytes]
      rw [if_pos (by omega)]
      simp only [Option.some.injEq, List.cons.injEq, and_true]; omega
    | a :: b :: c :: t => simp [sextets] at hl; omega

theorem bytes4_sextets {a b c d : Nat} {t x : List Nat} (_ha : a < 64) (hb : b < 64) (hc : c < 64) (hd : d < 64)
    (hx : IsBytes x) :
    a :: b :: c :: d :: t = sextets x ↔ ∃ y, x = bytes4 a b c d ++ y ∧ t = sextets y := by
  constructor
  · intro h
    match x with
    | [] => simp [sextets] at h
    | [_] => simp [sextets] at h
    | [_, _] => simp [sextets] at h
    | p :: q :: r :: y =>
      refine ⟨y, ?_, ?_⟩
      · have hp : p < 256 := hx p (by simp)
        have hq : q < 256 := hx q (by simp)
        have hr : r < 256 := hx r (by simp)
        simp only [sextets, List.cons_append, List.nil_append, List.cons.injEq] at h
        simp only [bytes4, List.cons_append, List.nil_append, List.cons.injEq, and_true]
        omega
      · simp only [sextets, List.cons_append, List.nil_append, List.cons.injEq] at h
        exact h.2.2.2.2
  · rintro ⟨y, rfl, rfl⟩
    simp only [bytes4, List.cons_append, List.nil_append, sextets, List.cons.injEq, and_true]
    omega

theorem bytes4_isBytes {a b c d : Nat} (ha : a < 64) (hb : b < 64) (hc : c < 64) (hd : d < 64) :
    IsBytes (bytes4 a b c d) := by
  intro y hy
  simp only [bytes4, List.mem_cons, List.not_mem_nil, or_false] at hy
  omega

theorem sextets_eq_nil {x : List Nat} (h : sextets x = []) : x = [] := by
  match x with
  | [] => rfl
  | [_] => simp [sextets] at h
  | [_, _] => simp [sextets] at h
  | _ :: _ :: _ :: _ => simp [sextets] at h

theorem stripSpace_cons_space {c : Nat} {s : List Nat} (h : isSpace c = true) :
    stripSpace (c :: s) = stripSpace s := by simp [stripSpace, h]

theorem stripSpace_cons {c : Nat} {s : List Nat} (h : isSpace c = false) :
    stripSpace (c :: s) = c :: stripSpace s := by simp [stripSpace, h]

theorem dref_done_iff (cfg : DecCfg) (P s x : List Nat) (hP : ∀ v ∈ P, v < 64) (hl : P.length < 4)
    (hb : IsBytes s) :
    dref cfg P s = (x, .done) ↔ IsBytes x ∧
      (∃ V, stripSpace s = V.map (alphabet cfg.urlSafe) ∧ (∀ v ∈ V, v < 64) ∧ P ++ V = sextets x) ∧
      (cfg.allowWs = false → ∀ c ∈ s, isSpace c = false) ∧
      (cfg.padding = .require → x.length % 3 = 0) := by
  induction s generalizing P x with
  | nil =>
    have hV : (∃ V, stripSpace [] = V.map (alphabet cfg.urlSafe) ∧ (∀ v ∈ V, v < 64) ∧ P ++ V = sextets x) ↔
        P = sextets x := by
      constructor
      · rintro ⟨V, h1, _, h3⟩
        have : V = [] := List.map_eq_nil_iff.mp h1.symm
        subst this; simpa using h3
      · intro h; exact ⟨[], by simp [stripSpace], by simp, by simpa using h⟩
    rw [hV]
    simp only [List.not_mem_nil, false_implies, implies_true, true_and]
    rw [dref.eq_def]
    by_cases hn : P = []
    · subst hn
      simp only [if_true, Prod.mk.injEq, and_true]
      constructor
      · rintro rfl; simp [IsBytes, sextets]
      · rintro ⟨_, h, _⟩; exact (sextets_eq_nil h.symm).symm
    · simp only [hn, if_false]
      cases hp : partialBytes P with
      | none =>
        simp only [Prod.mk.injEq, reduceCtorEq, and_false, false_iff]
        rintro ⟨h1, h2, h3⟩
        by_cases h0 : x.length % 3 = 0
        · match x with
          | [] => simp [sextets] at h2; exact hn h2
          | [_] => simp at h0
          | [_, _] => simp at h0
          | _ :: _ :: _ :: _ => subst h2; simp [sextets] at hl; omega
        · rw [(partialBytes_iff P x hP hl).mpr ⟨h2, h1, h0⟩] at hp
          simp at hp
      | some y =>
        obtain ⟨e1, e2, e3⟩ := (partialBytes_iff P y hP hl).mp hp
        by_cases hr : cfg.padding = .require
        · simp only [hr, if_true, Prod.mk.injEq, reduceCtorEq, and_false, false_iff, true_implies]
          rintro ⟨h1, h2, h3⟩
          match x with
          | [] => simp [sextets] at h2; exact hn h2
          | [_] => simp at h3
          | [_, _] => simp at h3
          | _ :: _ :: _ :: _ => subst h2; simp [sextets] at hl; omega
        · simp only [hr, if_false, Prod.mk.injEq, and_true, false_implies]
          constructor
          · rintro rfl; exact ⟨e2, e1⟩
          · rintro ⟨h1, h2⟩
            have : x.length % 3 ≠ 0 := by
              match x with
              | [] => simp [sextets] at h2; exact absurd h2 hn
              | [_] => simp
              | [_, _] => simp
              | _ :: _ :: _ :: _ => subst h2; simp [sextets] at hl; omega
            have := (partialBytes_iff P x hP hl).mpr ⟨h2, h1, this⟩
            rw [hp] at this
            simpa using this
  | cons ch t ih =>
    obtain ⟨hch, ht⟩ := isBytes_cons.mp hb
    rw [dref.eq_def]
    dsimp only
    by_cases hreg : isRegular cfg (decodeChar ch) = true
    · rw [if_pos hreg]
      obtain ⟨halpha, hns⟩ := regular_char cfg hch hreg
      have hd : decodeChar ch % 64 < 64 := Nat.mod_lt _ (by decide)
      have hws : (cfg.allowWs = false → ∀ c ∈ ch :: t, isSpace c = false) ↔
          (cfg.allowWs = false → ∀ c ∈ t, isSpace c = false) := by simp [hns]
      have hV : ∀ P : List Nat, (∃ V, stripSpace (ch :: t) = V.map (alphabet cfg.urlSafe) ∧ (∀ v ∈ V, v < 64) ∧ P ++ V = sextets x) ↔
          (∃ V, stripSpace t = V.map (alphabet cfg.urlSafe) ∧ (∀ v ∈ V, v < 64) ∧ P ++ (decodeChar ch % 64) :: V = sextets x) := by
        intro P
        rw [stripSpace_cons hns]
        constructor
        · rintro ⟨V, h1, h2, h3⟩
          cases V with
          | nil => simp at h1
          | cons v V =>
            simp only [List.map_cons, List.cons.injEq] at h1
            have hv := h2 v (by simp)
            have := (alphabet_char cfg hv).2
            rw [← h1.1] at this
            exact ⟨V, h1.2, fun w hw => h2 w (by simp [hw]), by rw [this]; exact h3⟩
        · rintro ⟨V, h1, h2, h3⟩
          refine ⟨decodeChar ch % 64 :: V, by simp [halpha, h1], ?_, h3⟩
          intro v hv
          rcases List.mem_cons.mp hv with hv | hv
          · omega
          · exact h2 v hv
      rw [hws, hV]
      match P, hl with
      | [a, b, c], _ =>
        have ha := hP a (by simp)
        have hb' := hP b (by simp)
        have hc := hP c (by simp)
        simp only [List.cons_append, List.nil_append]
        constructor
        · intro h
          simp only [Prod.mk.injEq] at h
          obtain ⟨h1, h2⟩ := h
          have hi := (ih [] (dref cfg [] t).1 (by simp) (by simp) ht).mp (by rw [← h2])
          obtain ⟨i1, ⟨V, i2, i3, i4⟩, i5, i6⟩ := hi
          have hxb : IsBytes x := by
            rw [← h1, isBytes_append]
            exact ⟨bytes4_isBytes ha hb' hc hd, i1⟩
          refine ⟨hxb, ⟨V, i2, i3, ?_⟩, i5, ?_⟩
          · rw [bytes4_sextets ha hb' hc hd hxb]
            exact ⟨_, h1.symm, by simpa using i4⟩
          · intro hr
            have := i6 hr
            rw [← h1]; simp [bytes4]; omega
        · rintro ⟨h1, ⟨V, h2, h3, h4⟩, h5, h6⟩
          rw [bytes4_sextets ha hb' hc hd h1] at h4
          obtain ⟨y, hy, hV'⟩ := h4
          have hi := (ih [] y (by simp) (by simp) ht).mpr
            ⟨by rw [hy, isBytes_append] at h1; exact h1.2, ⟨V, h2, h3, by simpa using hV'⟩, h5, by
              intro hr
              have := h6 hr
              rw [hy] at this; simp [bytes4] at this; omega⟩
          rw [hi, hy]
      | [], _ =>
        rw [ih _ x (by simpa using hd) (by simp) ht]
        simp
      | [a], _ =>
        rw [ih _ x (by
          intro v hv; rw [List.mem_append] at hv
          rcases hv with hv | hv
          · exact hP v hv
          · simp at hv; omega) (by simp) ht]
        simp
      | [a, b], _ =>
        rw [ih _ x (by
          intro v hv; rw [List.mem_append] at hv
          rcases hv with hv | hv
          · exact hP v hv
          · simp at hv; omega) (by simp) ht]
        simp
    · rw [if_neg hreg]
      by_cases hsp : isSpace ch = true
      · have h65 := (space_char hch).mpr hsp
        by_cases hw : cfg.allowWs = true
        · rw [if_pos ⟨h65, hw⟩, ih P x hP hl ht, stripSpace_cons_space hsp]
          simp [hw]
        · have hw' : cfg.allowWs = false := by simpa using hw
          rw [if_neg (by simp [hw']), if_neg (by simp [h65])]
          constructor
          · intro h; simp at h
          · rintro ⟨_, _, h, _⟩
            have := h hw' ch (by simp)
            rw [hsp] at this; simp at this
      · have hns : isSpace ch = false := by simpa using hsp
        have h65 : decodeChar ch ≠ 65 := fun h => hsp ((space_char hch).mp h)
        rw [if_neg (by simp [h65])]
        constructor
        · intro h
          split at h <;> simp at h
        · rintro ⟨_, ⟨V, h1, h2, _⟩, _⟩
          exfalso
          rw [stripSpace_cons hns] at h1
          cases V with
          | nil => simp at h1
          | cons v V =>
            simp only [List.map_cons, List.cons.injEq] at h1
            have := (alphabet_char cfg (h2 v (by simp))).1
            rw [← h1.1] at this
            exact hreg this

theorem sextets_lt (x : List Nat) (hx : IsBytes x) : ∀ v ∈ sextets x, v < 64 := by
  induction x using sextets.induct with
  | case1 => simp [sextets]
  | case2 a =>
    have ha : a < 256 := hx a (by simp)
    intro v hv; simp [sextets] at hv; omega
  | case3 a b =>
    have ha : a < 256 := hx a (by simp)
    have hb : b < 256 := hx b (by simp)
    intro v hv; simp [sextets] at hv; omega
  | case4 a b c t ih =>
    have ha : a < 256 := hx a (by simp)
    have hb : b < 256 := hx b (by simp)
    have hc : c < 256 := hx c (by simp)
    intro v hv
    have ht : IsBytes t := fun y hy => hx y (by simp [hy])
    simp only [sextets, List.mem_append, List.mem_cons, List.not_mem_nil, or_false] at hv
    rcases hv with hv | hv
    · omega
    · exact ih ht v hv

/-- The text is accepted by the decoder, and denotes the bytes `x`. -/
theorem dref_accept (cfg : DecCfg) (s x : List Nat) (hb : IsBytes s) :
    dref cfg [] s = (x, .done) ↔ IsBytes x ∧ stripSpace s = encodeText cfg.urlSafe false x ∧
      (cfg.allowWs = false → ∀ c ∈ s, isSpace c = false) ∧
      (cfg.padding = .require → x.length % 3 = 0) := by
  rw [dref_done_iff cfg [] s x (by simp) (by simp) hb]
  constructor
  · rintro ⟨h1, ⟨V, h2, h3, h4⟩, h5, h6⟩
    refine ⟨h1, ?_, h5, h6⟩
    rw [h2]; simp at h4; simp [encodeText, h4]
  · rintro ⟨h1, h2, h5, h6⟩
    refine ⟨h1, ⟨sextets x, by simpa [encodeText] using h2, sextets_lt x h1, by simp⟩, h5, h6⟩

theorem dref_length (cfg : DecCfg) (P s : List Nat) (hl : P.length < 4) :
    4 * (dref cfg P s).1.length ≤ 3 * (P.length + s.length) := by
  induction s generalizing P with
  | nil =>
    rw [dref.eq_def]
    dsimp only
    split
    · simp
    · split
      · simp
      · rename_i x hx
        have := partialBytes_size hx
        split
        · simp
        · simp; omega
  | cons ch t ih =>
    rw [dref.eq_def]
    dsimp only
    split
    · split
      · have := ih [] (by simp)
        simp [bytes4] at this ⊢; omega
      · rename_i hne
        have hl' : P.length < 3 := by
          match P, hl with
          | [], _ => simp
          | [_], _ => simp
          | [_, _], _ => simp
          | [a, b, c], _ => exact absurd rfl (hne a b c)
        have := ih (P ++ [decodeChar ch % 64]) (by simp; omega)
        simp at this ⊢; omega
    · split
      · have := ih P hl
        simp; omega
      · split
        · cases hx : partialBytes P with
          | none => simp
          | some x =>
            have := partialBytes_size hx
            simp; omega
        · simp

theorem decodeBufferSize_eq (n : Nat) : decodeBufferSize n = 3 * n / 4 := by
  simp only [decodeBufferSize]
  split <;> omega

end Verif.Base64
