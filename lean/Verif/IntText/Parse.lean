import Verif.IntText.Model
import Verif.IntText.Spec
import Verif.Integer.Props
import Mathlib.Data.Nat.Digits.Lemmas
namespace Verif.IntText
open Verif.Integer

theorem mapDigit_range {c : Nat} (h : mapDigit c ≠ -1) : 0 ≤ mapDigit c ∧ mapDigit c < 36 ∧ c < 123 := by
  unfold mapDigit at *
  split at h
  · rename_i hh; rw [if_pos hh]; omega
  · rename_i h1; split at h
    · rename_i hh; rw [if_neg h1, if_pos hh]; omega
    · rename_i h2; split at h
      · rename_i hh; rw [if_neg h1, if_neg h2, if_pos hh]; omega
      · exact absurd rfl h

theorem digit_table : ∀ c < 123, ∀ v : Nat, v < 36 → (mapDigit c = (v : Int) ↔
    (Spec.upper.map Char.toNat)[v]? = some c ∨ (Spec.lower.map Char.toNat)[v]? = some c) := by decide +kernel

theorem table_lt : ∀ v : Nat, v < 36 → ∀ c ∈ (Spec.upper.map Char.toNat)[v]?, c < 123 := by decide +kernel
theorem table_lt' : ∀ v : Nat, v < 36 → ∀ c ∈ (Spec.lower.map Char.toNat)[v]?, c < 123 := by decide +kernel

theorem isDigit_iff {radix c v : Nat} (hr : radix ≤ 36) : Spec.IsDigit radix c v ↔ mapDigitR c radix = some (v : Int) := by
  unfold Spec.IsDigit mapDigitR
  simp only
  constructor
  · intro h
    have hv : v < radix := by rcases h with h | h <;> exact h.1
    have hc : c < 123 := by
      rcases h with h | h
      · exact table_lt v (by omega) c h.2
      · exact table_lt' v (by omega) c h.2
    have := (digit_table c hc v (by omega)).mpr (h.imp And.right And.right)
    rw [this, if_pos ⟨by omega, by omega⟩]
  · intro h
    split at h
    · rename_i hh
      have hm := mapDigit_range hh.1
      have h := Option.some.inj h
      have hv : v < radix := by omega
      exact ((digit_table c hm.2.2 v (by omega)).mp (by omega)).imp (⟨hv, ·⟩) (⟨hv, ·⟩)
    · cases h

theorem mapDigitR_nonneg {c : Nat} {radix v : Int} (h : mapDigitR c radix = some v) : 0 ≤ v ∧ v < radix := by
  unfold mapDigitR at h
  simp only at h
  split at h
  · rename_i hh
    have hm := mapDigit_range hh.1
    cases h
    exact ⟨hm.1, hh.2⟩
  · cases h

/-- Value of a digit sequence from an initial value. -/
def val (radix : Nat) : List Nat → Nat → Nat
  | [], a => a
  | d :: ds, a => val radix ds (a * radix + d)

theorem val_eq (radix : Nat) (ds : List Nat) (a : Nat) : val radix ds a = a * radix ^ ds.length + Nat.ofDigits radix ds.reverse := by
  induction ds generalizing a with
  | nil => simp [val]
  | cons d ds ih =>
    unfold val
    rw [ih, List.reverse_cons, Nat.ofDigits_append, Nat.ofDigits_singleton, List.length_reverse, List.length_cons]
    ring

theorem val_ge (radix : Nat) (hr : 1 ≤ radix) (ds : List Nat) (a : Nat) : a ≤ val radix ds a := by
  rw [val_eq]
  have : 1 ≤ radix ^ ds.length := Nat.one_le_pow _ _ hr
  have : a * 1 ≤ a * radix ^ ds.length := Nat.mul_le_mul_left a this
  omega

theorem fits_le {T : Ty} {sv : Int} (hs : sv = 1 ∨ sv = -1) {a b : Nat} (h : a ≤ b) (hf : T.In (sv * b)) : T.In (sv * a) := by
  unfold Ty.In at *
  have hmin : T.min ≤ 0 := by unfold Ty.min; split <;> simp
  have hmax : 0 ≤ T.max := by unfold Ty.max; have := p_pos T.bits; omega
  rcases hs with rfl | rfl <;> omega

theorem arith_int {I : Nat} {x : Int} (h : (intTy I).In x) : arith I (intTy I) x = some x := by
  apply arith_ok
  have : promote I (intTy I) = intTy I := by unfold promote intTy; simp
  rw [this]; exact h

/-- The loop of the parser: success exactly if all characters are digits and the value fits. -/
theorem parseLoop_spec (I : Nat) (hI : 7 ≤ I) (T : Ty) (narrow : C → Nat) (radix : Nat) (hr : 2 ≤ radix) (hr2 : radix ≤ 36)
    (sv : Int) (hs : sv = 1 ∨ sv = -1) : ∀ (s : List C) (a : Nat), T.In (sv * a) →
    (∀ ds, List.Forall₂ (Spec.IsDigit radix) (s.map narrow) ds →
      parseLoop I T narrow radix sv s (sv * a) = some (if T.In (sv * val radix ds a) then some (sv * val radix ds a) else none)) ∧
    ((¬ ∃ ds, List.Forall₂ (Spec.IsDigit radix) (s.map narrow) ds) → parseLoop I T narrow radix sv s (sv * a) = some none)
  | [], a, ha => by
    constructor
    · intro ds h
      cases h
      simp [parseLoop, val, ha]
    · intro h
      exact absurd ⟨[], by simp⟩ h
  | ch :: s, a, ha => by
    have hI2 : (128 : Int) ≤ 2 ^ I := p_le (a := 7) hI
    have hradix : (intTy I).In (radix : Int) := by rw [intTy, In_s]; omega
    have hstep : ∀ v : Nat, mapDigitR (narrow ch) radix = some (v : Int) →
        parseLoop I T narrow radix sv (ch :: s) (sv * a) =
          if T.In (sv * (a * radix + v : Nat)) then parseLoop I T narrow radix sv s (sv * (a * radix + v : Nat)) else some none := by
      intro v hv
      have hv2 := mapDigitR_nonneg hv
      conv_lhs => unfold parseLoop
      rw [hv]
      dsimp only
      rw [tryMul_spec I T (intTy I) _ _ ha hradix]
      have e1 : sv * (a : Int) * radix = sv * (a * radix : Nat) := by push_cast; ring
      have e2 : sv * ((a * radix + v : Nat) : Int) = sv * (a * radix : Nat) + sv * v := by push_cast; ring
      have hle : a * radix ≤ a * radix + v := by omega
      rw [e1]
      by_cases hm : T.In (sv * (a * radix : Nat))
      · rw [checked_yes hm]
        dsimp only
        have hadd : (intTy I).In (sv * (v : Int)) := by rw [intTy, In_s]; rcases hs with rfl | rfl <;> omega
        rw [arith_int hadd]
        dsimp only
        rw [tryAdd_spec I T (intTy I) _ _ hm hadd, ← e2]
        by_cases hf : T.In (sv * (a * radix + v : Nat))
        · rw [checked_yes hf, if_pos hf]
        · rw [checked_no hf, if_neg hf]
      · rw [checked_no hm, if_neg]
        intro hc
        exact hm (fits_le hs hle hc)
    constructor
    · intro ds h
      rw [List.map_cons] at h
      cases h with
      | cons h1 h2 =>
        rename_i v ds
        have hv := (isDigit_iff hr2).mp h1
        rw [hstep v hv]
        unfold val
        by_cases hf : T.In (sv * (a * radix + v : Nat))
        · rw [if_pos hf]
          exact (parseLoop_spec I hI T narrow radix hr hr2 sv hs s _ hf).1 ds h2
        · rw [if_neg hf, if_neg]
          intro hc
          exact hf (fits_le hs (val_ge radix (by omega) ds _) hc)
    · intro hno
      cases hd : mapDigitR (narrow ch) radix with
      | none => unfold parseLoop; rw [hd]
      | some v' =>
        have hv2 := mapDigitR_nonneg hd
        obtain ⟨v, rfl⟩ := Int.eq_ofNat_of_zero_le hv2.1
        rw [hstep v hd]
        by_cases hf : T.In (sv * (a * radix + v : Nat))
        · rw [if_pos hf]
          apply (parseLoop_spec I hI T narrow radix hr hr2 sv hs s _ hf).2
          rintro ⟨ds, h⟩
          exact hno ⟨v :: ds, by rw [List.map_cons]; exact .cons ((isDigit_iff hr2).mpr hd) h⟩
        · rw [if_neg hf]

/-- Whether the sign mode permits plus and minus. -/
def allowsPlus (T : Ty) (m : Sign) : Bool := mapSign T m == .accept
def allowsMinus (T : Ty) (m : Sign) : Bool := mapSign T m == .accept || mapSign T m == .acceptMinus

theorem not_digit {radix c v : Nat} (hr : radix ≤ 36) (hc : c = 43 ∨ c = 45) : ¬ Spec.IsDigit radix c v := by
  rw [isDigit_iff hr]
  rcases hc with rfl | rfl <;> simp [mapDigitR, mapDigit]

theorem forall2_unique {radix : Nat} (hr : radix ≤ 36) {cs ds ds' : List Nat} (h : List.Forall₂ (Spec.IsDigit radix) cs ds)
    (h' : List.Forall₂ (Spec.IsDigit radix) cs ds') : ds = ds' := by
  induction h generalizing ds' with
  | nil => cases h'; rfl
  | cons h1 _ ih =>
    cases h' with
    | cons h1' h2' =>
      rw [isDigit_iff hr] at h1 h1'
      rw [h1] at h1'
      simp only [Option.some.injEq, Int.natCast_inj] at h1'
      rw [h1', ih h2']

/-- The sign is split off correctly. -/
theorem takeSign_spec (T : Ty) (narrow : C → Nat) (radix : Nat) (hr : radix ≤ 36) (m : Sign) (s : List C) :
    let r := takeSign narrow (mapSign T m) s
    (r.1 = 1 ∨ r.1 = -1) ∧
    ∀ v, Spec.Denotes radix (allowsPlus T m) (allowsMinus T m) (s.map narrow) v ↔
      r.2 ≠ [] ∧ ∃ ds, List.Forall₂ (Spec.IsDigit radix) (r.2.map narrow) ds ∧ v = r.1 * (val radix ds 0 : Nat) := by
  have hv0 : ∀ ds, val radix ds 0 = Nat.ofDigits radix ds.reverse := by intro ds; rw [val_eq]; simp
  have hmm : mapSign T m ≠ .auto_ := by cases m <;> simp [mapSign]; split <;> simp
  simp only [allowsPlus, allowsMinus]
  generalize mapSign T m = md at *
  -- the case of no sign
  have nosign : ∀ (P Mi : Bool), (∀ ch rest, s = ch :: rest → (narrow ch = 43 → P = false) ∧ (narrow ch = 45 → Mi = false)) →
      ∀ v, Spec.Denotes radix P Mi (s.map narrow) v ↔
      s ≠ [] ∧ ∃ ds, List.Forall₂ (Spec.IsDigit radix) (s.map narrow) ds ∧ v = 1 * (val radix ds 0 : Nat) := by
    intro P Mi hno v
    constructor
    · rintro ⟨sign, neg, cs, ds, h1, h2, h3, h4, h5⟩
      cases h2 with
      | none =>
        rw [List.nil_append] at h1
        subst h1
        refine ⟨by rintro rfl; exact h3 rfl, ds, h4, ?_⟩
        rw [h5, hv0]; simp
      | plus hp =>
        cases s with
        | nil => simp at h1
        | cons ch rest =>
          rw [List.map_cons] at h1
          have := (List.cons.inj h1).1
          have := (hno ch rest rfl).1 this
          rw [hp] at this; cases this
      | minus hp =>
        cases s with
        | nil => simp at h1
        | cons ch rest =>
          rw [List.map_cons] at h1
          have := (List.cons.inj h1).1
          have := (hno ch rest rfl).2 this
          rw [hp] at this; cases this
    · rintro ⟨h1, ds, h2, h3⟩
      refine ⟨[], false, s.map narrow, ds, rfl, .none, by simpa using h1, h2, ?_⟩
      rw [h3, hv0]; simp
  have withsign : ∀ (P Mi : Bool) (ch : C) (rest : List C) (neg : Bool) (sv : Int), s = ch :: rest → sv = (if neg then -1 else 1) →
      Spec.SignPart P Mi [narrow ch] neg → (narrow ch = 43 ∨ narrow ch = 45) →
      ∀ v, Spec.Denotes radix P Mi (s.map narrow) v ↔
      rest ≠ [] ∧ ∃ ds, List.Forall₂ (Spec.IsDigit radix) (rest.map narrow) ds ∧ v = sv * (val radix ds 0 : Nat) := by
    intro P Mi ch rest neg sv hs hsv hsp hch v
    subst hs
    constructor
    · rintro ⟨sign, neg', cs, ds, h1, h2, h3, h4, h5⟩
      have key : ∀ c, sign = [c] → neg' = neg → rest ≠ [] ∧ ∃ ds, List.Forall₂ (Spec.IsDigit radix) (rest.map narrow) ds ∧
          v = sv * (val radix ds 0 : Nat) := by
        intro c hc hn
        subst hc hn
        rw [List.map_cons] at h1
        have h6 : rest.map narrow = cs := (List.cons.inj h1).2
        subst h6
        refine ⟨by rintro rfl; exact h3 rfl, ds, h4, ?_⟩
        rw [h5, hv0, hsv]
      cases h2 with
      | none =>
        rw [List.nil_append] at h1
        subst h1
        rw [List.map_cons] at h4
        cases h4 with
        | cons h _ => exact absurd h (not_digit hr hch)
      | plus hp =>
        apply key _ rfl
        rw [List.map_cons] at h1
        have h7 := (List.cons.inj h1).1
        rw [h7] at hsp
        cases hsp; rfl
      | minus hp =>
        apply key _ rfl
        rw [List.map_cons] at h1
        have h7 := (List.cons.inj h1).1
        rw [h7] at hsp
        cases hsp; rfl
    · rintro ⟨h1, ds, h2, h3⟩
      refine ⟨[narrow ch], neg, rest.map narrow, ds, rfl, hsp, by simpa using h1, h2, ?_⟩
      rw [h3, hv0, hsv]
  cases md with
  | auto_ => exact absurd rfl hmm
  | accept =>
    cases s with
    | nil => exact ⟨Or.inl rfl, nosign _ _ (by simp)⟩
    | cons ch rest =>
      unfold takeSign
      by_cases h43 : narrow ch = 43
      · simp only [h43, true_or, if_true]
        refine ⟨by simp, withsign _ _ ch rest false 1 rfl rfl ?_ (Or.inl h43)⟩
        rw [h43]; exact .plus (by decide)
      · by_cases h45 : narrow ch = 45
        · simp only [h45, or_true, if_true]
          refine ⟨by simp, withsign _ _ ch rest true (-1) rfl rfl ?_ (Or.inr h45)⟩
          rw [h45]; exact .minus (by decide)
        · simp only [h43, h45, or_self, if_false]
          refine ⟨by simp, nosign _ _ ?_⟩
          intro ch' rest' he
          cases he
          exact ⟨fun h => absurd h h43, fun h => absurd h h45⟩
  | acceptMinus =>
    cases s with
    | nil => exact ⟨Or.inl rfl, nosign _ _ (by simp)⟩
    | cons ch rest =>
      unfold takeSign
      by_cases h45 : narrow ch = 45
      · simp only [h45, if_true]
        refine ⟨by simp, withsign _ _ ch rest true (-1) rfl rfl ?_ (Or.inr h45)⟩
        rw [h45]; exact .minus (by decide)
      · simp only [h45, if_false]
        refine ⟨by simp, nosign _ _ ?_⟩
        intro ch' rest' he
        cases he
        exact ⟨fun h => by decide, fun h => absurd h h45⟩
  | reject =>
    unfold takeSign
    refine ⟨Or.inl rfl, nosign _ _ ?_⟩
    intro ch rest _
    exact ⟨fun _ => by decide, fun _ => by decide⟩

/-- The parser: exact outcome. -/
theorem parse_spec (I : Nat) (hI : 7 ≤ I) (T : Ty) (narrow : C → Nat) (radix : Nat) (hr : 2 ≤ radix) (hr2 : radix ≤ 36)
    (m : Sign) (s : List C) (var : Int) :
    (∀ v, Spec.Denotes radix (allowsPlus T m) (allowsMinus T m) (s.map narrow) v → T.In v →
      parse I T narrow radix m s var = some (true, v)) ∧
    ((¬ ∃ v, Spec.Denotes radix (allowsPlus T m) (allowsMinus T m) (s.map narrow) v ∧ T.In v) →
      parse I T narrow radix m s var = some (false, var)) := by
  obtain ⟨hsv, hden⟩ := takeSign_spec T narrow radix hr2 m s
  have h0 : T.In (0 : Int) := by
    unfold Ty.In Ty.min Ty.max
    have := p_pos T.bits
    split <;> omega
  have hz : T.In ((takeSign narrow (mapSign T m) s).1 * (0 : Nat)) := by simpa using h0
  have hl := parseLoop_spec I hI T narrow radix hr hr2 _ hsv (takeSign narrow (mapSign T m) s).2 0 hz
  rw [Int.natCast_zero, Int.mul_zero] at hl
  unfold parse
  simp only
  constructor
  · intro v hv hf
    obtain ⟨h1, ds, h2, h3⟩ := (hden v).mp hv
    rw [if_pos h1, hl.1 ds h2, ← h3, if_pos hf]
  · intro hno
    split
    · rename_i h1
      by_cases hd : ∃ ds, List.Forall₂ (Spec.IsDigit radix) ((takeSign narrow (mapSign T m) s).2.map narrow) ds
      · obtain ⟨ds, hd⟩ := hd
        rw [hl.1 ds hd, if_neg]
        intro hc
        exact hno ⟨_, (hden _).mpr ⟨h1, ds, hd, rfl⟩, hc⟩
      · rw [hl.2 hd]
    · rfl

end Verif.IntText
