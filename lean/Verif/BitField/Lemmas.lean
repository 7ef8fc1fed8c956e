import Verif.BitField.Model
import Verif.BitField.Spec
import Verif.BitMedium.Props
import Verif.PixelLoops.Digits
/-!
Fields of a sequence of bits.
-/
namespace Verif.BitField
open Verif.Integer Verif.BitMedium Verif.PixelLoops

/-- Every field has a bit. -/
def Pos (fields : List Field) : Prop := ∀ f ∈ fields, 1 ≤ f.width ∧ 0 ≤ f.gap

instance (fields : List Field) : Decidable (Pos fields) := inferInstanceAs (Decidable (∀ f ∈ fields, _))

theorem total_nil : Spec.total [] = 0 := rfl

theorem total_cons (f : Field) (fs : List Field) : Spec.total (f :: fs) = f.width + f.gap + Spec.total fs := by
  unfold Spec.total; simp

theorem pos_tail {f : Field} {fs : List Field} (h : Pos (f :: fs)) : Pos fs := fun g hg => h g (List.mem_cons_of_mem _ hg)

theorem total_nonneg {fs : List Field} (h : Pos fs) : 0 ≤ Spec.total fs := by
  induction fs with
  | nil => rw [total_nil]
  | cons f fs ih =>
    rw [total_cons]
    have := ih (pos_tail h)
    have := h f (List.mem_cons_self ..)
    omega

theorem pos_drop {fs : List Field} (h : Pos fs) (i : Nat) : Pos (fs.drop i) := fun g hg => h g (List.mem_of_mem_drop hg)

theorem shift_zero (f : Field) (fs : List Field) : Spec.shift (f :: fs) 0 = (f.gap + Spec.total fs).toNat := rfl
theorem shift_succ (f : Field) (fs : List Field) (i : Nat) : Spec.shift (f :: fs) (i + 1) = Spec.shift fs i := rfl
theorem width_zero (f : Field) (fs : List Field) : Spec.width (f :: fs) 0 = f.width.toNat := rfl
theorem width_succ (f : Field) (fs : List Field) (i : Nat) : Spec.width (f :: fs) (i + 1) = Spec.width fs i := rfl

theorem shift_width_le {fs : List Field} (h : Pos fs) (i : Nat) : ((Spec.shift fs i + Spec.width fs i : Nat) : Int) ≤ Spec.total fs := by
  induction fs generalizing i with
  | nil => simp [Spec.shift, Spec.width, total_nil]
  | cons f fs ih =>
    have h0 := h f (List.mem_cons_self ..)
    have ht := total_nonneg (pos_tail h)
    rw [total_cons]
    cases i with
    | zero => rw [shift_zero, width_zero]; omega
    | succ i =>
      rw [shift_succ, width_succ]
      have := ih (pos_tail h) i
      omega

theorem disjoint {fs : List Field} (h : Pos fs) {i j : Nat} (hij : i < j) (hi : i < fs.length) :
    Spec.shift fs j + Spec.width fs j ≤ Spec.shift fs i := by
  induction fs generalizing i j with
  | nil => simp at hi
  | cons f fs ih =>
    have h0 := h f (List.mem_cons_self ..)
    obtain ⟨j, rfl⟩ : ∃ k, j = k + 1 := ⟨j - 1, by omega⟩
    cases i with
    | zero =>
      rw [shift_succ, width_succ, shift_zero]
      have := shift_width_le (pos_tail h) j
      omega
    | succ i =>
      rw [shift_succ, width_succ, shift_succ]
      exact ih (pos_tail h) (by omega) (by simpa using hi)

theorem width_pos {fs : List Field} (h : Pos fs) {i : Nat} (hi : i < fs.length) : 0 < Spec.width fs i := by
  unfold Spec.width
  rw [List.getElem?_eq_getElem hi]
  have := h _ (List.getElem_mem hi)
  simp only; omega

theorem fits_tail {f : Field} {fs : List Field} {v : Nat} {vs : List Nat} (h : Spec.Fits (f :: fs) (v :: vs)) : Spec.Fits fs vs := by
  refine ⟨by simpa using h.1, fun i hi => ?_⟩
  have := h.2 (i + 1) (by simpa using hi)
  rw [width_succ] at this
  exact this

theorem fits_cons {f : Field} {fs : List Field} {vs : List Nat} (h : Spec.Fits (f :: fs) vs) :
    ∃ v vs', vs = v :: vs' ∧ v < 2 ^ f.width.toNat ∧ Spec.Fits fs vs' := by
  cases vs with
  | nil => have := h.1; simp at this
  | cons v vs => exact ⟨v, vs, rfl, h.2 0 (by simp), fits_tail h⟩

theorem pack_lt {fs : List Field} (h : Pos fs) {vs : List Nat} (hv : Spec.Fits fs vs) : Spec.pack fs vs < 2 ^ (Spec.total fs).toNat := by
  induction fs generalizing vs with
  | nil => simp [Spec.pack]
  | cons f fs ih =>
    obtain ⟨v, vs, rfl, h1, h2⟩ := fits_cons hv
    have h0 := h f (List.mem_cons_self ..)
    have ht := total_nonneg (pos_tail h)
    have hp := ih (pos_tail h) h2
    unfold Spec.pack
    rw [total_cons, show (f.width + f.gap + Spec.total fs).toNat = f.width.toNat + (f.gap + Spec.total fs).toNat by omega, Nat.pow_add]
    have h3 : 2 ^ (Spec.total fs).toNat ≤ 2 ^ (f.gap + Spec.total fs).toNat := Nat.pow_le_pow_right (by decide) (by omega)
    have h4 : (v + 1) * 2 ^ (f.gap + Spec.total fs).toNat ≤ 2 ^ f.width.toNat * 2 ^ (f.gap + Spec.total fs).toNat :=
      Nat.mul_le_mul_right _ h1
    rw [Nat.add_mul] at h4
    omega

/-- The packed integer in terms of one of its fields. -/
theorem pack_split {fs : List Field} (h : Pos fs) {vs : List Nat} (hv : Spec.Fits fs vs) {j : Nat} (hj : j < fs.length) :
    ∃ hi lo, lo < 2 ^ Spec.shift fs j ∧
      ∀ x, Spec.pack fs (vs.set j x) = (hi * 2 ^ Spec.width fs j + x) * 2 ^ Spec.shift fs j + lo := by
  induction fs generalizing vs j with
  | nil => simp at hj
  | cons f fs ih =>
    obtain ⟨v, vs, rfl, h1, h2⟩ := fits_cons hv
    have h0 := h f (List.mem_cons_self ..)
    have ht := total_nonneg (pos_tail h)
    cases j with
    | zero =>
      refine ⟨0, Spec.pack fs vs, ?_, fun x => ?_⟩
      · rw [shift_zero]
        exact Nat.lt_of_lt_of_le (pack_lt (pos_tail h) h2) (Nat.pow_le_pow_right (by decide) (by omega))
      · rw [List.set_cons_zero, Nat.zero_mul, Nat.zero_add]; rfl
    | succ j =>
      obtain ⟨hi, lo, e1, e2⟩ := ih (pos_tail h) h2 (j := j) (by simpa using hj)
      have e3 := shift_width_le (pos_tail h) j
      refine ⟨v * 2 ^ ((f.gap + Spec.total fs).toNat - (Spec.shift fs j + Spec.width fs j)) + hi, lo, e1, fun x => ?_⟩
      rw [List.set_cons_succ, width_succ, shift_succ]
      unfold Spec.pack
      rw [e2 x]
      have e4 : (f.gap + Spec.total fs).toNat =
          ((f.gap + Spec.total fs).toNat - (Spec.shift fs j + Spec.width fs j)) + Spec.width fs j + Spec.shift fs j := by omega
      conv_lhs => rw [e4, Nat.pow_add, Nat.pow_add]
      ring

theorem pack_set_or {fs : List Field} (h : Pos fs) {vs : List Nat} (hv : Spec.Fits fs vs) {j x : Nat} (hj : j < fs.length)
    (hz : vs[j]? = some 0) (hx : x < 2 ^ Spec.width fs j) :
    Spec.pack fs vs ||| (x * 2 ^ Spec.shift fs j) = Spec.pack fs (vs.set j x) := by
  obtain ⟨hi, lo, e1, e2⟩ := pack_split h hv hj
  have e3 := e2 0
  have : vs.set j 0 = vs := by
    apply List.ext_getElem?
    intro i
    by_cases hij : j = i
    · subst hij
      rw [List.getElem?_set_self (by rw [hv.1]; exact hj), hz]
    · rw [List.getElem?_set_ne hij]
  rw [this] at e3
  rw [e3, e2 x]
  exact or_field hx e1

theorem extract_pack {fs : List Field} (h : Pos fs) {vs : List Nat} (hv : Spec.Fits fs vs) {j : Nat} (hj : j < vs.length) :
    Spec.extract fs (Spec.pack fs vs) j = vs[j] := by
  have hj' : j < fs.length := by rw [← hv.1]; exact hj
  obtain ⟨hi, lo, e1, e2⟩ := pack_split h hv hj'
  have e3 := e2 vs[j]
  rw [List.set_getElem_self] at e3
  unfold Spec.extract
  rw [e3, Nat.mul_comm _ (2 ^ Spec.shift fs j), Nat.mul_add_div (Nat.two_pow_pos _), Nat.div_eq_of_lt e1, Nat.add_zero,
    Nat.mul_comm, Nat.mul_add_mod, Nat.mod_eq_of_lt (hv.2 j hj)]

theorem pack_zeros (fs : List Field) (n : Nat) : Spec.pack fs (List.replicate n 0) = 0 := by
  induction fs generalizing n with
  | nil => simp [Spec.pack]
  | cons f fs ih =>
    cases n with
    | zero => rfl
    | succ n => rw [List.replicate_succ, Spec.pack, ih]; simp

/-! ### Functions -/

theorem In_int {I : Nat} {x : Int} : (intTy I).In x ↔ -(2 ^ I) ≤ x ∧ x < 2 ^ I := by unfold intTy; rw [In_s]; omega

theorem validLoop_spec {I : Nat} : ∀ (fs : List Field) (t : Int), 0 ≤ t → t < 2 ^ I → (∀ f ∈ fs, (intTy I).In f.width ∧ (intTy I).In f.gap) →
    validLoop I fs t = some (if Pos fs ∧ t + Spec.total fs < 2 ^ I then some (t + Spec.total fs) else none) := by
  intro fs
  induction fs with
  | nil =>
    intro t h0 h1 _
    rw [total_nil, Int.add_zero, if_pos ⟨fun f hf => by simp at hf, h1⟩]; rfl
  | cons f fs ih =>
    intro t h0 h1 hin
    obtain ⟨hw, hg⟩ := hin f (List.mem_cons_self ..)
    unfold validLoop
    by_cases hbad : f.width < 1 ∨ f.gap < 0
    · rw [if_pos hbad, if_neg]
      rintro ⟨hp, _⟩
      have := hp f (List.mem_cons_self ..)
      omega
    · rw [if_neg hbad, tryAdd_spec _ _ _ _ _ (In_int.2 ⟨by have := p_pos I; omega, h1⟩) hw]
      unfold checked
      have hno : ∀ P : Prop, ¬ (t + f.width + f.gap < 2 ^ I) → ¬ ((Pos (f :: fs) ∧ t + Spec.total (f :: fs) < 2 ^ I)) := by
        rintro _ hc ⟨hp, hlt⟩
        rw [total_cons] at hlt
        have := total_nonneg (pos_tail hp)
        omega
      by_cases c1 : t + f.width < 2 ^ I
      · rw [if_pos (In_int.2 ⟨by have := p_pos I; omega, c1⟩)]
        simp only
        rw [tryAdd_spec _ _ _ _ _ (In_int.2 ⟨by have := p_pos I; omega, c1⟩) hg]
        unfold checked
        by_cases c2 : t + f.width + f.gap < 2 ^ I
        · rw [if_pos (In_int.2 ⟨by have := p_pos I; omega, c2⟩)]
          simp only
          rw [ih _ (by omega) c2 (fun g hg => hin g (List.mem_cons_of_mem _ hg)), total_cons,
            show t + f.width + f.gap + Spec.total fs = t + (f.width + f.gap + Spec.total fs) by omega]
          congr 1
          have : Pos fs ↔ Pos (f :: fs) := by
            constructor
            · intro hp g hg
              rcases List.mem_cons.1 hg with rfl | hg
              · omega
              · exact hp g hg
            · exact pos_tail
          simp only [this]
        · rw [if_neg (fun hc => c2 (In_int.1 hc).2), if_neg (hno True c2)]
      · rw [if_neg (fun hc => c1 (In_int.1 hc).2), if_neg (hno True (by omega))]

theorem shiftLoop_spec {I : Nat} : ∀ (fs : List Field) (t : Int), 0 ≤ t → Pos fs → t + Spec.total fs < 2 ^ I →
    shiftLoop I fs t = some (t + Spec.total fs) := by
  intro fs
  induction fs with
  | nil => intro t _ _ _; rw [total_nil, Int.add_zero]; rfl
  | cons f fs ih =>
    intro t h0 hp hlt
    have hf := hp f (List.mem_cons_self ..)
    have ht := total_nonneg (pos_tail hp)
    rw [total_cons] at hlt ⊢
    have hpp := p_pos I
    unfold shiftLoop intTy
    rw [arith_s (by omega) (by omega)]
    simp only [Option.bind_eq_bind, Option.bind_some]
    rw [arith_s (by omega) (by omega)]
    simp only [Option.bind_some]
    rw [ih _ (by omega) (pos_tail hp) (by omega)]
    congr 1; omega

theorem total_drop_le {fs : List Field} (h : Pos fs) {i : Nat} (hi : i < fs.length) :
    fs[i].gap + Spec.total (fs.drop (i + 1)) < Spec.total fs := by
  have e := shift_width_le h i
  have hd := total_nonneg (pos_drop h (i + 1))
  have hf := h _ (List.getElem_mem hi)
  unfold Spec.shift Spec.width at e
  rw [List.getElem?_eq_getElem hi] at e
  simp only at e
  omega

theorem getBitFieldShift_spec {I : Nat} {fs : List Field} (h : Pos fs) (hI : Spec.total fs < 2 ^ I) {i : Nat} (hi : i < fs.length) :
    getBitFieldShift I fs i = some (Spec.shift fs i : Int) := by
  have hd := total_nonneg (pos_drop h (i + 1))
  have hl := total_drop_le h hi
  have hf := h _ (List.getElem_mem hi)
  have hpp := p_pos I
  unfold getBitFieldShift
  rw [List.getElem?_eq_getElem hi]
  simp only [Option.bind_eq_bind, Option.bind_some]
  rw [shiftLoop_spec _ 0 (by omega) (pos_drop h _) (by omega)]
  simp only [Option.bind_some]
  unfold intTy
  rw [arith_s (by omega) (by omega)]
  unfold Spec.shift
  rw [List.getElem?_eq_getElem hi]
  simp only
  congr 1; omega

theorem getBitFieldWidth_spec {fs : List Field} (h : Pos fs) {i : Nat} (hi : i < fs.length) :
    getBitFieldWidth fs i = some (Spec.width fs i : Int) := by
  have hf := h _ (List.getElem_mem hi)
  unfold getBitFieldWidth Spec.width
  rw [List.getElem?_eq_getElem hi]
  simp only [Option.map_some]
  congr 1; omega

theorem widestLoop_spec (fs : List Field) : ∀ w, w ≤ widestLoop fs w ∧ (∀ f ∈ fs, f.width ≤ widestLoop fs w) ∧
    (widestLoop fs w = w ∨ ∃ f ∈ fs, f.width = widestLoop fs w) := by
  induction fs with
  | nil => intro w; exact ⟨Int.le_refl _, fun f hf => by simp at hf, Or.inl rfl⟩
  | cons f fs ih =>
    intro w
    unfold widestLoop
    split
    · rename_i hc
      obtain ⟨h1, h2, h3⟩ := ih w
      refine ⟨h1, fun g hg => ?_, ?_⟩
      · rcases List.mem_cons.1 hg with rfl | hg
        · omega
        · exact h2 g hg
      · rcases h3 with h3 | ⟨g, hg, h3⟩
        · exact Or.inl h3
        · exact Or.inr ⟨g, List.mem_cons_of_mem _ hg, h3⟩
    · rename_i hc
      obtain ⟨h1, h2, h3⟩ := ih f.width
      refine ⟨by omega, fun g hg => ?_, ?_⟩
      · rcases List.mem_cons.1 hg with rfl | hg
        · exact h1
        · exact h2 g hg
      · rcases h3 with h3 | ⟨g, hg, h3⟩
        · exact Or.inr ⟨f, List.mem_cons_self .., h3.symm⟩
        · exact Or.inr ⟨g, List.mem_cons_of_mem _ hg, h3⟩

end Verif.BitField
