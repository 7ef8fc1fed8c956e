import Verif.PixelSize.Model
import Verif.PixelSize.Spec
import Verif.AsList.Props
import Verif.IntText.Props
/-!
Lemmas about sizes and positions.
-/
namespace Verif.PixelSize
open Verif.Integer Spec

theorem narrow_ofNat : ∀ c < 128, narrow (Char.ofNat c) = c := by decide +kernel

theorem int_fits {I : Nat} {v : Int} : Integer.Spec.Fits (intTy I) v ↔ -2 ^ I ≤ v ∧ v < 2 ^ I := by
  simp [Integer.Spec.Fits, intTy]

theorem formatInt_ok {I M : Nat} (hI : 7 ≤ I) (hM : I + 2 ≤ M) {mem : List Char} (hm : mem.length ≤ M) {v : Int} (hv : -2 ^ I ≤ v ∧ v < 2 ^ I) :
    (∃ mem', IntText.format I (intTy I) M ' ' Char.ofNat false 10 1 v mem = .ok (mem', decimal v)) ∧ formatInt I M mem v = decimal v := by
  have h2 : I + 1 < 2 ^ I := by
    have : ∀ n, 7 ≤ n → n + 1 < 2 ^ n := by
      intro n hn
      induction n, hn using Nat.le_induction with
      | base => decide
      | succ n hn ih => rw [Nat.pow_succ]; omega
    exact this I hI
  have h128 : (1 : Int) < 2 ^ I := by
    have : (I : Int) + 1 < 2 ^ I := by exact_mod_cast h2
    omega
  obtain ⟨n, mem', h3, -, -, h4⟩ := IntText.C26_format I hI (intTy I) M ' ' Char.ofNat false 10 (by decide) (by decide) 1 h128 v (int_fits.mpr hv) mem hm
    h2 (by show max (Int.toNat 1) (I + 1) + 1 ≤ M; simp; omega)
  have hn : n = 1 := by have := h3 (by decide); omega
  subst hn
  refine ⟨⟨mem', h4⟩, ?_⟩
  unfold formatInt
  rw [show (10 : Int) = ((10 : Nat) : Int) from rfl, h4]
  rfl

theorem toNat_eq_narrow {radix : Nat} (hr : radix ≤ 36) {P Mi : Bool} {text : List Char} {v : Int} :
    IntText.Spec.Denotes radix P Mi (text.map narrow) v ↔ IntText.Spec.Denotes radix P Mi (text.map Char.toNat) v := by
  have key : ∀ (f g : Char → Nat), (∀ c, f c ≠ g c → (f c = 0 ∨ 128 ≤ f c)) →
      IntText.Spec.Denotes radix P Mi (text.map f) v → IntText.Spec.Denotes radix P Mi (text.map g) v := by
    intro f g hfg h
    have he : text.map f = text.map g := by
      obtain ⟨sign, neg, cs, ds, h1, h2, h3, h4, h5⟩ := h
      apply List.map_congr_left
      intro c hc
      by_contra hne
      have hbad := hfg c hne
      have hmem : f c ∈ sign ++ cs := by rw [← h1]; exact List.mem_map_of_mem hc
      rcases List.mem_append.mp hmem with hm | hm
      · cases h2 with
        | none => simp at hm
        | plus _ => simp only [List.mem_singleton] at hm; rw [hm] at hbad; revert hbad; decide
        | minus _ => simp only [List.mem_singleton] at hm; rw [hm] at hbad; revert hbad; decide
      · obtain ⟨d, -, hd⟩ : ∃ d ∈ ds, IntText.Spec.IsDigit radix (f c) d := by
          clear h1 h5 h3 hmem
          induction h4 with
          | nil => simp at hm
          | cons h _ ih =>
            rcases List.mem_cons.mp hm with rfl | hm
            · exact ⟨_, List.mem_cons_self, h⟩
            · obtain ⟨d, hd, hd2⟩ := ih hm
              exact ⟨d, List.mem_cons_of_mem _ hd, hd2⟩
        rw [IntText.isDigit_iff hr] at hd
        have hmd : IntText.mapDigit (f c) = -1 := by
          unfold IntText.mapDigit
          rw [if_neg (by omega), if_neg (by omega), if_neg (by omega)]
        unfold IntText.mapDigitR at hd
        rw [hmd] at hd
        simp at hd
    rw [← he]; exact h
  constructor
  · apply key
    intro c h
    left
    unfold narrow at h ⊢
    split
    · rename_i h'; rw [if_pos h'] at h; exact absurd rfl h
    · rfl
  · apply key
    intro c h
    right
    unfold narrow at h
    by_contra h'
    rw [if_pos (by omega)] at h
    exact h rfl

theorem parseInt_iff {I : Nat} (hI : 7 ≤ I) (text : List Char) (v : Int) : (parseInt I).parse text = some v ↔ IsInt I text v := by
  obtain ⟨h1, h2⟩ := IntText.C25_parse I hI (intTy I) narrow 10 (by decide) (by decide) .auto_ text 0
  have h1v := h1 v
  rw [int_fits, toNat_eq_narrow (by decide)] at h1v
  have e1 : IntText.plusOk .auto_ = false := rfl
  have e2 : IntText.minusOk (intTy I).signed .auto_ = true := rfl
  rw [e1, e2] at h1v
  unfold IsInt
  rw [← h1v]
  simp only [parseInt]
  rw [show ((10 : Nat) : Int) = 10 from rfl] at h2 ⊢
  rcases h2 with ⟨w, h2⟩ | h2
  · rw [h2]; simp
  · rw [h2]; simp

/-- There is no comma, and no space, in a numeral, and it is not empty. -/
theorem isInt_chars {I : Nat} {text : List Char} {v : Int} (h : IsInt I text v) : text ≠ [] ∧ ∀ c ∈ text, c ≠ ',' ∧ c ≠ ' ' := by
  obtain ⟨⟨sign, neg, cs, ds, h1, h2, h3, h4, h5⟩, -⟩ := h
  constructor
  · rintro rfl
    have := congrArg List.length h1
    have h6 := List.length_pos_iff.mpr h3
    simp at this
    omega
  · intro c hc
    have hmem : c.toNat ∈ sign ++ cs := by rw [← h1]; exact List.mem_map_of_mem hc
    suffices hh : c.toNat ≠ 44 ∧ c.toNat ≠ 32 by
      constructor <;> rintro rfl
      · exact hh.1 rfl
      · exact hh.2 rfl
    rcases List.mem_append.mp hmem with hm | hm
    · cases h2 with
      | none => simp at hm
      | plus _ => simp only [List.mem_singleton] at hm; rw [hm]; decide
      | minus _ => simp only [List.mem_singleton] at hm; rw [hm]; decide
    · obtain ⟨d, -, hd⟩ : ∃ d ∈ ds, IntText.Spec.IsDigit 10 c.toNat d := by
        clear h1 h5 h3 hmem
        induction h4 with
        | nil => simp at hm
        | cons h _ ih =>
          rcases List.mem_cons.mp hm with hm | hm
          · rw [hm]; exact ⟨_, List.mem_cons_self, h⟩
          · obtain ⟨d, hd, hd2⟩ := ih hm
            exact ⟨d, List.mem_cons_of_mem _ hd, hd2⟩
      rw [IntText.isDigit_iff (by decide)] at hd
      constructor <;> intro e <;> rw [e] at hd <;> simp [IntText.mapDigitR, IntText.mapDigit] at hd

theorem decimal_isInt {I : Nat} {v : Int} (hv : -2 ^ I ≤ v ∧ v < 2 ^ I) : IsInt I (decimal v) v := by
  refine ⟨?_, hv⟩
  have h := IntText.numeral_denotes false (n := 1) (show 2 ≤ 10 by decide) (by decide) v false true (Or.inr (by decide)) (fun _ => rfl)
  rw [← toNat_eq_narrow (by decide)]
  unfold decimal
  rw [List.map_map]
  have : (IntText.Spec.numeral false 10 1 v).map (narrow ∘ Char.ofNat) = IntText.Spec.numeral false 10 1 v := by
    rw [← List.map_id (IntText.Spec.numeral false 10 1 v), List.map_map]
    apply List.map_congr_left
    intro c hc
    simp only [Function.comp, id]
    apply narrow_ofNat
    unfold IntText.Spec.numeral at hc
    rcases List.mem_append.mp hc with hc | hc
    · split at hc
      · simp only [List.mem_singleton] at hc; rw [hc]; decide
      · simp at hc
    · obtain ⟨d, hd, rfl⟩ := List.mem_map.mp hc
      have := IntText.digits_lt (by decide) d hd
      have key : ∀ d < 10, IntText.Spec.digitChar false d < 128 := by decide +kernel
      exact key d this
  rw [this]; exact h

theorem suitable {I : Nat} {text : List Char} {v : Int} (h : IsInt I text v) : AsList.Spec.Suitable config text := by
  obtain ⟨h1, h2⟩ := isInt_chars h
  refine ⟨fun hc => (h2 _ hc).1 rfl, fun _ => ⟨h1, ?_, ?_⟩⟩
  · intro hh
    exact (h2 ' ' (List.mem_of_mem_head? hh)).2 rfl
  · intro hh
    exact (h2 ' ' (List.mem_of_mem_getLast? hh)).2 rfl

/-- The list syntax for one item. -/
theorem syntax_one {I : Nat} {text : List Char} {v : Int} (h : IsInt I text v) : AsList.Spec.Syntax config text [text] :=
  .last text (fun hc => ((isInt_chars h).2 _ hc).1 rfl)

/-- The list syntax for two items. -/
theorem syntax_two {I : Nat} {s t : List Char} {a b : Int} (n : Nat) (ha : IsInt I s a) (hb : IsInt I t b) :
    AsList.Spec.Syntax config (s ++ ',' :: (List.replicate n ' ' ++ t)) [s, t] := by
  refine .cons s _ t _ (fun hc => ((isInt_chars ha).2 _ hc).1 rfl) ?_ (fun h => by cases h) ?_ (.last t (fun hc => ((isInt_chars hb).2 _ hc).1 rfl))
  · intro x hx; exact List.eq_of_mem_replicate hx
  · intro _ hh; exact ((isInt_chars hb).2 ' ' (List.mem_of_mem_head? hh)).2 rfl

/-- Lists of at most two items. -/
theorem syntax_inv {text : List Char} {ps : List (List Char)} (h : AsList.Spec.Syntax config text ps) (hl : ps.length ≤ 2) :
    ps = [text] ∨ ∃ s t, ∃ n : Nat, text = s ++ ',' :: (List.replicate n ' ' ++ t) ∧ ps = [s, t] := by
  have h' : AsList.Spec.Items ',' true text ps := h
  cases h' with
  | last p h => left; rfl
  | cons p sp rest ps h hsp hno hmax hrest =>
    right
    cases hrest with
    | last p2 h2 =>
      refine ⟨p, rest, sp.length, ?_, rfl⟩
      rw [← List.eq_replicate_of_mem hsp]
    | cons p2 sp2 rest2 ps2 h2 hsp2 hno2 hmax2 hrest2 =>
      have : 1 ≤ ps2.length := by cases hrest2 <;> simp
      simp only [List.length_cons] at hl
      omega

end Verif.PixelSize
