import Verif.RandomSeed.Spec
import Verif.Integer.Props
import Mathlib.Tactic.Ring
import Mathlib.Data.List.Induction
import Mathlib.Data.List.TakeWhile
/-!
Property C47: /repo/src/archon/check/random_seed.hpp.
-/
namespace Verif.RandomSeed
open Verif.Integer

/-! ### Digits and numerals -/

theorem mapDigit_iff {c d : Nat} : mapDigit c = some d ↔ d < 62 ∧ c = Spec.digitChar d := by
  unfold mapDigit Spec.digitChar
  split_ifs <;> simp <;> omega

theorem base62_eq {d : Nat} (h : d < 62) : base62Chars.getD d 0 = Spec.digitChar d := by
  have : ∀ d < 62, base62Chars.getD d 0 = Spec.digitChar d := by decide +kernel
  exact this d h

/-- A number in radix 62 with a given number of digits. -/
def numeral : Nat → Nat → List Nat
  | 0, _ => []
  | k + 1, v => numeral k (v / 62) ++ [Spec.digitChar (v % 62)]

theorem numeral_eq (k v : Nat) : numeral k v = (List.range k).map fun j => Spec.digitChar (v / 62 ^ (k - 1 - j) % 62) := by
  induction k generalizing v with
  | zero => rfl
  | succ k ih =>
    rw [numeral, ih, List.range_succ, List.map_append]
    congr 1
    · apply List.map_congr_left
      intro j hj
      have hj : j < k := List.mem_range.1 hj
      rw [Nat.div_div_eq_div_mul, show k + 1 - 1 - j = (k - 1 - j) + 1 by omega, Nat.pow_succ, Nat.mul_comm 62]
    · simp

theorem spec_numeral (v : Nat) : Spec.numeral v = numeral 11 v := (numeral_eq 11 v).symm

theorem numeral_length (k v : Nat) : (numeral k v).length = k := by
  rw [numeral_eq]; simp

theorem numeral_digits {k v c : Nat} (h : c ∈ numeral k v) : ∃ d < 62, c = Spec.digitChar d := by
  rw [numeral_eq] at h
  obtain ⟨j, -, rfl⟩ := List.mem_map.1 h
  exact ⟨_, Nat.mod_lt _ (by omega), rfl⟩

theorem encodeLoop_eq (k v : Nat) (buf : List Nat) : encodeLoop k v buf = numeral k v ++ buf := by
  induction k generalizing v buf with
  | zero => rfl
  | succ k ih =>
    rw [encodeLoop, ih, numeral, base62_eq (Nat.mod_lt _ (by omega)), List.append_assoc]
    rfl

/-- The value of a sequence of digit characters that follows digits of the given value. -/
def val : List Nat → Nat → Option Nat
  | [], v => some v
  | c :: cs, v => match mapDigit c with
    | none => none
    | some d => val cs (v * 62 + d)

theorem val_append (a b : List Nat) (v : Nat) : val (a ++ b) v = (val a v).bind (val b) := by
  induction a generalizing v with
  | nil => rfl
  | cons c cs ih =>
    rw [List.cons_append, val, val]
    cases mapDigit c with
    | none => rfl
    | some d => exact ih _

theorem val_numeral (k v : Nat) (h : v < 62 ^ k) : val (numeral k v) 0 = some v := by
  induction k generalizing v with
  | zero => simp at h; subst h; rfl
  | succ k ih =>
    rw [numeral, val_append, ih _ (by rw [Nat.div_lt_iff_lt_mul (by omega), ← Nat.pow_succ]; exact h), Option.bind_some, val,
      mapDigit_iff.2 ⟨Nat.mod_lt _ (by omega), rfl⟩]
    simp only [val]
    congr 1
    omega

theorem val_inv (cs : List Nat) : ∀ v, val cs 0 = some v → v < 62 ^ cs.length ∧ cs = numeral cs.length v := by
  induction cs using List.reverseRecOn with
  | nil => intro v h; cases h; simp [numeral]
  | append_singleton cs c ih =>
    intro v h
    rw [val_append] at h
    obtain ⟨u, h1, h2⟩ := Option.bind_eq_some_iff.1 h
    obtain ⟨i1, i2⟩ := ih u h1
    rw [val] at h2
    cases hd : mapDigit c with
    | none => rw [hd] at h2; cases h2
    | some d =>
      rw [hd] at h2
      obtain ⟨h3, rfl⟩ := mapDigit_iff.1 hd
      simp only [val, Option.some.injEq] at h2
      subst h2
      rw [List.length_append, List.length_singleton]
      constructor
      · rw [Nat.pow_succ]; omega
      · rw [numeral, show (u * 62 + d) / 62 = u by omega, show (u * 62 + d) % 62 = d by omega, ← i2]

theorem val_le {cs : List Nat} : ∀ {v w : Nat}, val cs v = some w → v ≤ w := by
  induction cs with
  | nil => intro v w h; cases h; exact Nat.le_refl _
  | cons c cs ih =>
    intro v w h
    rw [val] at h
    cases hd : mapDigit c with
    | none => rw [hd] at h; cases h
    | some d =>
      rw [hd] at h
      have := ih h
      omega

/-! ### Parsing -/

theorem natPow (n : Nat) : ((2 ^ n : Nat) : Int) = 2 ^ n := by push_cast; rfl

theorem fits_nat {W v : Nat} : Verif.Integer.Spec.Fits ⟨false, W⟩ (v : Int) ↔ v < 2 ^ W := by
  unfold Verif.Integer.Spec.Fits
  simp only [Bool.false_eq_true, if_false]
  rw [← natPow]
  omega

theorem fits_small {I d : Nat} (hI : 15 ≤ I) (h : d ≤ 62) : Verif.Integer.Spec.Fits (intTy I) (d : Int) := by
  rw [fits_iff, intTy, In_nonneg (by omega)]
  have := p_le hI
  show (d : Int) < 2 ^ I
  omega

theorem parseLoop_eq {I W : Nat} (hI : 15 ≤ I) : ∀ (cs : List Nat) (v : Nat), v < 2 ^ W →
    parseLoop I W cs v = some (((val cs v).filter (· < 2 ^ W)).map Int.ofNat) := by
  intro cs
  induction cs with
  | nil => intro v h; simp [parseLoop, val, h]
  | cons c cs ih =>
    intro v h
    rw [parseLoop, val]
    cases hd : mapDigit c with
    | none => rfl
    | some d =>
      obtain ⟨hd62, -⟩ := mapDigit_iff.1 hd
      simp only
      rw [show (62 : Int) = ((62 : Nat) : Int) from rfl,
        C20_mul _ _ _ _ _ (fits_nat.2 h) (fits_small (d := 62) hI (by omega)), Verif.Integer.Spec.checked]
      have e : ((v : Int) * ((62 : Nat) : Int)) = ((v * 62 : Nat) : Int) := by push_cast; rfl
      rw [e]
      by_cases h1 : v * 62 < 2 ^ W
      · rw [if_pos (fits_nat.2 h1)]
        simp only [Option.bind_eq_bind, Option.bind_some]
        rw [C20_add _ _ _ _ _ (fits_nat.2 h1) (fits_small hI (by omega)), Verif.Integer.Spec.checked]
        have e : (((v * 62 : Nat) : Int) + (d : Int)) = ((v * 62 + d : Nat) : Int) := by push_cast; rfl
        rw [e]
        by_cases h2 : v * 62 + d < 2 ^ W
        · rw [if_pos (fits_nat.2 h2)]
          simp only [Option.bind_some]
          exact ih _ h2
        · rw [if_neg (fun h => h2 (fits_nat.1 h))]
          simp only [Option.bind_some]
          cases hv : val cs (v * 62 + d) with
          | none => rfl
          | some w =>
            have := val_le hv
            simp [Option.filter, show ¬ w < 2 ^ W by omega]
      · rw [if_neg (fun h => h1 (fits_nat.1 h))]
        simp only [Option.bind_eq_bind, Option.bind_some]
        cases hv : val cs (v * 62 + d) with
        | none => rfl
        | some w =>
          have := val_le hv
          simp [Option.filter, show ¬ w < 2 ^ W by omega]

theorem and_mask (v : Nat) : v &&& 0xFFFFFFFF = v % 2 ^ 32 := Nat.and_two_pow_sub_one_eq_mod v 32

/-- Parsing of a pair of words. -/
theorem parseSub_spec {I W : Nat} (hI : 15 ≤ I) (hW : 64 ≤ W) (cs : List Nat) (hl : cs.length = 11) :
    ∃ r, parseSub I W cs = some r ∧ ∀ a b, r = some (a, b) ↔
      (a < 2 ^ 32 ∧ b < 2 ^ 32) ∧ ¬ (a = 0xFFFFFFFF ∧ b = 0xFFFFFFFF) ∧ cs = Spec.numeral (a + 2 ^ 32 * b) := by
  have hp : (2 : Nat) ^ 64 ≤ 2 ^ W := Nat.pow_le_pow_right (by omega) hW
  have hbig : (2 : Nat) ^ 64 < 62 ^ 11 := by decide
  have e32 : (2 : Nat) ^ 32 = 4294967296 := by decide
  have e64 : (2 : Nat) ^ 64 = 18446744073709551616 := by decide
  rw [parseSub, show ((0 : Int)) = ((0 : Nat) : Int) from rfl, parseLoop_eq hI cs 0 (by omega)]
  simp only [Option.bind_eq_bind, Option.bind_some]
  cases hv : val cs 0 with
  | none =>
    refine ⟨none, rfl, fun a b => ?_⟩
    simp only [reduceCtorEq, false_iff]
    rintro ⟨⟨h1, h2⟩, -, h3⟩
    rw [spec_numeral] at h3
    rw [h3, val_numeral _ _ (by omega)] at hv
    cases hv
  | some v =>
    obtain ⟨hv1, hv2⟩ := val_inv cs v hv
    rw [hl] at hv1 hv2
    have key : ∀ a b, a < 2 ^ 32 → b < 2 ^ 32 → cs = Spec.numeral (a + 2 ^ 32 * b) → v = a + 2 ^ 32 * b := by
      intro a b h1 h2 h3
      rw [spec_numeral] at h3
      rw [h3, val_numeral _ _ (by omega)] at hv
      cases hv
      rfl
    by_cases h1 : v < 2 ^ W
    · rw [show (some v).filter (· < 2 ^ W) = some v by simp [Option.filter, h1]]
      simp only [Option.map_some]
      rw [C56_mask I (by omega)]
      simp only [Option.bind_some]
      rw [show min (64 : Int).toNat (⟨false, W⟩ : Ty).bits = 64 by simp; omega]
      by_cases h2 : v < 2 ^ 64 - 1
      · rw [if_neg (by show ¬ ((v : Int) ≥ _); rw [← natPow]; omega)]
        refine ⟨_, rfl, fun a b => ?_⟩
        show some (((v : Nat) &&& 0xFFFFFFFF), ((v : Nat) >>> 32) &&& 0xFFFFFFFF) = some (a, b) ↔ _
        rw [and_mask, and_mask, Nat.shiftRight_eq_div_pow]
        simp only [Option.some.injEq, Prod.mk.injEq]
        constructor
        · rintro ⟨rfl, rfl⟩
          refine ⟨⟨Nat.mod_lt _ (by omega), Nat.mod_lt _ (by omega)⟩, by omega, ?_⟩
          rw [spec_numeral, hv2]
          congr 1
          omega
        · rintro ⟨⟨h3, h4⟩, -, h5⟩
          have := key a b h3 h4 h5
          omega
      · rw [if_pos (by show ((v : Int) ≥ _); rw [← natPow]; omega)]
        refine ⟨none, rfl, fun a b => ?_⟩
        simp only [reduceCtorEq, false_iff]
        rintro ⟨⟨h3, h4⟩, h5, h6⟩
        have := key a b h3 h4 h6
        omega
    · rw [show (some v).filter (· < 2 ^ W) = none by simp [Option.filter, h1]]
      refine ⟨none, rfl, fun a b => ?_⟩
      simp only [reduceCtorEq, false_iff]
      rintro ⟨⟨h3, h4⟩, -, h6⟩
      have := key a b h3 h4 h6
      omega

/-- A block that can be read. -/
def Ok (b : Spec.Block) : Prop :=
  (∀ p ∈ Spec.blockPairs b, p.1 < 2 ^ 32 ∧ p.2 < 2 ^ 32) ∧ (0xFFFFFFFF, 0xFFFFFFFF) ∉ Spec.blockPairs b

theorem spec_numeral_length (v : Nat) : (Spec.numeral v).length = 11 := by rw [spec_numeral, numeral_length]

theorem block_length (b : Spec.Block) : (Spec.block b).length = 33 := by
  simp [Spec.block, spec_numeral_length]

theorem block_split (b : Spec.Block) :
    (Spec.block b).take 11 = Spec.numeral (b.1.1 + 2 ^ 32 * b.1.2) ∧
    ((Spec.block b).drop 11).take 11 = Spec.numeral (b.2.1.1 + 2 ^ 32 * b.2.1.2) ∧
    ((Spec.block b).drop 22).take 11 = Spec.numeral (b.2.2.1 + 2 ^ 32 * b.2.2.2) := by
  have h := spec_numeral_length
  unfold Spec.block
  generalize b.1.1 + 2 ^ 32 * b.1.2 = x
  generalize b.2.1.1 + 2 ^ 32 * b.2.1.2 = y
  generalize b.2.2.1 + 2 ^ 32 * b.2.2.2 = z
  rw [List.append_assoc]
  refine ⟨?_, ?_, ?_⟩
  · rw [List.take_append_of_le_length (by rw [h]), List.take_of_length_le (by rw [h])]
  · rw [List.drop_append_of_le_length (by rw [h]), List.drop_of_length_le (by rw [h]), List.nil_append,
      List.take_append_of_le_length (by rw [h]), List.take_of_length_le (by rw [h])]
  · rw [List.drop_append, List.drop_of_length_le (by rw [h]; omega), List.nil_append, h,
      List.drop_append_of_le_length (by rw [h]), List.drop_of_length_le (by rw [h]), List.nil_append,
      List.take_of_length_le (by rw [h])]

theorem split3 {cs : List Nat} (h : cs.length = 33) :
    cs = cs.take 11 ++ (cs.drop 11).take 11 ++ (cs.drop 22).take 11 := by
  conv_lhs => rw [← List.take_append_drop 11 cs, ← List.take_append_drop 11 (cs.drop 11), List.drop_drop]
  rw [← List.append_assoc]
  congr 1
  rw [List.take_of_length_le]
  rw [List.length_drop]; omega

theorem parseBlock_spec {I W : Nat} (hI : 15 ≤ I) (hW : 64 ≤ W) (cs : List Nat) (hl : cs.length = 33) :
    ∃ r, parseBlock I W cs = some r ∧
      ∀ ws, r = some ws ↔ ∃ b, Ok b ∧ ws = Spec.blockWords b ∧ cs = Spec.block b := by
  obtain ⟨r1, e1, h1⟩ := parseSub_spec hI hW (cs.take 11) (by rw [List.length_take]; omega)
  obtain ⟨r2, e2, h2⟩ := parseSub_spec hI hW ((cs.drop 11).take 11) (by rw [List.length_take, List.length_drop]; omega)
  obtain ⟨r3, e3, h3⟩ := parseSub_spec hI hW ((cs.drop 22).take 11) (by rw [List.length_take, List.length_drop]; omega)
  have back : ∀ b, Ok b → cs = Spec.block b → r1 = some b.1 ∧ r2 = some b.2.1 ∧ r3 = some b.2.2 := by
    intro b hb hc
    obtain ⟨s1, s2, s3⟩ := block_split b
    rw [← hc] at s1 s2 s3
    have hm := hb.1
    have hn := hb.2
    unfold Spec.blockPairs at hm hn
    simp only [List.mem_cons, List.not_mem_nil, or_false, not_or, forall_eq_or_imp, forall_eq] at hm hn
    refine ⟨(h1 _ _).2 ⟨hm.1, ?_, s1⟩, (h2 _ _).2 ⟨hm.2.1, ?_, s2⟩, (h3 _ _).2 ⟨hm.2.2, ?_, s3⟩⟩
    · rintro ⟨ha, hb⟩; exact hn.1 (Prod.ext ha hb).symm
    · rintro ⟨ha, hb⟩; exact hn.2.1 (Prod.ext ha hb).symm
    · rintro ⟨ha, hb⟩; exact hn.2.2 (Prod.ext ha hb).symm
  rw [parseBlock, e1, e2, e3]
  simp only [Option.bind_eq_bind, Option.bind_some]
  cases r1 with
  | none =>
    refine ⟨none, rfl, fun ws => ⟨fun h => (by cases h), ?_⟩⟩
    rintro ⟨b, hb, -, hc⟩
    cases (back b hb hc).1
  | some p1 =>
    cases r2 with
    | none =>
      refine ⟨none, rfl, fun ws => ⟨fun h => (by cases h), ?_⟩⟩
      rintro ⟨b, hb, -, hc⟩
      cases (back b hb hc).2.1
    | some p2 =>
      cases r3 with
      | none =>
        refine ⟨none, rfl, fun ws => ⟨fun h => (by cases h), ?_⟩⟩
        rintro ⟨b, hb, -, hc⟩
        cases (back b hb hc).2.2
      | some p3 =>
        obtain ⟨a, b⟩ := p1
        obtain ⟨c, d⟩ := p2
        obtain ⟨e, f⟩ := p3
        refine ⟨_, rfl, fun ws => ⟨fun h => ?_, ?_⟩⟩
        · cases h
          obtain ⟨x1, y1, z1⟩ := (h1 _ _).1 rfl
          obtain ⟨x2, y2, z2⟩ := (h2 _ _).1 rfl
          obtain ⟨x3, y3, z3⟩ := (h3 _ _).1 rfl
          refine ⟨((a, b), (c, d), (e, f)), ⟨?_, ?_⟩, rfl, ?_⟩
          · intro p hp
            simp only [Spec.blockPairs, List.mem_cons, List.not_mem_nil, or_false] at hp
            rcases hp with rfl | rfl | rfl
            · exact x1
            · exact x2
            · exact x3
          · simp only [Spec.blockPairs, List.mem_cons, List.not_mem_nil, or_false, Prod.mk.injEq]
            rintro (⟨rfl, rfl⟩ | ⟨rfl, rfl⟩ | ⟨rfl, rfl⟩)
            · exact y1 ⟨rfl, rfl⟩
            · exact y2 ⟨rfl, rfl⟩
            · exact y3 ⟨rfl, rfl⟩
          · rw [split3 hl, z1, z2, z3]; rfl
        · rintro ⟨⟨⟨_, _⟩, ⟨_, _⟩, ⟨_, _⟩⟩, hb, rfl, hc⟩
          obtain ⟨g1, g2, g3⟩ := back _ hb hc
          cases g1; cases g2; cases g3
          rfl

/-! ### Reading -/

section
variable {C : Type}

theorem collect_eq (L : Loc C) (input : List C) : ∀ block : List Nat, block.length ≤ 33 →
    collect L input block = (block ++ ((input.takeWhile L.alnum).take (33 - block.length)).map L.narrow,
      input.dropWhile L.alnum) := by
  induction input with
  | nil => intro block _; simp [collect]
  | cons ch rest ih =>
    intro block hb
    rw [collect, List.takeWhile_cons, List.dropWhile_cons]
    by_cases h : L.alnum ch = true
    · rw [if_pos h, if_pos h, if_pos h]
      by_cases hlt : block.length < 33
      · rw [if_pos hlt, ih _ (by simp; omega)]
        rw [List.length_append, List.length_singleton, show 33 - block.length = (33 - (block.length + 1)) + 1 by omega,
          List.take_succ_cons, List.map_cons, List.append_assoc]
        rfl
      · rw [if_neg hlt, ih _ hb, show 33 - block.length = 0 by omega]
        simp
    · rw [if_neg h, if_neg h, if_neg h]
      simp

theorem collect_text {L : Loc C} {xs : List Nat} {junk rest : List C} (hL : Spec.Good L) (hx : xs.length = 33)
    (hd : ∀ c ∈ xs, ∃ d < 62, c = Spec.digitChar d) (hj : ∀ ch ∈ junk, L.alnum ch = true)
    (hr : ∀ ch ∈ rest.head?, L.alnum ch = false) :
    collect L (xs.map L.widen ++ junk ++ rest) [] = (xs, rest) := by
  have hall : ∀ ch ∈ xs.map L.widen ++ junk, L.alnum ch = true := by
    intro ch hch
    rcases List.mem_append.1 hch with h | h
    · obtain ⟨c, hc, rfl⟩ := List.mem_map.1 h
      obtain ⟨d, hd62, rfl⟩ := hd c hc
      exact (hL.digit d hd62).2
    · exact hj ch h
  have ht : rest.takeWhile L.alnum = [] ∧ rest.dropWhile L.alnum = rest := by
    cases rest with
    | nil => exact ⟨rfl, rfl⟩
    | cons ch rest =>
      have := hr ch (by simp)
      simp [this]
  rw [collect_eq L _ [] (by simp), List.takeWhile_append_of_pos hall, List.dropWhile_append_of_pos hall, ht.1, ht.2]
  congr 1
  simp only [List.length_nil, Nat.sub_zero, List.append_nil, List.nil_append]
  rw [List.take_append_of_le_length (by simp [hx]), List.take_of_length_le (by simp [hx]), List.map_map]
  conv_rhs => rw [← List.map_id xs]
  apply List.map_congr_left
  intro c hc
  obtain ⟨d, hd62, rfl⟩ := hd c hc
  exact (hL.digit d hd62).1

theorem block_digits (b : Spec.Block) : ∀ c ∈ Spec.block b, ∃ d < 62, c = Spec.digitChar d := by
  intro c hc
  simp only [Spec.block, List.mem_append, spec_numeral] at hc
  rcases hc with (h | h) | h <;> exact numeral_digits h

/-- What is consumed of the input: blocks, each followed by further alphanumeric characters, and separated by dashes. -/
def consumed (L : Loc C) (items : List (Spec.Block × List C)) : List C :=
  List.intercalate [L.widen 45] (items.map fun i => (Spec.block i.1).map L.widen ++ i.2)

theorem consumed_single (L : Loc C) (i : Spec.Block × List C) :
    consumed L [i] = (Spec.block i.1).map L.widen ++ i.2 := by
  simp [consumed, List.intercalate]

theorem consumed_cons (L : Loc C) (i j : Spec.Block × List C) (is : List (Spec.Block × List C)) :
    consumed L (i :: j :: is) = (Spec.block i.1).map L.widen ++ i.2 ++ L.widen 45 :: consumed L (j :: is) := by
  simp [consumed, List.intercalate]

theorem consumed_ne {L : Loc C} {is : List (Spec.Block × List C)} (h : is ≠ []) : consumed L is ≠ [] := by
  intro hc
  have hl := congrArg List.length hc
  match is, h with
  | [i], _ => rw [consumed_single] at hl; simp [block_length] at hl
  | i :: j :: is, _ => rw [consumed_cons] at hl; simp [block_length] at hl

theorem consumed_text (L : Loc C) {bs : List Spec.Block} (h : bs ≠ []) :
    consumed L (bs.map fun b => (b, [])) = (Spec.text bs).map L.widen := by
  rw [Spec.text, if_neg h]
  match bs, h with
  | b :: bs, _ =>
    clear h
    induction bs generalizing b with
    | nil => simp [consumed, List.intercalate]
    | cons c bs ih =>
      rw [List.map_cons, List.map_cons, consumed_cons]
      have := ih c (by simp)
      rw [List.map_cons] at this
      rw [this]
      simp [List.intercalate]

theorem infix_intercalate {α : Type} (sep : List α) (xs : List (List α)) (x : List α) (h : x ∈ xs) :
    x <:+: List.intercalate sep xs := by
  induction xs with
  | nil => cases h
  | cons y ys ih =>
    cases ys with
    | nil =>
      rw [List.mem_singleton] at h; subst h
      simp [List.intercalate]
    | cons z zs =>
      rw [show List.intercalate sep (y :: z :: zs) = y ++ (sep ++ List.intercalate sep (z :: zs)) by
        simp [List.intercalate]]
      rcases List.mem_cons.1 h with rfl | h
      · exact (List.prefix_append _ _).isInfix
      · exact (ih h).trans ((List.suffix_append _ _).trans (List.suffix_append _ _)).isInfix

theorem block_inj {b b' : Spec.Block} (hb : ∀ p ∈ Spec.blockPairs b, p.1 < 2 ^ 32 ∧ p.2 < 2 ^ 32)
    (hb' : ∀ p ∈ Spec.blockPairs b', p.1 < 2 ^ 32 ∧ p.2 < 2 ^ 32) (h : Spec.block b = Spec.block b') : b = b' := by
  have num : ∀ p q : Nat × Nat, p.1 < 2 ^ 32 ∧ p.2 < 2 ^ 32 → q.1 < 2 ^ 32 ∧ q.2 < 2 ^ 32 →
      Spec.numeral (p.1 + 2 ^ 32 * p.2) = Spec.numeral (q.1 + 2 ^ 32 * q.2) → p = q := by
    intro p q hp hq he
    have h62 : (2 : Nat) ^ 64 ≤ 62 ^ 11 := by norm_num
    have e1 := val_numeral (k := 11) (v := p.1 + 2 ^ 32 * p.2) (by omega)
    have e2 := val_numeral (k := 11) (v := q.1 + 2 ^ 32 * q.2) (by omega)
    rw [← spec_numeral] at e1 e2
    rw [he, e2] at e1
    have e3 : q.1 + 2 ^ 32 * q.2 = p.1 + 2 ^ 32 * p.2 := Option.some.inj e1
    apply Prod.ext <;> omega
  obtain ⟨s1, s2, s3⟩ := block_split b
  obtain ⟨t1, t2, t3⟩ := block_split b'
  rw [h] at s1 s2 s3
  apply Prod.ext
  · exact num _ _ (hb _ (by simp [Spec.blockPairs])) (hb' _ (by simp [Spec.blockPairs])) (s1.symm.trans t1)
  · apply Prod.ext
    · exact num _ _ (hb _ (by simp [Spec.blockPairs])) (hb' _ (by simp [Spec.blockPairs])) (s2.symm.trans t2)
    · exact num _ _ (hb _ (by simp [Spec.blockPairs])) (hb' _ (by simp [Spec.blockPairs])) (s3.symm.trans t3)

theorem joinWords_eq {W a b : Nat} (hW : 64 ≤ W) (ha : a < 2 ^ 32) (hb : b < 2 ^ 32) :
    joinWords W a b = a + 2 ^ 32 * b := by
  have h64 : (2 : Nat) ^ 64 ≤ 2 ^ W := Nat.pow_le_pow_right (by omega) hW
  have h32 : b <<< 32 < 2 ^ 64 := by rw [Nat.shiftLeft_eq]; omega
  rw [joinWords, Nat.shiftLeft_zero, Nat.zero_or, Nat.mod_eq_of_lt (by omega), Nat.mod_eq_of_lt (by omega), Nat.lor_comm,
    ← Nat.shiftLeft_add_eq_or_of_lt ha, Nat.shiftLeft_eq]
  omega

theorem formatBlock_eq {W : Nat} (hW : 64 ≤ W) (b : Spec.Block)
    (hb : ∀ p ∈ Spec.blockPairs b, p.1 < 2 ^ 32 ∧ p.2 < 2 ^ 32) (ws : List Nat) :
    formatBlock W (Spec.blockWords b ++ ws) = Spec.block b := by
  obtain ⟨h1, h1'⟩ := hb b.1 (by simp [Spec.blockPairs])
  obtain ⟨h2, h2'⟩ := hb b.2.1 (by simp [Spec.blockPairs])
  obtain ⟨h3, h3'⟩ := hb b.2.2 (by simp [Spec.blockPairs])
  simp only [Spec.blockWords, List.cons_append, formatBlock, encodeLoop_eq, joinWords_eq hW h1 h1', joinWords_eq hW h2 h2',
    joinWords_eq hW h3 h3', List.append_nil, Spec.block, spec_numeral]

theorem seed_length (bs : List Spec.Block) : (Spec.seed bs).length = bs.length * 6 := by
  induction bs with
  | nil => rfl
  | cons b bs ih =>
    simp only [Spec.seed, List.flatMap_cons, List.length_append, List.length_cons] at ih ⊢
    rw [ih]; simp [Spec.blockWords]; omega

theorem writeLoop_eq (L : Loc C) {W : Nat} (hW : 64 ≤ W) : ∀ (bs : List Spec.Block), bs ≠ [] → Spec.Valid bs →
    writeLoop L W bs.length (Spec.seed bs) = consumed L (bs.map fun b => (b, [])) := by
  intro bs
  induction bs with
  | nil => intro h; exact absurd rfl h
  | cons b bs ih =>
    intro _ hv
    have hd : (Spec.seed (b :: bs)).drop 6 = Spec.seed bs := by simp [Spec.seed, Spec.blockWords]
    rw [List.length_cons, writeLoop, hd]
    rw [show Spec.seed (b :: bs) = Spec.blockWords b ++ Spec.seed bs from List.flatMap_cons ..,
      formatBlock_eq hW b (hv b (by simp))]
    cases bs with
    | nil => simp [consumed, List.intercalate]
    | cons c bs =>
      rw [if_neg (by simp), ih (by simp) (fun x hx => hv x (List.mem_cons_of_mem _ hx))]
      rw [List.map_cons, List.map_cons, List.map_cons, consumed_cons]
      simp [dash]

variable [DecidableEq C]

theorem readLoop_sound {L : Loc C} {I W : Nat} (hL : Spec.Good L) (hI : 15 ≤ I) (hW : 64 ≤ W) :
    ∀ (fuel : Nat) (input : List C) (words ws : List Nat) (rest : List C),
      readLoop L I W fuel input words = some (some ws, rest) →
      ∃ items : List (Spec.Block × List C), items ≠ [] ∧ (∀ i ∈ items, Ok i.1 ∧ ∀ ch ∈ i.2, L.alnum ch = true) ∧
        ws = words ++ Spec.seed (items.map (·.1)) ∧ input = consumed L items ++ rest := by
  intro fuel
  induction fuel with
  | zero => intro input words ws rest h; cases h
  | succ fuel ih =>
    intro input words ws rest h
    rw [readLoop, collect_eq L input [] (by simp)] at h
    simp only [List.length_nil, Nat.sub_zero, List.nil_append] at h
    split_ifs at h with hlen
    · cases h
    · have hlen : ((List.takeWhile L.alnum input).take 33).length = 33 := by simpa using hlen
      obtain ⟨r, hr1, hr2⟩ := parseBlock_spec hI hW (((input.takeWhile L.alnum).take 33).map L.narrow) (by simpa using hlen)
      rw [hr1] at h
      simp only [Option.bind_eq_bind, Option.bind_some] at h
      cases r with
      | none => cases h
      | some bw =>
        obtain ⟨b, hb, rfl, hc⟩ := (hr2 bw).1 rfl
        simp only at h
        have htw : (input.takeWhile L.alnum).take 33 = (Spec.block b).map L.widen := by
          rw [← hc, List.map_map]
          conv_lhs => rw [← List.map_id ((input.takeWhile L.alnum).take 33)]
          apply List.map_congr_left
          intro ch hch
          have hal : L.alnum ch = true := List.mem_takeWhile_imp (List.mem_of_mem_take hch)
          obtain ⟨d, hd, he⟩ := block_digits b (L.narrow ch) (by rw [← hc]; exact List.mem_map_of_mem hch)
          show ch = L.widen (L.narrow ch)
          rw [he]
          exact hL.only ch hal d hd he
        have hin : input = (Spec.block b).map L.widen ++ (input.takeWhile L.alnum).drop 33 ++ input.dropWhile L.alnum := by
          rw [← htw, List.take_append_drop, List.takeWhile_append_dropWhile]
        have hjunk : ∀ ch ∈ (input.takeWhile L.alnum).drop 33, L.alnum ch = true := fun ch hch =>
          List.mem_takeWhile_imp (List.mem_of_mem_drop hch)
        generalize (input.takeWhile L.alnum).drop 33 = junk at hin hjunk
        generalize input.dropWhile L.alnum = after at hin h
        have single : ∀ rest', after = rest' → some (some (words ++ Spec.blockWords b), rest') = some (some ws, rest) →
            ∃ items : List (Spec.Block × List C), items ≠ [] ∧ (∀ i ∈ items, Ok i.1 ∧ ∀ ch ∈ i.2, L.alnum ch = true) ∧
            ws = words ++ Spec.seed (items.map (·.1)) ∧ input = consumed L items ++ rest := by
          rintro _ rfl he
          simp only [Option.some.injEq, Prod.mk.injEq] at he
          obtain ⟨rfl, rfl⟩ := he
          refine ⟨[(b, junk)], by simp, ?_, by simp [Spec.seed], by rw [consumed_single]; exact hin⟩
          intro i hi
          rw [List.mem_singleton] at hi
          subst hi
          exact ⟨hb, hjunk⟩
        cases after with
        | nil => exact single _ rfl h
        | cons ch rest' =>
          simp only at h
          by_cases hdash : ch = L.widen dash
          · rw [if_neg (by simpa using hdash)] at h
            cases rest' with
            | nil => cases h
            | cons ch' rest'' =>
              obtain ⟨items, h0, h1, h2, h3⟩ := ih _ _ _ _ h
              match items, h0 with
              | j :: is, _ =>
                refine ⟨(b, junk) :: j :: is, by simp, ?_, ?_, ?_⟩
                · intro i hi
                  rcases List.mem_cons.1 hi with rfl | hi
                  · exact ⟨hb, hjunk⟩
                  · exact h1 i hi
                · rw [h2]; simp [Spec.seed, List.append_assoc]
                · rw [consumed_cons, hin, h3, hdash]; simp [dash]
          · rw [if_pos hdash] at h
            exact single _ rfl h

omit [DecidableEq C] in
theorem ends_cases {L : Loc C} {rest : List C} (h : Spec.Ends L rest) :
    rest = [] ∨ ∃ ch rest', rest = ch :: rest' ∧ L.alnum ch = false ∧ ch ≠ L.widen 45 := by
  cases rest with
  | nil => exact .inl rfl
  | cons ch rest' => exact .inr ⟨ch, rest', rfl, h ch (by simp)⟩

theorem readLoop_complete {L : Loc C} {I W : Nat} (hL : Spec.Good L) (hI : 15 ≤ I) (hW : 64 ≤ W) (rest : List C)
    (hrest : Spec.Ends L rest) :
    ∀ (items : List (Spec.Block × List C)) (fuel : Nat) (words : List Nat), items ≠ [] → items.length ≤ fuel →
      (∀ i ∈ items, Ok i.1 ∧ ∀ ch ∈ i.2, L.alnum ch = true) →
      readLoop L I W fuel (consumed L items ++ rest) words = some (some (words ++ Spec.seed (items.map (·.1))), rest) := by
  intro items
  induction items with
  | nil => intro fuel words h; exact absurd rfl h
  | cons i is ih =>
    intro fuel words _ hf hi
    obtain ⟨fuel, rfl⟩ : ∃ f, fuel = f + 1 := ⟨fuel - 1, by simp at hf; omega⟩
    obtain ⟨hb, hj⟩ := hi i (by simp)
    obtain ⟨r, hr1, hr2⟩ := parseBlock_spec hI hW (Spec.block i.1) (block_length _)
    rw [(hr2 _).2 ⟨i.1, hb, rfl, rfl⟩] at hr1
    cases is with
    | nil =>
      rw [consumed_single, readLoop, collect_text hL (block_length _) (block_digits _) hj
        (fun ch hch => (hrest ch hch).1)]
      simp only
      rw [if_neg (by simp [block_length]), hr1]
      simp only [Option.bind_eq_bind, Option.bind_some]
      rcases ends_cases hrest with rfl | ⟨ch, rest', rfl, -, h2⟩
      · simp [Spec.seed]
      · simp [h2, dash, Spec.seed]
    | cons j is =>
      rw [consumed_cons, List.append_assoc, readLoop, collect_text hL (block_length _) (block_digits _) hj
        (fun ch hch => by simp at hch; subst hch; exact hL.dash)]
      simp only [List.cons_append]
      rw [if_neg (by simp [block_length]), hr1]
      simp only [Option.bind_eq_bind, Option.bind_some]
      rw [if_neg (by simp [dash])]
      have hne : consumed L (j :: is) ++ rest ≠ [] := by simp [consumed_ne]
      have hih := ih fuel (words ++ Spec.blockWords i.1) (by simp) (by simp at hf ⊢; omega)
        (fun k hk => hi k (List.mem_cons_of_mem _ hk))
      generalize consumed L (j :: is) ++ rest = inp at *
      cases inp with
      | nil => exact absurd rfl hne
      | cons ch rest' =>
        simp only
        rw [hih]
        simp [Spec.seed, List.append_assoc]

/-- A block with a pair of words that consists of ones only ends the operation. -/
theorem readLoop_reject {L : Loc C} {I W : Nat} (hL : Spec.Good L) (hI : 15 ≤ I) (hW : 64 ≤ W) (rest : List C)
    (hrest : Spec.Ends L rest) :
    ∀ (bs : List Spec.Block) (fuel : Nat) (words : List Nat), bs ≠ [] → bs.length ≤ fuel → Spec.Valid bs →
      ¬ Spec.NotAllOnes bs →
      ∃ rest', readLoop L I W fuel (consumed L (bs.map fun b => (b, [])) ++ rest) words = some (none, rest') := by
  intro bs
  induction bs with
  | nil => intro fuel words h; exact absurd rfl h
  | cons b bs ih =>
    intro fuel words _ hf hv hn
    obtain ⟨fuel, rfl⟩ : ∃ f, fuel = f + 1 := ⟨fuel - 1, by simp at hf; omega⟩
    obtain ⟨r, hr1, hr2⟩ := parseBlock_spec hI hW (Spec.block b) (block_length _)
    have hcol : ∃ rest1, collect L (consumed L ((b :: bs).map fun b => (b, [])) ++ rest) [] = (Spec.block b, rest1) ∧
        (bs ≠ [] → rest1 = L.widen 45 :: (consumed L (bs.map fun b => (b, [])) ++ rest)) := by
      cases bs with
      | nil =>
        rw [List.map_cons, List.map_nil, consumed_single]
        exact ⟨rest, collect_text hL (block_length _) (block_digits _) (by simp) (fun ch hch => (hrest ch hch).1),
          fun h => absurd rfl h⟩
      | cons c bs =>
        rw [List.map_cons, List.map_cons, consumed_cons, List.append_assoc]
        exact ⟨_, collect_text hL (block_length _) (block_digits _) (by simp)
          (fun ch hch => by simp at hch; subst hch; exact hL.dash), fun _ => rfl⟩
    obtain ⟨rest1, hc1, hc2⟩ := hcol
    rw [readLoop, hc1]
    simp only
    rw [if_neg (by simp [block_length]), hr1]
    simp only [Option.bind_eq_bind, Option.bind_some]
    cases r with
    | none => exact ⟨_, rfl⟩
    | some ws =>
      obtain ⟨b', hb', rfl, hbb⟩ := (hr2 _).1 rfl
      have hb1 := hv b (by simp)
      have hbne : (0xFFFFFFFF, 0xFFFFFFFF) ∉ Spec.blockPairs b := by
        have : b = b' := block_inj hb1 hb'.1 hbb
        subst this
        exact hb'.2
      have hne : bs ≠ [] := by
        rintro rfl
        exact hn (fun x hx => by simp at hx; subst hx; exact hbne)
      rw [hc2 hne]
      simp only
      rw [if_neg (by simp [dash])]
      have hne' : consumed L (bs.map fun b => (b, [])) ++ rest ≠ [] := by
        simp only [ne_eq, List.append_eq_nil_iff, not_and]
        intro h
        exact absurd h (consumed_ne (by simpa using hne))
      have hih := ih fuel (words ++ Spec.blockWords b') hne (by simp at hf; omega)
        (fun x hx => hv x (List.mem_cons_of_mem _ hx))
        (fun h => hn (fun x hx => by
          rcases List.mem_cons.1 hx with rfl | hx
          · exact hbne
          · exact h x hx))
      generalize consumed L (bs.map fun b => (b, [])) ++ rest = inp at *
      cases inp with
      | nil => exact absurd rfl hne'
      | cons ch rest' => exact hih

/-- Reading involves no undefined behavior. -/
theorem readLoop_total {L : Loc C} {I W : Nat} (hI : 15 ≤ I) (hW : 64 ≤ W) :
    ∀ (fuel : Nat) (input : List C) (words : List Nat), input.length < fuel →
      ∃ r, readLoop L I W fuel input words = some r := by
  intro fuel
  induction fuel with
  | zero => intro input words h; omega
  | succ fuel ih =>
    intro input words hf
    rw [readLoop, collect_eq L input [] (by simp)]
    simp only [List.length_nil, Nat.sub_zero, List.nil_append]
    split_ifs with hlen
    · exact ⟨_, rfl⟩
    · have hlen : ((List.takeWhile L.alnum input).take 33).length = 33 := by simpa using hlen
      obtain ⟨r, hr1, -⟩ := parseBlock_spec hI hW (((input.takeWhile L.alnum).take 33).map L.narrow) (by simpa using hlen)
      rw [hr1]
      simp only [Option.bind_eq_bind, Option.bind_some]
      have hdl : (input.dropWhile L.alnum).length ≤ input.length :=
        (List.dropWhile_sublist L.alnum).length_le
      cases r with
      | none => exact ⟨_, rfl⟩
      | some ws =>
        simp only
        generalize input.dropWhile L.alnum = after at hdl
        match after, hdl with
        | [], _ => exact ⟨_, rfl⟩
        | ch :: [], _ =>
          simp only
          split_ifs <;> exact ⟨_, rfl⟩
        | ch :: ch' :: rest, hdl =>
          simp only
          split_ifs
          · exact ⟨_, rfl⟩
          · exact ih _ _ (by simp at hdl ⊢; omega)

/-! ### The properties -/

omit [DecidableEq C] in
/-- **C47.** Writing a seed produces its documented text form. -/
theorem C47_write (L : Loc C) (W : Nat) (hW : 64 ≤ W) (bs : List Spec.Block) (hv : Spec.Valid bs) :
    write L W (Spec.seed bs) = some ((Spec.text bs).map L.widen) := by
  simp only [write, seed_length]
  rw [if_neg (by simp)]
  by_cases h : bs = []
  · subst h; simp [Spec.text, dash]
  · have : 0 < bs.length := List.length_pos_iff.2 h
    rw [if_pos (by simpa using this), Nat.mul_div_cancel _ (by omega), writeLoop_eq L hW bs h hv, consumed_text L h]

omit [DecidableEq C] in
/-- The first character of a nonempty text is not a dash. -/
theorem consumed_head {L : Loc C} (hL : Spec.Good L) (items : List (Spec.Block × List C)) (h : items ≠ []) (rest : List C) :
    ∃ ch tl, consumed L items ++ rest = ch :: tl ∧ ch ≠ L.widen dash := by
  have key : ∀ (b : Spec.Block) (tl : List C), ∃ ch tl', (Spec.block b).map L.widen ++ tl = ch :: tl' ∧ ch ≠ L.widen dash := by
    intro b tl
    have hl := block_length b
    have hd := block_digits b
    cases hb : Spec.block b with
    | nil => rw [hb] at hl; cases hl
    | cons c cs =>
      obtain ⟨d, hd62, hc⟩ := hd c (by rw [hb]; simp)
      refine ⟨_, _, rfl, fun he => ?_⟩
      have h1 := (hL.digit d hd62).2
      rw [← hc, he, dash, hL.dash] at h1
      cases h1
  match items, h with
  | [i], _ => rw [consumed_single, List.append_assoc]; exact key _ _
  | i :: j :: is, _ => rw [consumed_cons, List.append_assoc, List.append_assoc]; exact key _ _

omit [DecidableEq C] in
theorem length_consumed (L : Loc C) (items : List (Spec.Block × List C)) : items.length ≤ (consumed L items).length := by
  induction items with
  | nil => simp
  | cons i is ih =>
    cases is with
    | nil => rw [consumed_single]; simp [block_length]; omega
    | cons j is => rw [consumed_cons]; simp [block_length] at ih ⊢; omega

theorem read_items {L : Loc C} {I W : Nat} (hL : Spec.Good L) (hI : 15 ≤ I) (hW : 64 ≤ W)
    (items : List (Spec.Block × List C)) (hne : items ≠ [])
    (hi : ∀ i ∈ items, Ok i.1 ∧ ∀ ch ∈ i.2, L.alnum ch = true) (rest : List C) (hrest : Spec.Ends L rest) :
    read L I W (consumed L items ++ rest) = some (some (Spec.seed (items.map (·.1))), rest) := by
  have hr := readLoop_complete hL hI hW rest hrest items ((consumed L items ++ rest).length + 1) [] hne
    (by have := length_consumed L items; simp; omega) hi
  obtain ⟨ch, tl, he, hd⟩ := consumed_head hL items hne rest
  rw [he] at hr ⊢
  rw [read, if_neg hd, hr]
  have hl := seed_length (items.map (·.1))
  simp only [Option.bind_eq_bind, Option.bind_some, Option.map_some, List.nil_append, hl,
    Nat.mul_div_cancel _ (show 0 < 6 by omega)]
  rw [List.take_of_length_le (by rw [hl])]

/-- **C47 (partial).** Reading the text form of a seed yields the seed, and consumes the text and nothing else, if no pair of
words of the seed consists of ones only. The text of a nonempty seed must not be followed by an alphanumeric character or a
dash. Missing: the seeds of `C47_defect_all_ones`. -/
theorem C47_read_partial (L : Loc C) (I W : Nat) (hL : Spec.Good L) (hI : 15 ≤ I) (hW : 64 ≤ W) (bs : List Spec.Block)
    (hv : Spec.Valid bs) (hn : Spec.NotAllOnes bs) (rest : List C) (hrest : bs ≠ [] → Spec.Ends L rest) :
    read L I W ((Spec.text bs).map L.widen ++ rest) = some (some (Spec.seed bs), rest) := by
  by_cases h : bs = []
  · subst h; simp [Spec.text, read, dash, Spec.seed]
  · rw [← consumed_text L h, read_items hL hI hW _ (by simpa using h) ?_ rest (hrest h)]
    · simp [Function.comp_def]
    · intro i hi
      obtain ⟨b, hb, rfl⟩ := List.mem_map.1 hi
      exact ⟨⟨hv b hb, hn b hb⟩, by simp⟩

/-- **C47 (round trip, partial).** What is written is read back. -/
theorem C47_round_trip_partial (L : Loc C) (I W : Nat) (hL : Spec.Good L) (hI : 15 ≤ I) (hW : 64 ≤ W)
    (bs : List Spec.Block) (hv : Spec.Valid bs) (hn : Spec.NotAllOnes bs) :
    ∃ cs, write L W (Spec.seed bs) = some cs ∧ read L I W cs = some (some (Spec.seed bs), []) := by
  refine ⟨_, C47_write L W hW bs hv, ?_⟩
  have := C47_read_partial L I W hL hI hW bs hv hn [] (fun _ ch h => by simp at h)
  simpa using this

/-- **C47 (defect).** The text form of a seed with a pair of words that consists of ones only is rejected. -/
theorem C47_defect_all_ones (L : Loc C) (I W : Nat) (hL : Spec.Good L) (hI : 15 ≤ I) (hW : 64 ≤ W) (bs : List Spec.Block)
    (hv : Spec.Valid bs) (hn : ¬ Spec.NotAllOnes bs) (rest : List C) (hrest : Spec.Ends L rest) :
    ∃ rest', read L I W ((Spec.text bs).map L.widen ++ rest) = some (none, rest') := by
  have h : bs ≠ [] := by rintro rfl; exact hn (by simp [Spec.NotAllOnes])
  rw [← consumed_text L h]
  have hne : bs.map (fun b => (b, ([] : List C))) ≠ [] := by simpa using h
  obtain ⟨rest', hr⟩ := readLoop_reject hL hI hW rest hrest bs
    ((consumed L (bs.map fun b => (b, [])) ++ rest).length + 1) [] h
    (by have := length_consumed L (bs.map fun b => (b, [])); simp at this ⊢; omega) hv hn
  obtain ⟨ch, tl, he, hd⟩ := consumed_head hL _ hne rest
  rw [he] at hr ⊢
  rw [read, if_neg hd, hr]
  exact ⟨rest', rfl⟩

/-- **C47 (accepted texts, partial).** If reading succeeds, the result is a seed with 32-bit words and no pair of ones only,
and the consumed text is its text form, except that each block may be followed by further alphanumeric characters. Missing:
that there are no further characters (see `C47_defect_overlong`). -/
theorem C47_accept_partial (L : Loc C) (I W : Nat) (hL : Spec.Good L) (hI : 15 ≤ I) (hW : 64 ≤ W) (input : List C)
    (ws : List Nat) (rest : List C) (h : read L I W input = some (some ws, rest)) :
    (ws = [] ∧ input = L.widen 45 :: rest) ∨
      ∃ items : List (Spec.Block × List C), items ≠ [] ∧ Spec.Valid (items.map (·.1)) ∧
        Spec.NotAllOnes (items.map (·.1)) ∧ (∀ i ∈ items, ∀ ch ∈ i.2, L.alnum ch = true) ∧
        ws = Spec.seed (items.map (·.1)) ∧
        input = List.intercalate [L.widen 45] (items.map fun i => (Spec.block i.1).map L.widen ++ i.2) ++ rest := by
  cases input with
  | nil => cases h
  | cons ch tl =>
    rw [read] at h
    split_ifs at h with hd
    · simp only [Option.some.injEq, Prod.mk.injEq] at h
      obtain ⟨rfl, rfl⟩ := h
      exact .inl ⟨rfl, by rw [hd, dash]⟩
    · obtain ⟨r, hr⟩ := readLoop_total (L := L) hI hW ((ch :: tl).length + 1) (ch :: tl) [] (by omega)
      rw [hr] at h
      obtain ⟨w, rest'⟩ := r
      simp only [Option.bind_eq_bind, Option.bind_some, Option.some.injEq, Prod.mk.injEq] at h
      obtain ⟨h, rfl⟩ := h
      obtain ⟨w', rfl, he⟩ := Option.map_eq_some_iff.1 h
      obtain ⟨items, h0, h1, h2, h3⟩ := readLoop_sound hL hI hW _ _ _ _ _ hr
      rw [List.nil_append] at h2
      subst h2
      refine .inr ⟨items, h0, ?_, ?_, fun i hi => (h1 i hi).2, ?_, h3⟩
      · intro b hb
        obtain ⟨i, hi, rfl⟩ := List.mem_map.1 hb
        exact (h1 i hi).1.1
      · intro b hb
        obtain ⟨i, hi, rfl⟩ := List.mem_map.1 hb
        exact (h1 i hi).1.2
      · have hl := seed_length (items.map (·.1))
        rw [← he, hl, Nat.mul_div_cancel _ (show 0 < 6 by omega), List.take_of_length_le (by rw [hl])]

/-- **C47 (accepted texts).** An accepted text in which no run of alphanumeric characters has more than 33 characters is the
text form of the seed. -/
theorem C47_accept_exact (L : Loc C) (I W : Nat) (hL : Spec.Good L) (hI : 15 ≤ I) (hW : 64 ≤ W) (input : List C)
    (ws : List Nat) (rest : List C) (h : read L I W input = some (some ws, rest))
    (hrun : ∀ run, run <:+: input → (∀ ch ∈ run, L.alnum ch = true) → run.length ≤ 33) :
    ∃ bs, Spec.Valid bs ∧ ws = Spec.seed bs ∧ input = (Spec.text bs).map L.widen ++ rest := by
  rcases C47_accept_partial L I W hL hI hW input ws rest h with ⟨rfl, rfl⟩ | ⟨items, h0, h1, -, h3, rfl, h5⟩
  · exact ⟨[], by simp [Spec.Valid], rfl, by simp [Spec.text]⟩
  · refine ⟨_, h1, rfl, ?_⟩
    have hempty : ∀ i ∈ items, i.2 = [] := by
      intro i hi
      have hinf : (Spec.block i.1).map L.widen ++ i.2 <:+: input := by
        rw [h5]
        refine List.IsInfix.trans ?_ (List.prefix_append _ _).isInfix
        exact infix_intercalate _ _ _ (List.mem_map_of_mem hi)
      have := hrun _ hinf (by
        intro ch hch
        rcases List.mem_append.1 hch with h | h
        · obtain ⟨c, hc, rfl⟩ := List.mem_map.1 h
          obtain ⟨d, hd62, rfl⟩ := block_digits _ c hc
          exact (hL.digit d hd62).2
        · exact h3 i hi ch h)
      rw [List.length_append, List.length_map, block_length] at this
      exact List.length_eq_zero_iff.1 (by omega)
    rw [← consumed_text L (by simpa using h0), h5, consumed, List.map_map, List.map_map]
    congr 2
    apply List.map_congr_left
    intro i hi
    simp [hempty i hi]

/-- **C47 (defect).** Every text with further alphanumeric characters after a block is accepted too, and yields the same seed
as the text without these characters. -/
theorem C47_defect_overlong (L : Loc C) (I W : Nat) (hL : Spec.Good L) (hI : 15 ≤ I) (hW : 64 ≤ W) (b : Spec.Block)
    (hv : Spec.Valid [b]) (hn : Spec.NotAllOnes [b]) (junk : List C) (hj : ∀ ch ∈ junk, L.alnum ch = true) :
    read L I W ((Spec.text [b]).map L.widen ++ junk) = some (some (Spec.seed [b]), []) := by
  have := read_items hL hI hW [(b, junk)] (by simp)
    (fun i hi => by simp at hi; subst hi; exact ⟨⟨hv b (by simp), hn b (by simp)⟩, hj⟩) [] (fun ch h => by simp at h)
  rw [consumed_single] at this
  simpa [Spec.text, List.intercalate] using this

/-- **C47.** Reading involves no undefined behavior, for every input and every locale. -/
theorem C47_read_total (L : Loc C) (I W : Nat) (hI : 15 ≤ I) (hW : 64 ≤ W) (input : List C) :
    ∃ r, read L I W input = some r := by
  cases input with
  | nil => exact ⟨_, rfl⟩
  | cons ch tl =>
    rw [read]
    split_ifs
    · exact ⟨_, rfl⟩
    · obtain ⟨r, hr⟩ := readLoop_total (L := L) hI hW ((ch :: tl).length + 1) (ch :: tl) [] (by omega)
      rw [hr]
      exact ⟨_, rfl⟩

end

/-! ### Examples -/

/-- The C locale. -/
def ascii : Loc Nat where
  widen c := c
  narrow c := c
  alnum c := (48 ≤ c ∧ c ≤ 57) ∨ (65 ≤ c ∧ c ≤ 90) ∨ (97 ≤ c ∧ c ≤ 122)

/-- The assumptions hold in the C locale. -/
theorem ascii_good : Spec.Good ascii where
  digit := by decide +kernel
  dash := by decide +kernel
  only := fun _ _ _ _ h => h

def exampleBlocks : List Spec.Block := [((1, 0), (0, 1), (0xFFFFFFFF, 0xFFFFFFFE)), ((62, 0), (61, 0), (0xFFFFFFFE, 0xFFFFFFFF))]

example : write ascii 64 (Spec.seed exampleBlocks) =
    some ("00000000001000004gfFC4LygHZwPV2MB-000000000100000000000zLygHa16AHYE".toList.map Char.toNat) := by decide +kernel

example : (read ascii 31 64 ((Spec.text exampleBlocks) ++ [32])) = some (some (Spec.seed exampleBlocks), [32]) := by
  decide +kernel

example : (read ascii 31 64 (Spec.text [((1, 2), (3, 4), (0xFFFFFFFF, 0xFFFFFFFF))])) = some (none, []) := by decide +kernel

example : read ascii 31 64 (Spec.text [((1, 2), (3, 4), (5, 6))] ++ [48]) = some (some [1, 2, 3, 4, 5, 6], []) := by
  decide +kernel

end Verif.RandomSeed
