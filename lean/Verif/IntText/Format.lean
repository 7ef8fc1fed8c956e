import Verif.IntText.Parse
import Verif.Buffer.Lemmas
set_option linter.unusedSimpArgs false
namespace Verif.IntText
open Verif.Integer Verif.Buffer

theorem digits_step {r n k : Nat} (hr : 2 ≤ r) (h : n ≠ 0 ∨ 0 < k) :
    Spec.digits r n k = Spec.digits r (n / r) (k - 1) ++ [n % r] := by
  unfold Spec.digits
  by_cases hn : n = 0
  · subst hn
    simp only [Nat.digits_zero, List.length_nil, Nat.sub_zero, List.reverse_nil, List.append_nil, Nat.zero_div, Nat.zero_mod]
    obtain ⟨j, rfl⟩ : ∃ j, k = j + 1 := ⟨k - 1, by omega⟩
    rw [List.replicate_succ', Nat.add_sub_cancel]
  · rw [Nat.digits_def' (by omega) (by omega)]
    simp only [List.length_cons, List.reverse_cons]
    rw [← List.append_assoc, show k - ((Nat.digits r (n / r)).length + 1) = k - 1 - (Nat.digits r (n / r)).length by omega]

theorem digits_zero (r : Nat) : Spec.digits r 0 0 = [] := by simp [Spec.digits]

theorem digits_len {r n : Nat} (hr : 2 ≤ r) (hn : n ≠ 0) : (Nat.digits r n).length = (Nat.digits r (n / r)).length + 1 := by
  rw [Nat.digits_def' (by omega) (by omega)]; rfl

theorem prependA_one {M : Nat} {d v : C} {mem : List C} {o : Nat} (ho : o ≤ mem.length) (hm : mem.length ≤ M)
    (h : mem.length - o + 1 ≤ M) : ∃ mem' o', prependA M d mem v o 1 = .ok (mem', o') ∧ o' ≤ mem'.length ∧
      mem'.drop o' = v :: mem.drop o ∧ mem'.length ≤ M := by
  rw [prependA_eq]
  obtain ⟨m', o', h1, h2, h3, h4, -⟩ := (prepend_spec (d := d) (data := [v]) ho hm).1 (by simpa using h)
  exact ⟨m', o', h1, h2, h3, h4⟩

/-- The signed value. -/
def sval (neg : Bool) (w : Nat) : Int := if neg then -(w : Int) else w

theorem sval_tdiv (neg : Bool) (w r : Nat) : Int.tdiv (sval neg w) r = sval neg (w / r) := by
  unfold sval
  cases neg
  · simp only [Bool.false_eq_true, if_false]; exact (Int.ofNat_tdiv w r).symm
  · simp only [if_true]; rw [Int.neg_tdiv]; congr 1

theorem sval_tmod (neg : Bool) (w r : Nat) : Int.tmod (sval neg w) r = sval neg (w % r) := by
  unfold sval
  cases neg
  · simp only [Bool.false_eq_true, if_false]; rfl
  · simp only [if_true]; rw [Int.neg_tmod]; congr 1

theorem sval_in {T : Ty} {neg : Bool} {a b : Nat} (h : a ≤ b) (hb : T.In (sval neg b)) : T.In (sval neg a) := by
  unfold sval at *
  cases neg
  · simp only [Bool.false_eq_true, if_false] at *
    simpa using fits_le (T := T) (Or.inl rfl) h (by simpa using hb)
  · simp only [if_true] at *
    simpa using fits_le (T := T) (Or.inr rfl) h (by simpa using hb)

theorem sval_small {I : Nat} (hI : 7 ≤ I) (neg : Bool) {w : Nat} (h : w < 36) : (intTy I).In (sval neg w) := by
  have hI2 : (128 : Int) ≤ 2 ^ I := p_le (a := 7) hI
  unfold sval intTy
  rw [In_s]
  cases neg <;> simp <;> omega

theorem digitOf_spec {I : Nat} (hI : 7 ≤ I) (neg : Bool) {w : Nat} (h : w < 36) : digitOf I neg (sval neg w) = .ok (w : Int) := by
  unfold digitOf
  cases neg
  · rfl
  · have : (intTy I).In (w : Int) := sval_small hI false h
    simp only [sval, if_true, Int.neg_neg]
    rw [arith_int this]; rfl

theorem formatLoop_spec (I : Nat) (hI : 7 ≤ I) (type : Ty) (htp : promote I type = type) (M : Nat) (d : C) (widen : Nat → C)
    (lower neg : Bool) (radix : Nat) (hr : 2 ≤ radix) (hr2 : radix ≤ 36) (minDigits : Nat) (hmd : minDigits < 2 ^ I) :
    ∀ (fuel w : Nat) (mem : List C) (o : Nat), type.In (sval neg w) → o ≤ mem.length → mem.length ≤ M →
    w + (minDigits - (mem.length - o)) < fuel →
    mem.length - o + (Nat.digits radix w).length < 2 ^ I →
    mem.length - o + max (minDigits - (mem.length - o)) (Nat.digits radix w).length ≤ M →
    ∃ mem' o', formatLoop I type M d widen lower neg radix minDigits fuel (sval neg w) (mem, o) = .ok (mem', o') ∧
      o' ≤ mem'.length ∧ mem'.length ≤ M ∧
      mem'.drop o' = (Spec.digits radix w (minDigits - (mem.length - o))).map (fun x => widen (digitCode lower x)) ++ mem.drop o
  | 0, w, mem, o, _, _, _, hf, _, _ => by omega
  | fuel + 1, w, mem, o, hin, ho, hm, hf, hi, hM => by
    have hI2 : (128 : Int) ≤ 2 ^ I := p_le (a := 7) hI
    have hcast : cast (intTy I) ((mem.length : Int) - o) = ((mem.length - o : Nat) : Int) := by
      have e : (mem.length : Int) - o = ((mem.length - o : Nat) : Int) := by omega
      rw [e, cast_id]
      unfold intTy
      rw [In_s]
      have : ((mem.length - o : Nat) : Int) < ((2 ^ I : Nat) : Int) := by omega
      rw [cast_pow] at this
      omega
    have hz : sval neg w ≠ 0 ↔ w ≠ 0 := by unfold sval; cases neg <;> simp
    have hbits : I ≤ type.bits := by have := (promote_bits I type).1; rw [htp] at this; exact this
    unfold formatLoop
    simp only [hz, hcast]
    by_cases hc : w ≠ 0 ∨ ((mem.length - o : Nat) : Int) < minDigits
    · rw [if_pos hc]
      have hc' : w ≠ 0 ∨ 0 < minDigits - (mem.length - o) := by omega
      have hradix : type.In (radix : Int) := by
        rw [In_nonneg (by omega)]
        have := p_le hbits; omega
      have hq : type.In (sval neg (w / radix)) := sval_in (Nat.div_le_self _ _) hin
      have hrm : type.In (sval neg (w % radix)) := sval_in (Nat.mod_le _ _) hin
      have hd : divOp I type (sval neg w) radix = some (sval neg (w / radix)) := by
        unfold divOp
        rw [if_neg (by omega), sval_tdiv, arith_ok (by rw [htp]; exact hq)]
      have hmo : modOp I type (sval neg w) radix = some (sval neg (w % radix)) := by
        unfold modOp
        rw [if_neg (by omega), sval_tdiv, arith_ok (by rw [htp]; exact hq), sval_tmod, arith_ok (by rw [htp]; exact hrm)]
        rfl
      have hlt : w % radix < 36 := by have := Nat.mod_lt w (show 0 < radix by omega); omega
      rw [cast_id hradix, hd, hmo]
      simp only [ofOption, Buffer.bind_ok]
      rw [cast_id hrm, cast_id (sval_small hI neg hlt), digitOf_spec hI neg hlt, Buffer.bind_ok, if_neg (by omega)]
      have hn1 : mem.length - o + 1 ≤ M := by
        rcases Decidable.em (w = 0) with h | h
        · omega
        · have := digits_len hr h; omega
      obtain ⟨m1, o1, e1, e2, e3, e4⟩ := prependA_one (d := d) (v := widen (digitCode lower ((w % radix : Nat) : Int).toNat)) ho hm hn1
      rw [e1, Buffer.bind_ok, cast_id hq]
      have hl1 : m1.length - o1 = mem.length - o + 1 := by
        have := congrArg List.length e3
        simpa using this
      have hdl : (Nat.digits radix (w / radix)).length = (Nat.digits radix w).length - 1 := by
        rcases Decidable.em (w = 0) with h | h
        · subst h; simp
        · have := digits_len hr h; omega
      have hdiv : w / radix ≤ w := Nat.div_le_self _ _
      have hdiv2 : w ≠ 0 → w / radix < w := fun h => Nat.div_lt_self (by omega) (by omega)
      obtain ⟨m2, o2, f1, f2, f3, f4⟩ := formatLoop_spec I hI type htp M d widen lower neg radix hr hr2 minDigits hmd fuel (w / radix) m1 o1
        hq e2 e4 (by rcases hc' with h | h
                     · have := hdiv2 h; omega
                     · omega)
        (by rcases Decidable.em (w = 0) with h | h
            · subst h; simp at hdl ⊢; omega
            · have := digits_len hr h; omega)
        (by omega)
      refine ⟨m2, o2, f1, f2, f3, ?_⟩
      rw [f4, digits_step hr hc', hl1, show minDigits - (mem.length - o + 1) = minDigits - (mem.length - o) - 1 by omega, e3,
        Int.toNat_natCast]
      simp
    · rw [if_neg hc]
      refine ⟨mem, o, rfl, ho, hm, ?_⟩
      have h1 : w = 0 := by omega
      have h2 : minDigits - (mem.length - o) = 0 := by omega
      rw [h1, h2, digits_zero]; rfl

theorem digitCode_eq : ∀ lower : Bool, ∀ d < 36, digitCode lower d = Spec.digitChar lower d := by decide +kernel

theorem digits_lt {r n k : Nat} (hr : 2 ≤ r) : ∀ x ∈ Spec.digits r n k, x < r := by
  intro x hx
  unfold Spec.digits at hx
  rw [List.mem_append] at hx
  rcases hx with h | h
  · rw [List.mem_replicate] at h; omega
  · exact Nat.digits_lt_base (by omega) (List.mem_reverse.mp h)

theorem digits_length (r n k : Nat) : (Spec.digits r n k).length = max k (Nat.digits r n).length := by
  unfold Spec.digits; simp; omega

/-- The formatter. `n` is the effective minimum number of digits. -/
theorem format_core (I : Nat) (hI : 7 ≤ I) (T : Ty) (M : Nat) (d : C) (widen : Nat → C) (lower : Bool) (radix : Nat)
    (hr : 2 ≤ radix) (hr2 : radix ≤ 36) (minDigits : Int) (n : Nat) (hn : effMinDigits I T radix minDigits = .ok (n : Int))
    (hn2 : n < 2 ^ I) (value : Int) (hv : T.In value) (mem : List C) (hm : mem.length ≤ M)
    (hlen : (Nat.digits radix value.natAbs).length < 2 ^ I)
    (hM : max n (Nat.digits radix value.natAbs).length + 1 ≤ M) :
    ∃ mem', mem'.length ≤ M ∧ format I T M d widen lower radix minDigits value mem =
      .ok (mem', (Spec.numeral lower radix n value).map widen) := by
  have hmap : (Spec.digits radix value.natAbs n).map (fun x => widen (digitCode lower x)) =
      ((Spec.digits radix value.natAbs n).map (Spec.digitChar lower)).map widen := by
    rw [List.map_map]
    apply List.map_congr_left
    intro x hx
    have := digits_lt hr x hx
    rw [Function.comp, digitCode_eq lower x (by omega)]
  have hp : promote I (promote I T) = promote I T := promote_promote I T
  unfold format
  rw [hn, Buffer.bind_ok]
  simp only [strong_eq, cast_promote hv]
  unfold doFormat
  rw [isNegative_eq (In_promote hv)]
  by_cases hneg : value < 0
  · have hsv : value = sval true value.natAbs := by unfold sval; simp only [if_true, Bool.false_eq_true, if_false]; omega
    obtain ⟨m', o', e1, e2, e3, e4⟩ := formatLoop_spec I hI (promote I T) hp M d widen lower true radix hr hr2 n hn2
      (value.natAbs + n + 1) value.natAbs mem mem.length (by rw [← hsv]; exact In_promote hv) (Nat.le_refl _) hm (by omega)
      (by simpa using hlen) (by omega)
    rw [← hsv] at e1
    simp only [hneg, decide_true, Bool.not_true, Bool.false_eq_true, if_false, Int.toNat_natCast]
    rw [e1, Buffer.bind_ok]
    dsimp only
    rw [Nat.sub_self, Nat.sub_zero, List.drop_length, List.append_nil, hmap] at e4
    have hl := congrArg List.length e4
    rw [List.length_drop, List.length_map, List.length_map, digits_length] at hl
    obtain ⟨m2, o2, f1, f2, f3, f4⟩ := prependA_one (d := d) (v := widen 45) e2 e3 (by omega)
    rw [f1, Buffer.bind_ok]
    refine ⟨m2, f4, ?_⟩
    rw [f3, e4]
    unfold Spec.numeral
    rw [if_pos hneg]
    rfl
  · have hsv : value = sval false value.natAbs := by unfold sval; simp only [if_true, Bool.false_eq_true, if_false]; omega
    obtain ⟨m', o', e1, e2, e3, e4⟩ := formatLoop_spec I hI (promote I T) hp M d widen lower false radix hr hr2 n hn2
      (value.natAbs + n + 1) value.natAbs mem mem.length (by rw [← hsv]; exact In_promote hv) (Nat.le_refl _) hm (by omega)
      (by simpa using hlen) (by omega)
    rw [← hsv] at e1
    simp only [hneg, decide_false, Bool.not_false, if_true, Int.toNat_natCast]
    rw [e1, Buffer.bind_ok]
    refine ⟨m', e3, ?_⟩
    dsimp only
    rw [e4, Nat.sub_self, Nat.sub_zero, List.drop_length, List.append_nil, hmap]
    unfold Spec.numeral
    rw [if_neg hneg]
    rfl

theorem digits_length_le {r n b : Nat} (hr : 2 ≤ r) (h : n ≤ 2 ^ b) : (Nat.digits r n).length ≤ b + 1 := by
  rw [Nat.digits_length_le_iff (by omega)]
  have h1 : 2 ^ (b + 1) ≤ r ^ (b + 1) := Nat.pow_le_pow_left hr _
  have h2 := Nat.pow_succ (m := b) (n := 2)
  have := Nat.two_pow_pos b
  omega

theorem In_natAbs {T : Ty} {v : Int} (h : T.In v) : v.natAbs ≤ 2 ^ T.bits := by
  obtain ⟨s, b⟩ := T
  have := cast_pow b
  show v.natAbs ≤ 2 ^ b
  cases s
  · rw [In_u] at h; omega
  · rw [In_s] at h; omega

theorem maxDigits_spec {I : Nat} {T : Ty} {radix : Int} (hb : 2 ≤ radix) (hbi : (intTy I).In radix) :
    ∃ n : Nat, maxDigits I T radix = some (n : Int) ∧ n ≤ T.bits + 1 ∧
      ∃ a b : Nat, n = max a b ∧ IsNumDigits T.min radix a ∧ IsNumDigits T.max radix b := by
  obtain ⟨a, ha, ha2⟩ := findMsdPos_spec (In_min T) hb hbi
  obtain ⟨b, hb', hb2⟩ := findMsdPos_spec (In_max T) hb hbi
  refine ⟨max a b, ?_, ?_, a, b, rfl, ha2, hb2⟩
  · unfold maxDigits
    rw [ha, hb']
    simp only [Option.bind_eq_bind, Option.bind_some]
    congr 1; omega
  · have key : ∀ (x : Int) (k : Nat), T.In x → IsNumDigits x radix k → k ≤ T.bits + 1 := by
      intro x k hx hk
      by_contra hc
      rcases hk.2 with h | h
      · omega
      · have h1 := In_natAbs hx
        have h2 : 2 ^ (k - 1) ≤ radix.natAbs ^ (k - 1) := Nat.pow_le_pow_left (by omega) _
        have h3 : 2 ^ (T.bits + 1) ≤ 2 ^ (k - 1) := Nat.pow_le_pow_right (by omega) (by omega)
        have h4 := Nat.pow_succ (m := T.bits) (n := 2)
        have := Nat.two_pow_pos T.bits
        omega
    have := key _ _ (In_min T) ha2
    have := key _ _ (In_max T) hb2
    omega

theorem forall2_digits (lower : Bool) {radix : Nat} (hr2 : radix ≤ 36) :
    ∀ ds : List Nat, (∀ x ∈ ds, x < radix) → List.Forall₂ (Spec.IsDigit radix) (ds.map (Spec.digitChar lower)) ds
  | [], _ => .nil
  | x :: ds, h => by
    refine .cons ?_ (forall2_digits lower hr2 ds (fun y hy => h y (List.mem_cons_of_mem _ hy)))
    have hx := h x List.mem_cons_self
    have key : ∀ lower : Bool, ∀ x : Nat, x < 36 → ((Spec.upper.map Char.toNat)[x]? = some (Spec.digitChar lower x) ∨
        (Spec.lower.map Char.toNat)[x]? = some (Spec.digitChar lower x)) := by decide +kernel
    exact (key lower x (by omega)).imp (⟨hx, ·⟩) (⟨hx, ·⟩)

/-- A numeral denotes its number. -/
theorem numeral_denotes (lower : Bool) {radix n : Nat} (hr : 2 ≤ radix) (hr2 : radix ≤ 36) (value : Int) (P Mi : Bool)
    (hne : value ≠ 0 ∨ 0 < n) (hneg : value < 0 → Mi = true) :
    Spec.Denotes radix P Mi (Spec.numeral lower radix n value) value := by
  have hof : Nat.ofDigits radix (Spec.digits radix value.natAbs n).reverse = value.natAbs := by
    unfold Spec.digits
    rw [List.reverse_append, List.reverse_reverse, List.reverse_replicate, Nat.ofDigits_append, Nat.ofDigits_digits,
      Nat.ofDigits_replicate_zero]
    simp
  have hnil : (Spec.digits radix value.natAbs n).map (Spec.digitChar lower) ≠ [] := by
    rw [ne_eq, List.map_eq_nil_iff]
    intro h
    have h2 := congrArg List.length h
    rw [digits_length] at h2
    rw [List.length_nil] at h2
    rcases hne with h | h
    · have := digits_len hr (show value.natAbs ≠ 0 by omega); omega
    · omega
  unfold Spec.numeral
  by_cases h : value < 0
  · rw [if_pos h]
    refine ⟨_, true, _, _, rfl, .minus (hneg h), hnil, forall2_digits lower hr2 _ (digits_lt hr), ?_⟩
    rw [hof]; simp only [if_true, Bool.false_eq_true, if_false]; omega
  · rw [if_neg h]
    refine ⟨_, false, _, _, rfl, .none, hnil, forall2_digits lower hr2 _ (digits_lt hr), ?_⟩
    rw [hof]; simp only [if_true, Bool.false_eq_true, if_false]; omega

end Verif.IntText
