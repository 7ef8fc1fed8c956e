import Verif.FloatInt.Lemmas

/-!
# Comparison, conversion, and binary formats
-/

namespace Verif.FloatInt

open Spec

variable {F : FloatType} {I : IntType}

/-- What is assumed about the types. -/
structure Setup (F : FloatType) (I : IntType) : Prop where
  conforms : Conforms F
  digits : Digits F
  std : Std I
  covers : Covers F I

/-! ### Comparison -/

theorem trunc_eq_self_iff {q : ℚ} {n : ℤ} : ((trunc q : ℚ) = q ∧ trunc q = n) ↔ q = n := by
  constructor
  · rintro ⟨h1, rfl⟩; exact h1.symm
  · rintro rfl; rw [trunc_int]; exact ⟨rfl, rfl⟩

theorem floatEqualInt_eq (h : Setup F I) {v : Val} (hv : IsVal F v) {n : ℤ} (h1 : I.lo ≤ n) (h2 : n ≤ I.hi) :
    ∃ b, floatEqualInt F I v n = some b ∧ (b = true ↔ Equal v n) := by
  obtain ⟨m, e1, -, hm⟩ := minFloat_spec h.conforms h.digits h.std h.covers
  obtain ⟨M, e2, -, hM⟩ := maxFloat_spec h.conforms h.digits h.std h.covers
  unfold floatEqualInt
  cases v with
  | nan => simp [e1, Val.le, Equal]
  | ninf => simp [e1, Val.le, Equal]
  | pinf => simp [e1, e2, Val.le, Equal]
  | fin q =>
    have hm := hm q hv
    have hM := hM q hv
    by_cases c1 : (I.lo : ℚ) ≤ q
    · by_cases c2 : q ≤ (I.hi : ℚ)
      · rw [e1, e2]
        by_cases c3 : (trunc q : ℚ) = q
        · refine ⟨trunc q == n, ?_, ?_⟩
          · simp [Val.le, Val.eq, Val.trunc, hm.mpr c1, hM.mpr c2, c3, floatToIntA_range h.std c1 c2]
          · rw [beq_iff_eq]
            exact ⟨fun e => (trunc_eq_self_iff (n := n)).mp ⟨c3, e⟩, fun e => ((trunc_eq_self_iff (n := n)).mpr e).2⟩
        · refine ⟨false, ?_, ?_⟩
          · have : ¬((trunc q : ℚ) ≤ q ∧ q ≤ trunc q) := fun ⟨x, y⟩ => c3 (le_antisymm x y)
            simp [Val.le, Val.eq, Val.trunc, hm.mpr c1, hM.mpr c2]
            intro x y
            exact absurd ⟨x, y⟩ this
          · simp only [Bool.false_eq_true, false_iff]
            intro e
            exact c3 ((trunc_eq_self_iff (n := n)).mpr e).1
      · refine ⟨false, ?_, ?_⟩
        · rw [e1, e2]
          simp [Val.le, hm.mpr c1, mt hM.mp c2]
        · simp only [Bool.false_eq_true, false_iff]
          intro e
          apply c2
          rw [show q = (n : ℚ) from e]
          exact_mod_cast h2
    · refine ⟨false, ?_, ?_⟩
      · rw [e1]
        simp [Val.le, mt hm.mp c1]
      · simp only [Bool.false_eq_true, false_iff]
        intro e
        apply c1
        rw [show q = (n : ℚ) from e]
        exact_mod_cast h1

/-- There is no representable value after `q`, and up to, and including `n`. -/
def NoneUpTo (F : FloatType) (q : ℚ) (n : ℤ) : Prop := ∀ c, F.rep c → q < c → (n : ℚ) < c

/-- There is no representable value before `q`, and down to, and including `n`. -/
def NoneDownTo (F : FloatType) (q : ℚ) (n : ℤ) : Prop := ∀ c, F.rep c → c < q → c < (n : ℚ)

theorem ceil_next (h : Setup F I) {q : ℚ} (hq : F.rep q) (h0 : q < 0) (hlo : (I.lo : ℚ) ≤ q) (n : ℤ) :
    ∃ t, floatToIntA I (F.next (.fin q)) = some t ∧ (t ≤ n ↔ q < n ∧ ¬NoneUpTo F q n) := by
  obtain ⟨b, e, hb, hlt, hmin⟩ := h.conforms.next_neg q hq h0
  have hb0 : b ≤ 0 := hmin 0 h.conforms.rep_zero h0
  have hhi : (0 : ℚ) ≤ I.hi := by exact_mod_cast h.std.hi_pos.le
  refine ⟨trunc b, ?_, ?_⟩
  · rw [e, floatToIntA_range h.std (by linarith) (by linarith)]
  · rw [trunc_nonpos hb0, Int.ceil_le]
    unfold NoneUpTo
    constructor
    · intro hbn
      refine ⟨by linarith, fun hc => ?_⟩
      have := hc b hb hlt
      linarith
    · rintro ⟨_, hc⟩
      push Not at hc
      obtain ⟨c, hc1, hc2, hc3⟩ := hc
      exact le_trans (hmin c hc1 hc2) hc3

theorem floor_next (h : Setup F I) {q : ℚ} (hq : F.rep q) (h0 : 0 < q) (hhi : q ≤ (I.hi : ℚ)) (n : ℤ) :
    ∃ t, floatToIntA I (F.next (.fin q)) = some t ∧ (n ≤ t ↔ (n : ℚ) < q ∧ ¬NoneDownTo F q n) := by
  obtain ⟨b, e, hb, hlt, hmax⟩ := h.conforms.next_pos q hq h0
  have hb0 : 0 ≤ b := hmax 0 h.conforms.rep_zero h0
  have hlo : (I.lo : ℚ) ≤ 0 := by exact_mod_cast h.std.lo_nonpos
  refine ⟨trunc b, ?_, ?_⟩
  · rw [e, floatToIntA_range h.std (by linarith) (by linarith)]
  · rw [trunc_nonneg hb0, Int.le_floor]
    unfold NoneDownTo
    constructor
    · intro hbn
      refine ⟨by linarith, fun hc => ?_⟩
      have := hc b hb hlt
      linarith
    · rintro ⟨_, hc⟩
      push Not at hc
      obtain ⟨c, hc1, hc2, hc3⟩ := hc
      exact le_trans hc3 (hmax c hc1 hc2)

/-- The condition under which less-than fails: negative, not below the range of the integer type, and no representable value up to the
integer. -/
def SkipUp (F : FloatType) (I : IntType) (v : Val) (n : ℤ) : Prop :=
  ∃ q, v = .fin q ∧ I.signed = true ∧ q < 0 ∧ (I.lo : ℚ) ≤ q ∧ NoneUpTo F q n

/-- The condition under which greater-than fails. -/
def SkipDown (F : FloatType) (I : IntType) (v : Val) (n : ℤ) : Prop :=
  ∃ q, v = .fin q ∧ 0 < q ∧ q ≤ (I.hi : ℚ) ∧ NoneDownTo F q n

theorem floatLessInt_eq (h : Setup F I) {v : Val} (hv : IsVal F v) {n : ℤ} (h1 : I.lo ≤ n) (h2 : n ≤ I.hi) :
    ∃ b, floatLessInt F I v n = some b ∧ (b = true ↔ Less v n ∧ ¬SkipUp F I v n) := by
  obtain ⟨m, e1, -, hm⟩ := minFloat_spec h.conforms h.digits h.std h.covers
  obtain ⟨M, e2, -, hM⟩ := maxFloat_spec h.conforms h.digits h.std h.covers
  have q1 : (I.lo : ℚ) ≤ n := by exact_mod_cast h1
  have q2 : (n : ℚ) ≤ I.hi := by exact_mod_cast h2
  unfold floatLessInt SkipUp
  rw [ofInt_zero h.conforms]
  cases v with
  | nan => simp [e2, Val.le, Val.lt, Less]
  | ninf =>
    cases hs : I.signed <;> simp [e1, Val.lt, Less]
  | pinf => simp [e2, Val.le, Val.lt, Less]
  | fin q =>
    have hm := hm q hv
    have hM := hM q hv
    by_cases c0 : q < 0
    · cases hs : I.signed
      · refine ⟨true, by simp [Val.lt, c0], ?_⟩
        have : I.lo = 0 := h.std.unsigned hs
        rw [this] at q1
        simp only [true_iff]
        refine ⟨?_, ?_⟩
        · show q < n
          have : (0 : ℚ) ≤ n := by exact_mod_cast q1
          linarith
        · rintro ⟨q', -, hf, -⟩
          cases hf
      · by_cases c1 : (I.lo : ℚ) ≤ q
        · obtain ⟨t, et, ht⟩ := ceil_next h hv c0 c1 n
          refine ⟨t ≤ n, ?_, ?_⟩
          · have : ¬q < m := not_lt.mpr (hm.mpr c1)
            simp [Val.lt, c0, e1, this, et]
          · rw [decide_eq_true_iff, ht]
            refine and_congr Iff.rfl (not_congr ?_)
            constructor
            · intro hn; exact ⟨q, rfl, rfl, c0, c1, hn⟩
            · rintro ⟨q', e, -, -, -, hn⟩
              cases e; exact hn
        · refine ⟨true, ?_, ?_⟩
          · have : q < m := lt_of_not_ge (mt hm.mp c1)
            simp [Val.lt, c0, e1, this]
          · simp only [true_iff]
            refine ⟨?_, ?_⟩
            · show q < n
              linarith
            · rintro ⟨q', e, -, -, hl, -⟩
              cases e; exact c1 hl
    · by_cases c1 : q ≤ (I.hi : ℚ)
      · have hlo : (I.lo : ℚ) ≤ 0 := by exact_mod_cast h.std.lo_nonpos
        refine ⟨trunc q < n, ?_, ?_⟩
        · simp [Val.lt, Val.le, c0, e2, hM.mpr c1, floatToIntA_range h.std (by linarith) c1]
        · rw [decide_eq_true_iff, trunc_nonneg (by linarith), Int.floor_lt]
          constructor
          · intro hq
            refine ⟨hq, ?_⟩
            rintro ⟨q', e, -, hl, -⟩
            cases e; exact c0 hl
          · exact fun hq => hq.1
      · refine ⟨false, ?_, ?_⟩
        · simp [Val.lt, Val.le, c0, e2, mt hM.mp c1]
        · simp only [Bool.false_eq_true, false_iff]
          rintro ⟨hl, -⟩
          have hl : q < n := hl
          linarith

theorem floatGreaterInt_eq (h : Setup F I) {v : Val} (hv : IsVal F v) {n : ℤ} (h1 : I.lo ≤ n) (h2 : n ≤ I.hi) :
    ∃ b, floatGreaterInt F I v n = some b ∧ (b = true ↔ Greater v n ∧ ¬SkipDown F I v n) := by
  obtain ⟨m, e1, -, hm⟩ := minFloat_spec h.conforms h.digits h.std h.covers
  obtain ⟨M, e2, -, hM⟩ := maxFloat_spec h.conforms h.digits h.std h.covers
  have q1 : (I.lo : ℚ) ≤ n := by exact_mod_cast h1
  have q2 : (n : ℚ) ≤ I.hi := by exact_mod_cast h2
  unfold floatGreaterInt SkipDown
  rw [ofInt_zero h.conforms]
  cases v with
  | nan => cases hs : I.signed <;> simp [e1, Val.le, Val.lt, Greater]
  | ninf => cases hs : I.signed <;> simp [e1, Val.le, Val.lt, Greater]
  | pinf => simp [e2, Val.lt, Greater]
  | fin q =>
    have hm := hm q hv
    have hM := hM q hv
    by_cases c0 : 0 < q
    · by_cases c1 : q ≤ (I.hi : ℚ)
      · obtain ⟨t, et, ht⟩ := floor_next h hv c0 c1 n
        refine ⟨t ≥ n, ?_, ?_⟩
        · have : ¬M < q := not_lt.mpr (hM.mpr c1)
          simp [Val.lt, c0, e2, this, et]
        · rw [decide_eq_true_iff, ge_iff_le, ht]
          refine and_congr Iff.rfl (not_congr ?_)
          constructor
          · intro hn; exact ⟨q, rfl, c0, c1, hn⟩
          · rintro ⟨q', e, -, -, hn⟩
            cases e; exact hn
      · refine ⟨true, ?_, ?_⟩
        · have : M < q := lt_of_not_ge (mt hM.mp c1)
          simp [Val.lt, c0, e2, this]
        · simp only [true_iff]
          refine ⟨?_, ?_⟩
          · show n < q
            linarith
          · rintro ⟨q', e, -, hl, -⟩
            cases e; exact c1 hl
    · cases hs : I.signed
      · refine ⟨false, by simp [Val.lt, c0], ?_⟩
        have : I.lo = 0 := h.std.unsigned hs
        rw [this] at q1
        simp only [Bool.false_eq_true, false_iff]
        rintro ⟨hl, -⟩
        have hl : n < q := hl
        have : (0 : ℚ) ≤ n := by exact_mod_cast q1
        linarith
      · have hhi : (0 : ℚ) ≤ I.hi := by exact_mod_cast h.std.hi_pos.le
        by_cases c1 : (I.lo : ℚ) ≤ q
        · refine ⟨trunc q > n, ?_, ?_⟩
          · simp [Val.lt, Val.le, c0, e1, hm.mpr c1, floatToIntA_range h.std c1 (by linarith)]
          · rw [decide_eq_true_iff, trunc_nonpos (by linarith), gt_iff_lt, Int.lt_ceil]
            constructor
            · intro hq
              refine ⟨hq, ?_⟩
              rintro ⟨q', e, hl, -⟩
              cases e; exact c0 hl
            · exact fun hq => hq.1
        · refine ⟨false, ?_, ?_⟩
          · simp [Val.lt, Val.le, c0, e1, mt hm.mp c1]
          · simp only [Bool.false_eq_true, false_iff]
            rintro ⟨hl, -⟩
            have hl : n < q := hl
            linarith

theorem floatLessEqualInt_eq (h : Setup F I) {v : Val} (hv : IsVal F v) {n : ℤ} (h1 : I.lo ≤ n) (h2 : n ≤ I.hi) :
    ∃ b, floatLessEqualInt F I v n = some b ∧ (b = true ↔ (Less v n ∨ Equal v n) ∨ Greater v n ∧ SkipDown F I v n) := by
  obtain ⟨m, e1, -, hm⟩ := minFloat_spec h.conforms h.digits h.std h.covers
  obtain ⟨M, e2, -, hM⟩ := maxFloat_spec h.conforms h.digits h.std h.covers
  have q1 : (I.lo : ℚ) ≤ n := by exact_mod_cast h1
  have q2 : (n : ℚ) ≤ I.hi := by exact_mod_cast h2
  unfold floatLessEqualInt SkipDown
  rw [ofInt_zero h.conforms]
  cases v with
  | nan => simp [e2, Val.le, Less, Equal, Greater]
  | ninf => cases hs : I.signed <;> simp [e1, Val.le, Val.lt, Less]
  | pinf => simp [e2, Val.le, Less, Equal]
  | fin q =>
    have hm := hm q hv
    have hM := hM q hv
    have hle : (Less (.fin q) n ∨ Equal (.fin q) n) ↔ q ≤ n := le_iff_lt_or_eq.symm
    rw [hle]
    by_cases c0 : q ≤ 0
    · have hhi : (0 : ℚ) ≤ I.hi := by exact_mod_cast h.std.hi_pos.le
      have hskip : ∀ P, (P ∨ Greater (.fin q) n ∧ ∃ q', Val.fin q = .fin q' ∧ 0 < q' ∧ q' ≤ (I.hi : ℚ) ∧ NoneDownTo F q' n) ↔ P := by
        intro P
        constructor
        · rintro (hP | ⟨-, q', e, hp, -⟩)
          · exact hP
          · cases e; exact absurd hp (not_lt.mpr c0)
        · exact Or.inl
      rw [hskip]
      cases hs : I.signed
      · refine ⟨true, by simp [Val.le, c0], ?_⟩
        have : I.lo = 0 := h.std.unsigned hs
        rw [this] at q1
        have : (0 : ℚ) ≤ n := by exact_mod_cast q1
        simp only [true_iff]
        linarith
      · by_cases c1 : (I.lo : ℚ) ≤ q
        · refine ⟨trunc q ≤ n, ?_, ?_⟩
          · have : ¬q < m := not_lt.mpr (hm.mpr c1)
            simp [Val.le, Val.lt, c0, e1, this, floatToIntA_range h.std c1 (by linarith)]
          · rw [decide_eq_true_iff, trunc_nonpos c0, Int.ceil_le]
        · refine ⟨true, ?_, ?_⟩
          · have : q < m := lt_of_not_ge (mt hm.mp c1)
            simp [Val.le, Val.lt, c0, e1, this]
          · simp only [true_iff]
            linarith
    · have c0' : 0 < q := lt_of_not_ge c0
      by_cases c1 : q ≤ (I.hi : ℚ)
      · obtain ⟨t, et, ht⟩ := floor_next h hv c0' c1 n
        refine ⟨t < n, ?_, ?_⟩
        · simp [Val.le, c0, e2, hM.mpr c1, et]
        · rw [decide_eq_true_iff, ← not_le, ht]
          constructor
          · intro hn
            by_cases hq : q ≤ n
            · exact Or.inl hq
            · right
              have hq := lt_of_not_ge hq
              refine ⟨hq, q, rfl, c0', c1, ?_⟩
              by_contra hc
              exact hn ⟨hq, hc⟩
          · rintro (hq | ⟨hq, q', e, -, -, hn⟩)
            · rintro ⟨hc, -⟩; linarith
            · cases e
              exact fun hc => hc.2 hn
      · refine ⟨false, ?_, ?_⟩
        · simp [Val.le, c0, e2, mt hM.mp c1]
        · simp only [Bool.false_eq_true, false_iff]
          rintro (hq | ⟨-, q', e, -, hl, -⟩)
          · linarith
          · cases e; exact c1 hl

theorem floatGreaterEqualInt_eq (h : Setup F I) {v : Val} (hv : IsVal F v) {n : ℤ} (h1 : I.lo ≤ n) (h2 : n ≤ I.hi) :
    ∃ b, floatGreaterEqualInt F I v n = some b ∧ (b = true ↔ (Greater v n ∨ Equal v n) ∨ Less v n ∧ SkipUp F I v n) := by
  obtain ⟨m, e1, -, hm⟩ := minFloat_spec h.conforms h.digits h.std h.covers
  obtain ⟨M, e2, -, hM⟩ := maxFloat_spec h.conforms h.digits h.std h.covers
  have q1 : (I.lo : ℚ) ≤ n := by exact_mod_cast h1
  have q2 : (n : ℚ) ≤ I.hi := by exact_mod_cast h2
  unfold floatGreaterEqualInt SkipUp
  rw [ofInt_zero h.conforms]
  cases v with
  | nan => cases hs : I.signed <;> simp [e1, Val.le, Less, Equal, Greater]
  | ninf => cases hs : I.signed <;> simp [e1, Val.le, Equal, Greater]
  | pinf => simp [e2, Val.le, Val.lt, Greater]
  | fin q =>
    have hm := hm q hv
    have hM := hM q hv
    have hge : (Greater (.fin q) n ∨ Equal (.fin q) n) ↔ n ≤ q := by
      show (n : ℚ) < q ∨ q = n ↔ _
      rw [le_iff_lt_or_eq, eq_comm]
    rw [hge]
    by_cases c0 : 0 ≤ q
    · have hlo : (I.lo : ℚ) ≤ 0 := by exact_mod_cast h.std.lo_nonpos
      have hskip : ∀ P, (P ∨ Less (.fin q) n ∧ ∃ q', Val.fin q = .fin q' ∧ I.signed = true ∧ q' < 0 ∧ (I.lo : ℚ) ≤ q' ∧ NoneUpTo F q' n) ↔ P := by
        intro P
        constructor
        · rintro (hP | ⟨-, q', e, -, hp, -⟩)
          · exact hP
          · cases e; exact absurd hp (not_lt.mpr c0)
        · exact Or.inl
      rw [hskip]
      by_cases c1 : q ≤ (I.hi : ℚ)
      · refine ⟨trunc q ≥ n, ?_, ?_⟩
        · have : ¬M < q := not_lt.mpr (hM.mpr c1)
          simp [Val.le, Val.lt, c0, e2, this, floatToIntA_range h.std (by linarith) c1]
        · rw [decide_eq_true_iff, trunc_nonneg c0, ge_iff_le, Int.le_floor]
      · refine ⟨true, ?_, ?_⟩
        · have : M < q := lt_of_not_ge (mt hM.mp c1)
          simp [Val.le, Val.lt, c0, e2, this]
        · simp only [true_iff]
          linarith
    · have c0' : q < 0 := lt_of_not_ge c0
      cases hs : I.signed
      · refine ⟨false, by simp [Val.le, c0], ?_⟩
        have : I.lo = 0 := h.std.unsigned hs
        rw [this] at q1
        have : (0 : ℚ) ≤ n := by exact_mod_cast q1
        simp only [Bool.false_eq_true, false_iff]
        rintro (hq | ⟨-, q', -, hf, -⟩)
        · linarith
        · cases hf
      · by_cases c1 : (I.lo : ℚ) ≤ q
        · obtain ⟨t, et, ht⟩ := ceil_next h hv c0' c1 n
          refine ⟨t > n, ?_, ?_⟩
          · simp [Val.le, c0, e1, hm.mpr c1, et]
          · rw [decide_eq_true_iff, gt_iff_lt, ← not_le, ht]
            constructor
            · intro hn
              by_cases hq : (n : ℚ) ≤ q
              · exact Or.inl hq
              · right
                have hq := lt_of_not_ge hq
                refine ⟨hq, q, rfl, rfl, c0', c1, ?_⟩
                by_contra hc
                exact hn ⟨hq, hc⟩
            · rintro (hq | ⟨hq, q', e, -, -, -, hn⟩)
              · rintro ⟨hc, -⟩; linarith
              · cases e
                exact fun hc => hc.2 hn
        · refine ⟨false, ?_, ?_⟩
          · simp [Val.le, c0, e1, mt hm.mp c1]
          · simp only [Bool.false_eq_true, false_iff]
            rintro (hq | ⟨-, q', e, -, -, hl, -⟩)
            · linarith
            · cases e; exact c1 hl

/-! ### Conversion -/

theorem tryFloatToInt_fin (h : Setup F I) {q : ℚ} (hq : F.rep q) :
    tryFloatToInt F I (.fin q) = some (if (I.lo : ℚ) ≤ q ∧ q ≤ I.hi then some (trunc q) else none) := by
  obtain ⟨m, e1, -, hm⟩ := minFloat_spec h.conforms h.digits h.std h.covers
  obtain ⟨M, e2, -, hM⟩ := maxFloat_spec h.conforms h.digits h.std h.covers
  have hm := hm q hq
  have hM := hM q hq
  unfold tryFloatToInt
  by_cases c1 : (I.lo : ℚ) ≤ q
  · by_cases c2 : q ≤ (I.hi : ℚ)
    · rw [if_pos ⟨c1, c2⟩]
      simp [Val.le, e1, e2, hm.mpr c1, hM.mpr c2, floatToIntA_range h.std c1 c2]
    · rw [if_neg (fun h => c2 h.2)]
      simp [Val.le, e1, e2, hm.mpr c1, mt hM.mp c2]
  · rw [if_neg (fun h => c1 h.1)]
    simp [Val.le, e1, mt hm.mp c1]

theorem tryFloatToInt_other (h : Setup F I) {v : Val} (hv : ∀ q, v ≠ .fin q) : tryFloatToInt F I v = some none := by
  obtain ⟨m, e1, -, hm⟩ := minFloat_spec h.conforms h.digits h.std h.covers
  obtain ⟨M, e2, -, hM⟩ := maxFloat_spec h.conforms h.digits h.std h.covers
  unfold tryFloatToInt
  cases v with
  | fin q => exact absurd rfl (hv q)
  | nan => simp [e1, Val.le]
  | ninf => simp [e1, Val.le]
  | pinf => simp [e1, e2, Val.le]

theorem clampedFloatToInt_fin (h : Setup F I) {q : ℚ} (hq : F.rep q) :
    clampedFloatToInt F I (.fin q) = some (if q < I.lo then I.lo else if (I.hi : ℚ) < q then I.hi else trunc q) := by
  obtain ⟨m, e1, -, hm⟩ := minFloat_spec h.conforms h.digits h.std h.covers
  obtain ⟨M, e2, -, hM⟩ := maxFloat_spec h.conforms h.digits h.std h.covers
  have hm := hm q hq
  have hM := hM q hq
  unfold clampedFloatToInt
  by_cases c1 : (I.lo : ℚ) ≤ q
  · rw [if_neg (not_lt.mpr c1)]
    by_cases c2 : q ≤ (I.hi : ℚ)
    · rw [if_neg (not_lt.mpr c2)]
      simp [Val.le, e1, e2, hm.mpr c1, hM.mpr c2, floatToIntA_range h.std c1 c2]
    · rw [if_pos (lt_of_not_ge c2)]
      simp [Val.le, e1, e2, hm.mpr c1, mt hM.mp c2]
  · rw [if_pos (lt_of_not_ge c1)]
    have : q < m := lt_of_not_ge (mt hm.mp c1)
    simp [Val.le, Val.lt, e1, mt hm.mp c1, this]

theorem clampedFloatToInt_other (h : Setup F I) :
    clampedFloatToInt F I .nan = some 0 ∧ clampedFloatToInt F I .ninf = some I.lo ∧ clampedFloatToInt F I .pinf = some I.hi := by
  obtain ⟨m, e1, -, hm⟩ := minFloat_spec h.conforms h.digits h.std h.covers
  obtain ⟨M, e2, -, hM⟩ := maxFloat_spec h.conforms h.digits h.std h.covers
  unfold clampedFloatToInt
  simp [e1, e2, Val.le, Val.lt]

/-! ### Binary formats -/

section Binary

variable {p : ℕ} {emin emax : ℤ}

theorem binaryRep_int (hp : 1 ≤ p) (h0 : emin ≤ 0) (h1 : 1 ≤ emax) {i : ℤ} (hi : |i| ≤ 2 ^ p) : binaryRep p emin emax i := by
  rcases lt_or_eq_of_le hi with h | h
  · exact ⟨i, 0, h, h0, by omega, by simp⟩
  · have hpp : (2 : ℤ) ^ p = 2 ^ (p - 1) * 2 := by rw [← pow_succ]; congr 1; omega
    have hpos : (0 : ℤ) < 2 ^ (p - 1) := by positivity
    rcases abs_choice i with e | e
    · refine ⟨2 ^ (p - 1), 1, ?_, by omega, h1, ?_⟩
      · rw [abs_of_pos hpos]; omega
      · have : i = 2 ^ (p - 1) * 2 := by omega
        rw [this]; push_cast; simp
    · refine ⟨-2 ^ (p - 1), 1, ?_, by omega, h1, ?_⟩
      · rw [abs_neg, abs_of_pos hpos]; omega
      · have : i = -2 ^ (p - 1) * 2 := by rw [neg_mul]; omega
        rw [this]; push_cast; simp

theorem binaryRep_neg {q : ℚ} (h : binaryRep p emin emax q) : binaryRep p emin emax (-q) := by
  obtain ⟨m, e, h1, h2, h3, rfl⟩ := h
  exact ⟨-m, e, by rwa [abs_neg], h2, h3, by push_cast; ring⟩

theorem zpow_int {e : ℤ} (h : 0 ≤ e) : ((2 : ℚ) ^ e) = ((2 ^ e.toNat : ℤ) : ℚ) := by
  conv_lhs => rw [← Int.toNat_of_nonneg h]
  rw [zpow_natCast]; push_cast; rfl

theorem binaryRep_floor (hp : 1 ≤ p) (h0 : emin ≤ 0) (h1 : 1 ≤ emax) {q : ℚ} (h : binaryRep p emin emax q) :
    binaryRep p emin emax ⌊q⌋ := by
  have hq := h
  obtain ⟨m, e, hm, he1, he2, rfl⟩ := h
  rcases le_or_gt 0 e with he | he
  · have : ((m : ℚ) * 2 ^ e) = ((m * 2 ^ e.toNat : ℤ) : ℚ) := by rw [zpow_int he]; push_cast; rfl
    rw [this] at hq ⊢
    rw [Int.floor_intCast]
    exact hq
  · apply binaryRep_int hp h0 h1
    have hpow : (0 : ℚ) < 2 ^ e := zpow_pos (by norm_num) _
    have hpow1 : (2 : ℚ) ^ e ≤ 1 := zpow_le_one_of_nonpos₀ (by norm_num) he.le
    have hm' : |(m : ℚ)| ≤ 2 ^ p := by
      have : |m| ≤ 2 ^ p := hm.le
      exact_mod_cast this
    have habs : |(m : ℚ) * 2 ^ e| ≤ 2 ^ p := by
      rw [abs_mul, abs_of_pos hpow]
      calc |(m : ℚ)| * 2 ^ e ≤ |(m : ℚ)| * 1 := mul_le_mul_of_nonneg_left hpow1 (abs_nonneg _)
        _ ≤ 2 ^ p := by rw [mul_one]; exact hm'
    rw [abs_le] at habs
    rw [abs_le]
    constructor
    · apply Int.le_floor.mpr
      push_cast
      exact habs.1
    · have := le_trans (Int.floor_le ((m : ℚ) * 2 ^ e)) habs.2
      exact_mod_cast this

theorem binaryRep_ceil (hp : 1 ≤ p) (h0 : emin ≤ 0) (h1 : 1 ≤ emax) {q : ℚ} (h : binaryRep p emin emax q) :
    binaryRep p emin emax ⌈q⌉ := by
  have := binaryRep_neg (binaryRep_floor hp h0 h1 (binaryRep_neg h))
  rw [Int.floor_neg] at this
  simpa using this

theorem binaryRep_half (hmin : emin ≤ -p) {q : ℚ} (h : binaryRep p emin emax q) (hq : 1 < |q|) : binaryRep p emin emax (q / 2) := by
  obtain ⟨m, e, hm, he1, he2, rfl⟩ := h
  have he : emin < e := by
    rcases lt_or_eq_of_le he1 with h | h
    · exact h
    · exfalso
      subst h
      have hpow : (0 : ℚ) < 2 ^ emin := zpow_pos (by norm_num) _
      rw [abs_mul, abs_of_pos hpow] at hq
      have hm' : |(m : ℚ)| ≤ 2 ^ p := by
        have : |m| ≤ 2 ^ p := hm.le
        exact_mod_cast this
      have hpow1 : (2 : ℚ) ^ emin ≤ 2 ^ (-(p : ℤ)) := zpow_le_zpow_right₀ (by norm_num) hmin
      have : |(m : ℚ)| * 2 ^ emin ≤ 2 ^ p * 2 ^ (-(p : ℤ)) := mul_le_mul hm' hpow1 hpow.le (by positivity)
      have e1 : (2 : ℚ) ^ p * 2 ^ (-(p : ℤ)) = 1 := by
        rw [zpow_neg, zpow_natCast]; field_simp
      linarith
  refine ⟨m, e - 1, hm, by omega, by omega, ?_⟩
  rw [zpow_sub_one₀ (by norm_num)]
  ring

/-- A value of large magnitude is an even integer. -/
theorem binaryRep_even {q : ℚ} (h : binaryRep p emin emax q) (hq : (2 : ℚ) ^ p ≤ |q|) : ∃ k : ℤ, q = 2 * k := by
  obtain ⟨m, e, hm, he1, he2, rfl⟩ := h
  have he : 1 ≤ e := by
    by_contra hc
    have hpow : (0 : ℚ) < 2 ^ e := zpow_pos (by norm_num) _
    have hpow1 : (2 : ℚ) ^ e ≤ 1 := zpow_le_one_of_nonpos₀ (by norm_num) (by omega)
    rw [abs_mul, abs_of_pos hpow] at hq
    have hm' : |(m : ℚ)| < 2 ^ p := by exact_mod_cast hm
    have : |(m : ℚ)| * 2 ^ e ≤ |(m : ℚ)| * 1 := mul_le_mul_of_nonneg_left hpow1 (abs_nonneg _)
    linarith
  refine ⟨m * 2 ^ (e - 1).toNat, ?_⟩
  have h1 : (2 : ℚ) ^ e = 2 * 2 ^ (e - 1) := by rw [zpow_sub_one₀ (by norm_num)]; ring
  rw [h1, zpow_int (by omega : 0 ≤ e - 1)]
  push_cast
  ring

theorem binaryRep_int_above (hp : 1 ≤ p) (h0 : emin ≤ 0) (h1 : 1 ≤ emax) {i : ℤ} {b : ℚ} (hn : ¬binaryRep p emin emax i)
    (hb : binaryRep p emin emax b) (hib : |(i : ℚ)| ≤ |b|) : ∃ k : ℤ, b / 2 = k := by
  have hi : (2 : ℚ) ^ p ≤ |(i : ℚ)| := by
    by_contra hc
    apply hn
    apply binaryRep_int hp h0 h1
    have hc := (lt_of_not_ge hc).le
    exact_mod_cast hc
  obtain ⟨k, hk⟩ := binaryRep_even hb (by linarith)
  exact ⟨k, by rw [hk]; ring⟩

/-- Every value is a multiple of the smallest positive value. -/
theorem binaryRep_multiple {q : ℚ} (h : binaryRep p emin emax q) : ∃ N : ℤ, q = N * 2 ^ emin := by
  obtain ⟨m, e, hm, he1, he2, rfl⟩ := h
  refine ⟨m * 2 ^ (e - emin).toNat, ?_⟩
  have : (2 : ℚ) ^ e = 2 ^ (e - emin) * 2 ^ emin := by rw [← zpow_add₀ (by norm_num)]; congr 1; ring
  rw [this, zpow_int (by omega : 0 ≤ e - emin)]
  push_cast
  ring

theorem binaryRep_pred {q : ℚ} (hp : 1 ≤ p) (h0 : emin ≤ 0) (h1 : 1 ≤ emax) (hq : binaryRep p emin emax q) (hpos : 0 < q) :
    ∃ b, binaryRep p emin emax b ∧ b < q ∧ ∀ c, binaryRep p emin emax c → c < q → c ≤ b := by
  classical
  obtain ⟨N, rfl⟩ := binaryRep_multiple hq
  have hpow : (0 : ℚ) < 2 ^ emin := zpow_pos (by norm_num) _
  have hN : 0 < N := by
    by_contra hc
    have : (N : ℚ) ≤ 0 := by exact_mod_cast (by omega : N ≤ 0)
    have : (N : ℚ) * 2 ^ emin ≤ 0 := mul_nonpos_of_nonpos_of_nonneg this hpow.le
    linarith
  have hex : ∃ k : ℕ, binaryRep p emin emax (((N - 1 - k : ℤ) : ℚ) * 2 ^ emin) := by
    refine ⟨(N - 1).toNat, ?_⟩
    rw [Int.toNat_of_nonneg (by omega)]
    have : binaryRep p emin emax ((0 : ℤ) : ℚ) := binaryRep_int hp h0 h1 (by simp)
    simpa using this
  have hk := Nat.find_spec hex
  have hmin := fun k => Nat.find_min hex (m := k)
  generalize Nat.find hex = k at *
  refine ⟨_, hk, ?_, ?_⟩
  · apply mul_lt_mul_of_pos_right _ hpow
    exact_mod_cast (by omega : N - 1 - k < N)
  · intro c hc hlt
    obtain ⟨M, rfl⟩ := binaryRep_multiple hc
    have hMN : M < N := by
      have := lt_of_mul_lt_mul_right hlt hpow.le
      exact_mod_cast this
    apply mul_le_mul_of_nonneg_right _ hpow.le
    have : M ≤ N - 1 - k := by
      by_contra hc'
      apply hmin (N - 1 - M).toNat (by omega)
      rw [Int.toNat_of_nonneg (by omega)]
      have : N - 1 - (N - 1 - M) = M := by ring
      rw [this]; exact hc
    exact_mod_cast this

theorem binaryRep_succ {q : ℚ} (hp : 1 ≤ p) (h0 : emin ≤ 0) (h1 : 1 ≤ emax) (hq : binaryRep p emin emax q) (hneg : q < 0) :
    ∃ b, binaryRep p emin emax b ∧ q < b ∧ ∀ c, binaryRep p emin emax c → q < c → b ≤ c := by
  obtain ⟨b, hb1, hb2, hb3⟩ := binaryRep_pred hp h0 h1 (binaryRep_neg hq) (by linarith)
  refine ⟨-b, binaryRep_neg hb1, by linarith, ?_⟩
  intro c hc hlt
  have := hb3 (-c) (binaryRep_neg hc) (by linarith)
  linarith

/-- There is a floating-point type with the values of the binary format that conforms to the requirements. -/
theorem binary_exists (hp : 1 ≤ p) (hmin : emin ≤ -p) (h1 : 1 ≤ emax) :
    ∃ F : FloatType, F.rep = binaryRep p emin emax ∧ F.radix = 2 ∧ Conforms F ∧ Digits F := by
  classical
  have h0 : emin ≤ 0 := by omega
  have hnext : ∀ v : Val, ∃ w : Val, (∀ q, v = .fin q → binaryRep p emin emax q → 0 < q →
        ∃ b, w = .fin b ∧ binaryRep p emin emax b ∧ b < q ∧ ∀ c, binaryRep p emin emax c → c < q → c ≤ b) ∧
      (∀ q, v = .fin q → binaryRep p emin emax q → q < 0 →
        ∃ b, w = .fin b ∧ binaryRep p emin emax b ∧ q < b ∧ ∀ c, binaryRep p emin emax c → q < c → b ≤ c) := by
    intro v
    by_cases hv : ∃ q, v = .fin q ∧ binaryRep p emin emax q ∧ q ≠ 0
    · obtain ⟨q, rfl, hq, hq0⟩ := hv
      rcases lt_or_gt_of_ne hq0 with hlt | hgt
      · obtain ⟨b, hb⟩ := binaryRep_succ hp h0 h1 hq hlt
        refine ⟨.fin b, ?_, ?_⟩
        · rintro q' e - hpos
          cases e; exact absurd hpos (by linarith)
        · rintro q' e - -
          cases e; exact ⟨b, rfl, hb⟩
      · obtain ⟨b, hb⟩ := binaryRep_pred hp h0 h1 hq hgt
        refine ⟨.fin b, ?_, ?_⟩
        · rintro q' e - -
          cases e; exact ⟨b, rfl, hb⟩
        · rintro q' e - hneg
          cases e; exact absurd hneg (by linarith)
    · refine ⟨.nan, ?_, ?_⟩
      · intro q e hq hpos
        exact absurd ⟨q, e, hq, by linarith⟩ hv
      · intro q e hq hneg
        exact absurd ⟨q, e, hq, by linarith⟩ hv
  choose next hnext1 hnext2 using hnext
  have hof : ∀ i : ℤ, ∃ w : Val, (binaryRep p emin emax i → w = .fin i) ∧
      ∀ a b : ℚ, binaryRep p emin emax a → binaryRep p emin emax b → a < i → (i : ℚ) < b →
        (∀ c, binaryRep p emin emax c → c ≤ a ∨ b ≤ c) → w = .fin a ∨ w = .fin b := by
    intro i
    by_cases hi : binaryRep p emin emax i
    · refine ⟨.fin i, fun _ => rfl, ?_⟩
      intro a b _ _ hai hib hab
      rcases hab i hi with h | h <;> exfalso <;> linarith
    · by_cases hex : ∃ a b : ℚ, binaryRep p emin emax a ∧ binaryRep p emin emax b ∧ a < i ∧ (i : ℚ) < b ∧
          ∀ c, binaryRep p emin emax c → c ≤ a ∨ b ≤ c
      · obtain ⟨a, b, ha, hb, hai, hib, hab⟩ := hex
        refine ⟨.fin a, fun h => absurd h hi, ?_⟩
        intro a' b' ha' hb' hai' hib' hab'
        left
        have e1 : a ≤ a' := by
          rcases hab' a ha with h | h
          · exact h
          · exfalso; linarith
        have e2 : a' ≤ a := by
          rcases hab a' ha' with h | h
          · exact h
          · exfalso; linarith
        rw [le_antisymm e1 e2]
      · refine ⟨.nan, fun h => absurd h hi, ?_⟩
        intro a b ha hb hai hib hab
        exact absurd ⟨a, b, ha, hb, hai, hib, hab⟩ hex
  choose ofInt hof1 hof2 using hof
  have h2p : (2 : ℤ) ≤ 2 ^ p := by
    calc (2 : ℤ) = 2 ^ 1 := by norm_num
      _ ≤ 2 ^ p := pow_le_pow_right₀ (by norm_num) hp
  have hint : ∀ i : ℤ, |i| ≤ 2 → binaryRep p emin emax i := fun i hi => binaryRep_int hp h0 h1 (by omega)
  let div : Val → Val → Val := fun a b => match a, b with
    | .fin a, .fin b => .fin (a / b)
    | _, _ => .nan
  refine ⟨⟨binaryRep p emin emax, 2, ofInt, next, div⟩, rfl, rfl, ?_, fun i hi => hint i hi⟩
  refine ⟨le_refl _, by simpa using hint 0 (by simp), by simpa using hint 1 (by simp), by simpa using hint (-1) (by simp),
    by simpa using hint 2 (by simp), fun a b _ _ _ _ => rfl, fun a => binaryRep_floor hp h0 h1, fun a => binaryRep_ceil hp h0 h1,
    hof1, hof2, ?_, ?_, ?_, ?_, ?_⟩
  · intro a ha h
    have : 1 < |a| := by
      rcases h with h | h
      · exact lt_of_lt_of_le h (le_abs_self a)
      · have := neg_le_abs a; linarith
    have := binaryRep_half hmin ha this
    simpa using this
  · intro i b hi hn hb hib _
    have hi' : (0 : ℚ) < i := by exact_mod_cast hi
    have := binaryRep_int_above hp h0 h1 hn hb (by rw [abs_of_pos hi', abs_of_pos (by linarith)]; exact hib.le)
    simpa using this
  · intro i a hi hn ha hai _
    have hi' : (i : ℚ) < 0 := by exact_mod_cast hi
    have := binaryRep_int_above hp h0 h1 hn ha (by rw [abs_of_neg hi', abs_of_neg (by linarith)]; linarith)
    simpa using this
  · intro a ha hpos
    exact hnext1 (.fin a) a rfl ha hpos
  · intro a ha hneg
    exact hnext2 (.fin a) a rfl ha hneg

end Binary

end Verif.FloatInt
