import Verif.CliPattern.ArgsSpec
import Mathlib.Tactic.Tauto
/-!
The check of the parameters of a pattern function.
-/
namespace Verif.CliPattern

/-- Number of types in a list of types. -/
def tlen : Ty → Nat
  | .cons _ ts => tlen ts + 1
  | _ => 0

theorem checkers_length (t : Tables) : ∀ ts, isList ts → (checkers t ts).length = tlen ts
  | .nil, _ => by simp [checkers, tlen]
  | .cons τ ts, h => by simp [checkers, tlen, checkers_length t ts h]
  | .bool, h | .size, h | .other, h | .optional _, h | .vector _, h | .variant _, h | .tuple _, h => h.elim

/-- A check has an outcome, and that is whether `P` holds. -/
def Decides (r : Option Bool) (P : Prop) : Prop := ∃ b, r = some b ∧ (b = true ↔ P)

theorem Decides.congr {r : Option Bool} {P Q : Prop} (h : Decides r P) (hpq : P ↔ Q) : Decides r Q := by
  obtain ⟨b, h1, h2⟩ := h
  exact ⟨b, h1, h2.trans hpq⟩

theorem decides_false {P : Prop} (h : ¬ P) : Decides (some false) P := ⟨false, rfl, by simp [h]⟩

theorem decides_true {P : Prop} (h : P) : Decides (some true) P := ⟨true, rfl, by simp [h]⟩

def CElem (t : Tables) (p : Pat) : Prop := Wf p .elem → params p ≠ 0 → ∀ i b el, Enc t p i b → t.elems[i]? = some el → ∀ τ, TyOk τ →
  Decides ((checker t τ).param el) (Fits p τ)

def CSeq (t : Tables) (p : Pat) : Prop := Wf p .seq → ∀ i b, Enc t p i b → ∃ els, paramElems t (len p) i = some els ∧ els.length = params p ∧
  firstParam t (len p) i = some els.head? ∧ (repFirst p ↔ ∃ el, els.head? = some el ∧ el.type = .rep) ∧ ∀ ts, isList ts → TyOk ts →
    (tlen ts = params p → Decides (checkEach (checkers t ts) els) (Fits p ts)) ∧ (tlen ts ≠ params p → ¬ Fits p ts)

def CBranches (t : Tables) (p : Pat) : Prop := Wf p .branches → ∀ i b, Enc t p i b → ∀ ts, isList ts → TyOk ts →
    (tlen ts = len p → Decides (checkBranches t (checkers t ts) i) (Fits p ts)) ∧ (tlen ts ≠ len p → ¬ Fits p ts)

theorem checkTuple_decides {t : Tables} {p : Pat} (h : CSeq t p) (hw : Wf p .seq) {sq : Seq} {b : Nat} (hl : sq.numElems = len p)
    (hn : sq.numParams = params p) (he : Enc t p sq.elemsOffset b) {ts : Ty} (h1 : isList ts) (h2 : TyOk ts) :
    Decides (checkTuple t (checkers t ts) sq) (Fits p ts) := by
  obtain ⟨els, h3, h4, h5, h6, h7⟩ := h hw _ _ he
  simp only [checkTuple, hn, hl, checkers_length t ts h1, h3, Option.bind_eq_bind, Option.bind_some, h4]
  by_cases hlen : params p = tlen ts
  · rw [if_pos hlen, if_pos hlen]
    exact (h7 ts h1 h2).1 hlen.symm
  · rw [if_neg hlen]
    exact decides_false ((h7 ts h1 h2).2 (fun h => hlen h.symm))

/-- A type that is checked as a tuple of one. -/
theorem single_tuple {t : Tables} {p : Pat} (h : CSeq t p) (hw : Wf p .seq) {sq : Seq} {b : Nat} (hl : sq.numElems = len p)
    (hn : sq.numParams = params p) (he : Enc t p sq.elemsOffset b) {τ : Ty} (h2 : TyOk τ) {f : Elem → Option Bool} (hf : (checker t τ).param = f) :
    Decides ((single t f).tuple sq) (Fits p (.cons τ .nil)) := by
  have := checkTuple_decides h hw hl hn he (ts := .cons τ .nil) trivial ⟨h2, trivial, trivial⟩
  simp only [checkTuple, checkers, List.length_cons, List.length_nil, single, checkEach, hf] at this ⊢
  exact this

theorem tuple_decides {t : Tables} {p : Pat} (h : CSeq t p) (hw : Wf p .seq) {sq : Seq} {b : Nat} (hl : sq.numElems = len p)
    (hn : sq.numParams = params p) (he : Enc t p sq.elemsOffset b) (τ : Ty) (h2 : TyOk τ) :
    Decides ((checker t τ).tuple sq) (FitsTuple (Fits p) τ) := by
  cases τ with
  | tuple ts => simp only [checker]; exact checkTuple_decides h hw hl hn he h2.1 h2.2
  | bool => exact single_tuple h hw hl hn he h2 (by simp only [checker, single])
  | size => exact single_tuple h hw hl hn he h2 (by simp only [checker, single])
  | other => exact single_tuple h hw hl hn he h2 (by simp only [checker, single])
  | nil => exact single_tuple h hw hl hn he h2 (by simp only [checker, single])
  | cons τ ts => exact single_tuple h hw hl hn he h2 (by simp only [checker, single])
  | optional τ => simp only [checker]; exact single_tuple h hw hl hn he h2 (by simp only [checker, single])
  | vector τ => simp only [checker]; exact single_tuple h hw hl hn he h2 (by simp only [checker, single])
  | variant τ => simp only [checker]; exact single_tuple h hw hl hn he h2 (by simp only [checker, single])

theorem cgoals (t : Tables) : ∀ p : Pat, CElem t p ∧ CSeq t p ∧ CBranches t p := by
  intro p
  induction p with
  | sym s =>
    refine ⟨?_, fun h => h.elim, fun h => h.elim⟩
    intro _ hp i b el henc hel τ ht
    obtain ⟨el', h1, h2, h3, h4, h5, h6⟩ := henc
    rw [hel] at h1
    cases h1
    cases τ <;> simp only [checker, single, checkScalar, checkOptParam, checkRepParam, checkAltParam, h2, if_true, Fits, scalar] <;>
      first | exact decides_true trivial | exact decides_false (fun h => h)
  | opt p ih =>
    refine ⟨?_, fun h => h.elim, fun h => h.elim⟩
    intro hw hp i b el henc hel τ ht
    obtain ⟨el', h1, h2, h3, h4, sub, h5, h6, h7, h8, h9⟩ := henc
    rw [hel] at h1
    cases h1
    obtain ⟨els, g3, g4, g5, g6, g7⟩ := ih.2.1 hw _ _ h9
    cases τ with
    | bool =>
      simp only [checker, single, checkScalar, h2, h4, Fits]
      simp only [reduceCtorEq, if_false, Bool.not_true, Bool.false_eq_true]
      exact ⟨_, rfl, by simp⟩
    | size =>
      simp only [checker, single, checkScalar, h2, h4, Fits]
      simp only [reduceCtorEq, if_false, Bool.not_true, Bool.false_eq_true, or_self, if_true, h5, Option.bind_eq_bind, Option.bind_some, h8.2, h6, g5]
      by_cases hn : params p = 1
      · rw [if_pos hn]
        obtain ⟨x, rfl⟩ : ∃ x, els = [x] := by
          rw [hn] at g4
          exact List.length_eq_one_iff.1 g4
        simp only [List.head?_cons, Option.some.injEq, exists_eq_left'] at g6 ⊢
        by_cases hx : x.type = .rep
        · have := (g7 (.cons .size .nil) trivial ⟨trivial, trivial, trivial⟩).1 (by simp [tlen, hn])
          simp only [checkers, checkEach, List.head?_cons, Option.bind_eq_bind, Option.bind_some, List.tail_cons, checker, single, checkScalar, hx] at this
          obtain ⟨r, hr1, hr2⟩ := this
          refine ⟨x.collapsible, by simp [hx], ?_⟩
          cases hxp : x.isParam with
          | false => simp [hxp] at hr1
          | true =>
            simp only [hxp, reduceCtorEq, if_false, Bool.not_true, Bool.false_eq_true, true_or, if_true, Option.bind_some] at hr1
            have : x.collapsible = r := by
              cases hc : x.collapsible <;> simp [hc] at hr1 <;> exact hr1.symm
            rw [this, hr2]
            have := g6.2 hx
            tauto
        · refine ⟨false, by simp [hx], ?_⟩
          simp only [Bool.false_eq_true, false_iff]
          rintro ⟨_, h, _⟩
          exact hx (g6.1 h)
      · rw [if_neg hn]
        exact decides_false (fun h => hn h.1)
    | vector τ =>
      simp only [checker, single, checkRepParam, h2, Fits]
      simp only [reduceCtorEq, if_false, if_true, h5, Option.bind_eq_bind, Option.bind_some, h8.2, h6, g5]
      by_cases hn : params p = 1
      · rw [if_pos hn]
        obtain ⟨x, rfl⟩ : ∃ x, els = [x] := by
          rw [hn] at g4
          exact List.length_eq_one_iff.1 g4
        simp only [List.head?_cons, Option.some.injEq, exists_eq_left'] at g6 ⊢
        by_cases hx : x.type = .rep
        · have := (g7 (.cons (.vector τ) .nil) trivial ⟨ht, trivial, trivial⟩).1 (by simp [tlen, hn])
          simp only [checkers, checkEach, List.head?_cons, Option.bind_eq_bind, Option.bind_some, List.tail_cons, checker, single, checkRepParam, hx,
            if_true] at this
          rw [if_pos hx]
          obtain ⟨r, hr1, hr2⟩ := this
          have hf := g6.2 hx
          cases hq : t.seqs[x.index]? with
          | none => simp [hq] at hr1
          | some sq2 =>
            simp only [hq, Option.bind_some] at hr1 ⊢
            cases hq2 : (checker t τ).tuple sq2 with
            | none => simp [hq2] at hr1
            | some r2 =>
              refine ⟨r2, rfl, ?_⟩
              have : r2 = r := by cases r2 <;> simp [hq2] at hr1 <;> exact hr1.symm
              rw [this, hr2]
              tauto
        · rw [if_neg hx]
          exact decides_false (fun h => hx (g6.1 h.2.1))
      · rw [if_neg hn]
        exact decides_false (fun h => hn h.1)
    | optional τ =>
      simp only [checker, single, checkOptParam, h2, if_true, h5, Option.bind_eq_bind, Option.bind_some, Fits]
      exact tuple_decides ih.2.1 hw h6 h8.2 h9 τ ht
    | variant ts =>
      simp only [checker, single, checkAltParam, h2, reduceCtorEq, if_false, Fits]
      exact decides_false (fun h => h)
    | other | tuple ts | nil | cons τ ts =>
      simp only [checker, single, checkScalar, h2, h4, Fits]
      simp only [reduceCtorEq, if_false, Bool.not_true, Bool.false_eq_true]
      exact decides_false (fun h => h)
  | rep p ih =>
    refine ⟨?_, fun h => h.elim, fun h => h.elim⟩
    intro hw hp i b el henc hel τ ht
    obtain ⟨el', h1, h2, h3, h4, sub, h5, h6, h7, h8, h9⟩ := henc
    rw [hel] at h1
    cases h1
    cases τ with
    | vector τ =>
      simp only [checker, single, checkRepParam, h2, if_true, h5, Option.bind_eq_bind, Option.bind_some, Fits]
      exact tuple_decides ih.2.1 hw h6 h8.2 h9 τ ht
    | size =>
      simp only [checker, single, checkScalar, h2, h4, Fits]
      simp only [reduceCtorEq, if_false, Bool.not_true, Bool.false_eq_true, true_or, if_true]
      exact ⟨_, rfl, by simp⟩
    | variant ts =>
      simp only [checker, single, checkAltParam, h2, reduceCtorEq, if_false, Fits]
      exact decides_false (fun h => h)
    | optional ts =>
      simp only [checker, single, checkOptParam, h2, reduceCtorEq, if_false, Fits]
      exact decides_false (fun h => h)
    | bool =>
      simp only [checker, single, checkScalar, h2, h4, Fits]
      simp only [reduceCtorEq, if_false, Bool.not_true, Bool.false_eq_true, decide_false, Bool.false_and]
      exact decides_false (fun h => h)
    | other | tuple ts | nil | cons τ ts =>
      simp only [checker, single, checkScalar, h2, h4, Fits]
      simp only [reduceCtorEq, if_false, Bool.not_true, Bool.false_eq_true]
      exact decides_false (fun h => h)
  | alt p ih =>
    refine ⟨?_, fun h => h.elim, fun h => h.elim⟩
    intro hw hp i b el henc hel τ ht
    obtain ⟨el', h1, h2, h3, h4, a, h5, h6, h7, h8⟩ := henc
    rw [hel] at h1
    cases h1
    cases τ with
    | variant ts =>
      simp only [checker, single, checkAltParam, h2, if_true, h5, Option.bind_eq_bind, Option.bind_some, Fits, h6, checkers_length t ts ht.1]
      by_cases hl : len p = tlen ts
      · rw [if_pos hl]
        exact (ih.2.2 hw.1 _ _ h8 ts ht.1 ht.2).1 hl.symm
      · rw [if_neg hl]
        exact decides_false ((ih.2.2 hw.1 _ _ h8 ts ht.1 ht.2).2 (fun h => hl h.symm))
    | size =>
      simp only [checker, single, checkScalar, h2, h4, Fits]
      simp only [reduceCtorEq, if_false, Bool.not_true, Bool.false_eq_true, or_true, if_true]
      exact ⟨_, rfl, by simp⟩
    | vector ts =>
      simp only [checker, single, checkRepParam, h2, reduceCtorEq, if_false, Fits]
      exact decides_false (fun h => h)
    | optional ts =>
      simp only [checker, single, checkOptParam, h2, reduceCtorEq, if_false, Fits]
      exact decides_false (fun h => h)
    | bool =>
      simp only [checker, single, checkScalar, h2, h4, Fits]
      simp only [reduceCtorEq, if_false, Bool.not_true, Bool.false_eq_true, decide_false, Bool.false_and]
      exact decides_false (fun h => h)
    | other | tuple ts | nil | cons τ ts =>
      simp only [checker, single, checkScalar, h2, h4, Fits]
      simp only [reduceCtorEq, if_false, Bool.not_true, Bool.false_eq_true]
      exact decides_false (fun h => h)
  | nil =>
    refine ⟨fun h => h.elim, ?_, fun h => h.elim⟩
    intro _ i b _
    refine ⟨[], rfl, rfl, rfl, by simp [repFirst], ?_⟩
    intro ts h1 h2
    cases ts <;> first | exact h1.elim | skip
    · exact ⟨fun _ => decides_true trivial, fun h => absurd rfl h⟩
    · exact ⟨fun h => by simp [tlen, params] at h, fun _ h => h⟩
  | none =>
    refine ⟨fun h => h.elim, fun h => h.elim, ?_⟩
    intro _ i b _ ts h1 h2
    cases ts <;> first | exact h1.elim | skip
    · exact ⟨fun _ => decides_true trivial, fun h => absurd rfl h⟩
    · exact ⟨fun h => by simp [tlen, len] at h, fun _ h => h⟩
  | cons e s ihe ihs =>
    refine ⟨fun h => h.elim, ?_, fun h => h.elim⟩
    intro hw i b henc
    obtain ⟨els, g3, g4, g5, g6, g7⟩ := ihs.2.1 hw.2 _ _ henc.2
    obtain ⟨el, hel, hpar, hnum, hrep⟩ : ∃ el, t.elems[i]? = some el ∧ el.isParam = decide (params e ≠ 0) ∧ params e ≤ 1 ∧
        (el.type = .rep ↔ ∃ q, e = .rep q) := by
      have h1 := henc.1
      cases e with
      | sym x =>
        obtain ⟨el, h1, h2, h3, h4, h5⟩ := h1
        refine ⟨el, h1, ?_, ?_, by simp [h2]⟩
        · rw [h5.1]; by_cases hv : x.type = .valueSlot <;> simp [params, hv]
        · simp only [params]; split <;> omega
      | opt p => obtain ⟨el, h1, h2, h3, h4, _⟩ := h1; exact ⟨el, h1, by simp [params, h4], by simp [params], by simp [h2]⟩
      | rep p => obtain ⟨el, h1, h2, h3, h4, _⟩ := h1; exact ⟨el, h1, by simp [params, h4], by simp [params], by simp [h2]⟩
      | alt p => obtain ⟨el, h1, h2, h3, h4, _⟩ := h1; exact ⟨el, h1, by simp [params, h4], by simp [params], by simp [h2]⟩
      | nil => exact hw.1.elim
      | none => exact hw.1.elim
      | cons _ _ => exact hw.1.elim
      | or _ _ => exact hw.1.elim
    by_cases hp : params e = 0
    · have hpar' : el.isParam = false := by simp [hpar, hp]
      refine ⟨els, ?_, ?_, ?_, ?_, ?_⟩
      · simp [len, paramElems, hel, g3, hpar']
      · simp [params, hp, g4]
      · simp [len, firstParam, hel, hpar', g5]
      · simp only [repFirst, hp, true_and]
        rw [← g6]
        constructor
        · rintro (h | ⟨q, rfl⟩)
          · exact h
          · simp [params] at hp
        · exact Or.inl
      · intro ts h1 h2
        obtain ⟨g8, g9⟩ := g7 ts h1 h2
        have hiff : Fits s ts ↔ Fits (.cons e s) ts := by
          simp [Fits, hp]
        simp only [params, hp, Nat.zero_add]
        exact ⟨fun h => (g8 h).congr hiff, fun h h' => g9 h (hiff.2 h')⟩
    · have hpar' : el.isParam = true := by simp [hpar, hp]
      have hp1 : params e = 1 := by omega
      refine ⟨el :: els, ?_, ?_, ?_, ?_, ?_⟩
      · simp [len, paramElems, hel, g3, hpar']
      · simp [params, hp1, g4, Nat.add_comm]
      · simp [len, firstParam, hel, hpar']
      · simp [repFirst, hp, hrep]
      · intro ts h1 h2
        cases ts <;> first | exact h1.elim | skip
        · refine ⟨fun h => ?_, fun _ h => ?_⟩
          · simp only [tlen, params, hp1] at h; omega
          · rcases h with ⟨h, _⟩ | ⟨_, _, _, h, _⟩
            · exact hp h
            · cases h
        · rename_i τ ts
          obtain ⟨g8, g9⟩ := g7 ts h2.2.1 h2.2.2
          have hiff : Fits (.cons e s) (.cons τ ts) ↔ Fits e τ ∧ Fits s ts := by
            constructor
            · rintro (⟨h, _⟩ | ⟨_, τ', ts', h, h3⟩)
              · exact absurd h hp
              · cases h; exact h3
            · intro h; exact Or.inr ⟨hp, τ, ts, rfl, h⟩
          refine ⟨fun h => ?_, fun h h' => ?_⟩
          · simp only [tlen, params, hp1] at h
            obtain ⟨r, hr1, hr2⟩ := ihe.1 hw.1 hp i b el henc.1 hel τ h2.1
            obtain ⟨r', hr1', hr2'⟩ := g8 (by omega)
            simp only [checkers, checkEach, List.head?_cons, Option.bind_eq_bind, Option.bind_some, hr1, List.tail_cons]
            cases r with
            | true => rw [if_pos rfl]; exact ⟨r', hr1', by rw [hiff, hr2', ← hr2]; simp⟩
            | false => exact decides_false (by rw [hiff, ← hr2]; simp)
          · exact g9 (by simp only [tlen, params, hp1] at h; omega) (hiff.1 h').2
  | or s r ihs ihr =>
    refine ⟨fun h => h.elim, fun h => h.elim, ?_⟩
    intro hw i b henc ts h1 h2
    obtain ⟨⟨sq, e1, e2, e3, e4, e5⟩, e6⟩ := henc
    cases ts <;> first | exact h1.elim | skip
    · exact ⟨fun h => by simp [tlen, len] at h, fun _ h => h⟩
    · rename_i τ ts
      obtain ⟨g8, g9⟩ := ihr.2.2 hw.2 _ _ e6 ts h2.2.1 h2.2.2
      refine ⟨fun h => ?_, fun h h' => ?_⟩
      · simp only [tlen, len] at h
        obtain ⟨r1, hr1, hr2⟩ := tuple_decides ihs.2.1 hw.1 e2 e4.2 e5 τ h2.1
        obtain ⟨r', hr1', hr2'⟩ := g8 (by omega)
        simp only [checkers, checkBranches, e1, Option.bind_eq_bind, Option.bind_some, hr1]
        cases r1 with
        | true => rw [if_pos rfl]; exact ⟨r', hr1', by simp only [Fits]; rw [hr2', ← hr2]; simp⟩
        | false => exact decides_false (by simp only [Fits]; rw [← hr2]; simp)
      · exact g9 (by simp only [tlen, len] at h; omega) h'.2

theorem checkFunc_main {t : Tables} {p : Pat} {i : Nat} (henc : EncRoot t p i) {ts : Ty} (h1 : isList ts) (h2 : TyOk ts) :
    Decides (checkFunc t ts i) (Fits p ts) := by
  obtain ⟨hw, sq, h3, h4, h5, h6, h7⟩ := henc
  simp only [checkFunc, h3, Option.bind_eq_bind, Option.bind_some]
  exact checkTuple_decides (cgoals t p).2.1 hw h4 h6.2 h7 h1 h2

end Verif.CliPattern
