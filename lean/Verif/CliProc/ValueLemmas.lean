import Verif.CliProc.TokLemmas
import Verif.CliProc.CommandSpec
import Verif.CliPattern.ArgsProps
/-!
What the function of a pattern receives.
-/
namespace Verif.CliProc

open Verif.CliPattern Verif.CliSpec

/-! Symbols do not matter for positions, and they matter for values only through whether they are value slots. -/

theorem size_mapSym (f : PatternSymbol → PatternSymbol) : ∀ p : Pat, size (mapSym f p) = size p
  | .sym _ | .nil | .none => rfl
  | .opt p | .rep p | .alt p => size_mapSym f p
  | .cons e s => by simp [mapSym, size, size_mapSym f e, size_mapSym f s]
  | .or e s => by simp [mapSym, size, size_mapSym f e, size_mapSym f s]

theorem path_mapSym (f : PatternSymbol → PatternSymbol) : ∀ (p : Pat) (b : Nat) (l : List Nat), Path (mapSym f p) b l ↔ Path p b l
  | .sym _, _, _ | .nil, _, _ | .none, _, _ => Iff.rfl
  | .opt p, b, l => by simp only [mapSym, Path, path_mapSym f p]
  | .rep p, b, l => by simp only [mapSym, Path, path_mapSym f p]
  | .alt p, b, l => by simp only [mapSym, Path, path_mapSym f p]
  | .cons e s, b, l => by simp only [mapSym, Path, path_mapSym f e, path_mapSym f s, size_mapSym]
  | .or e s, b, l => by simp only [mapSym, Path, path_mapSym f e, path_mapSym f s, size_mapSym]

section
variable {f : PatternSymbol → PatternSymbol} (hf : ∀ s, (f s).type = .valueSlot ↔ s.type = .valueSlot)
include hf

theorem altSize_mapSym : ∀ (p : Pat) (ts : Ty), AltSize (mapSym f p) ts ↔ AltSize p ts
  | .sym s, ts => by cases ts <;> simp only [mapSym, AltSize]
  | .opt p, ts => by
    cases ts <;> simp only [mapSym, AltSize, altSize_mapSym p]
    exact fitsTuple_congr hf (altSize_mapSym p) _
  | .rep p, ts => by
    cases ts <;> simp only [mapSym, AltSize]
    exact fitsTuple_congr hf (altSize_mapSym p) _
  | .alt p, ts => by cases ts <;> simp only [mapSym, AltSize, altSize_mapSym p]
  | .nil, ts => by cases ts <;> simp only [mapSym, AltSize]
  | .none, ts => by cases ts <;> simp only [mapSym, AltSize]
  | .cons e s, ts => by simp only [mapSym, AltSize, params_mapSym hf, altSize_mapSym e, altSize_mapSym s]
  | .or e s, ts => by
    cases ts <;> simp only [mapSym, AltSize, altSize_mapSym s]
    rw [fitsTuple_congr hf (altSize_mapSym e)]

omit hf in
theorem tupleValue_congr {R R' : Ty → Val → Prop} (h : ∀ ts v, R ts v ↔ R' ts v) (τ : Ty) (v : Val) : TupleValue R τ v ↔ TupleValue R' τ v := by
  cases τ <;> simp only [TupleValue, h]

theorem value_mapSym (good : Ty → Nat → Bool) : ∀ (p : Pat) (b : Nat) (ms : List MatchPos) (ts : Ty) (v : Val),
    Value good (mapSym f p) b ms ts v ↔ Value good p b ms ts v
  | .sym s, b, ms, ts, v => by cases ts <;> simp only [mapSym, Value]
  | .opt p, b, ms, ts, v => by
    cases ts <;> simp only [mapSym, Value, path_mapSym, value_mapSym good p]
    simp only [tupleValue_congr (value_mapSym good p b ms)]
  | .rep p, b, ms, ts, v => by
    cases ts <;> simp only [mapSym, Value, path_mapSym]
    simp only [tupleValue_congr (value_mapSym good p b _)]
  | .alt p, b, ms, ts, v => by cases ts <;> simp only [mapSym, Value, value_mapSym good p]
  | .nil, b, ms, ts, v => by cases ts <;> simp only [mapSym, Value]
  | .none, b, ms, ts, v => by cases ts <;> simp only [mapSym, Value]
  | .cons e s, b, ms, ts, v => by simp only [mapSym, Value, params_mapSym hf, size_mapSym, path_mapSym, value_mapSym good e, value_mapSym good s]
  | .or e s, b, ms, ts, v => by
    cases ts <;> simp only [mapSym, Value, size_mapSym, value_mapSym good s]
    simp only [tupleValue_congr (value_mapSym good e b ms)]

end

theorem symbols_seqOf (ps : List Pat) : symbols (seqOf ps) = ps.flatMap symbols := by
  induction ps with
  | nil => rfl
  | cons p ps ih => simp [seqOf, symbols, ih]

theorem symbols_altOf (ps : List Pat) : symbols (altOf ps) = ps.flatMap symbols := by
  induction ps with
  | nil => rfl
  | cons p ps ih => simp [altOf, symbols, ih]

theorem symbols_flat (σ : LeafKind → Str → PatternSymbol) : ∀ e : Expr,
    (flat σ e).1.flatMap symbols = (leaves e).map (fun x => σ x.1 x.2) ∧ (flat σ e).2.flatMap symbols = (leaves e).map (fun x => σ x.1 x.2)
  | .leaf k l => by simp [flat, leaves, symbols, symbols_seqOf]
  | .opt e => by simp [flat, leaves, symbols, symbols_seqOf, (symbols_flat σ e).1]
  | .rep e => by simp [flat, leaves, symbols, symbols_seqOf, (symbols_flat σ e).1]
  | .jux a b => by simp [flat, leaves, symbols_seqOf, (symbols_flat σ a).1, (symbols_flat σ b).1]
  | .alt a b => by simp [flat, leaves, symbols, symbols_altOf, (symbols_flat σ a).2, (symbols_flat σ b).2]

theorem symbols_patOf (σ : LeafKind → Str → PatternSymbol) (oe : Option Expr) : symbols (patOf σ oe) = (leavesOf oe).map (fun x => σ x.1 x.2) := by
  cases oe with
  | none => rfl
  | some e => simp only [patOf, pat, symbols_seqOf, leavesOf, (symbols_flat σ e).1]

/-- What symbols are looked up as, or `slotOrNot` when there is no such symbol. -/
def lookOr (r : Registry) (k : LeafKind) (l : Str) : PatternSymbol := (symbolOf r k l).getD (slotOrNot k l)

/-- Forget about everything but value slots. -/
def forget (s : PatternSymbol) : PatternSymbol := if s.type = .valueSlot then ⟨.valueSlot, 0⟩ else ⟨.keyword, 0⟩

theorem forget_slot (s : PatternSymbol) : (forget s).type = .valueSlot ↔ s.type = .valueSlot := by unfold forget; split <;> simp_all

theorem forget_look (r : Registry) (oe : Option Expr) : patOf slotOrNot oe = mapSym forget (patOf (lookOr r) oe) := by
  rw [← mapSym_pat]
  congr 1
  funext k l
  cases k with
  | slot => simp [symbolOf, slotOrNot, lookOr, forget]
  | keyword => exact (if_neg (getD_type (fun _ => by simp) (by simp [slotOrNot]))).symm
  | long => exact (if_neg (getD_type (fun _ => by simp) (by simp [slotOrNot]))).symm
  | short => exact (if_neg (getD_type (fun _ => by simp) (by simp [slotOrNot]))).symm

theorem ran_index {m m' : Matcher} {l : List (PatternSymbol × Nat)} (h : Ran m l m') : ∀ x ∈ l, x.2 < m.numArgs := by
  induction h with
  | start => simp
  | step _ h1 _ ih =>
    intro x hx
    rcases List.mem_append.1 hx with hx | hx
    · exact ih x hx
    · rw [List.mem_singleton.1 hx]; exact h1

section
variable {env : Env} {D : Cmd} {c : Ctx} {t : Tables} {m : Matcher}

theorem Ready.made (h : Ready env D c t m) : Made env D c m := by
  obtain ⟨ps, config, h1⟩ := h.built
  exact ⟨h.he, ⟨ps, t, config, h1⟩, h.options, h.patterns⟩

theorem receives (h : Ready env D c t m) {u : List (Tok × Nat)} {m' : Matcher} (hu : Tracks c m u m') {k : Nat} (hk : m'.isMatch = some (some k)) {d : PatternDecl}
    (hd : D.ps[k]? = some d) : ∃ info ms, c.patterns[k]? = some info ∧ info.action = d.action ∧ (info.completing = true ↔ d.attr.toNat % 2 = 1) ∧
      m'.backtrack = some ms ∧ ∃ descs, (∃ N, ∀ fuel, N ≤ fuel → generateDescs fuel t info.elemSeqIndex ms = some descs) ∧
        ∀ ts, d.action = .func ts → (∀ oe, D.es[k]? = some oe → ¬ AltSize (patOf slotOrNot oe) ts) → ∀ good,
          ∃ vs, Receives D good k u ts vs ∧ parseArgs t good c.args.length ts descs = some (vs, bads vs) := by
  obtain ⟨ps, config, hty, hps, hb, hc⟩ := h.built
  have hE := h.patterns
  rw [hps] at hE
  have hσ : Agrees c.reg (lookOr c.reg) := by intro k l s hs; simp [lookOr, hs]
  obtain ⟨hdesc, hclear, hne, hinfo⟩ := C88_patterns h.he hty hb h.options hE hσ
  have hne' : c.patterns.map PatternInfo.spec ≠ [] := by simpa using hne
  rw [← hps] at hinfo
  obtain ⟨info, hi, hact, hcomp⟩ := forall₂_get' hinfo hd
  obtain ⟨oe, hoe, hdecl⟩ := forall₂_get' h.patterns hd
  obtain ⟨l, hr, hul⟩ := hu
  have hs : (c.patterns.map PatternInfo.spec)[k]? = some info.spec := by simp [hi]
  have hp : (D.es.map (patOf (lookOr c.reg)))[k]? = some (patOf (lookOr c.reg) oe) := by simp [hoe]
  have hcl := hclear _ (List.mem_of_getElem? hp)
  obtain ⟨ms, ds, descs, h1, h2, h3, h4, h5, h6⟩ := C83_match hdesc hne' hc hr hk hs hp hcl
  refine ⟨info, _, hi, hact, hcomp, h4, descs, h6, ?_⟩
  intro ts hts hA good
  have hnum : m.numArgs = c.args.length := (constructed hdesc hne' hc).2.2.1
  have htyped : d.action.Typed := by
    rw [hps] at hd
    cases ps with
    | nil =>
      have := List.mem_of_getElem? hd
      simp only [withDefault, List.mem_singleton] at this
      subst this
      trivial
    | cons p ps => exact hty d (List.mem_of_getElem? hd)
  rw [hts] at htyped
  have henc : EncRoot t (patOf (lookOr c.reg) oe) info.spec.elemSeqIndex := described_at hdesc hs hp
  obtain ⟨b, h7, h8⟩ := C84_check henc htyped.1 htyped.2
  have hfit : Fits (patOf (lookOr c.reg) oe) ts := by
    have := hdecl.fits ts hts
    rw [forget_look c.reg, fits_mapSym forget_slot] at this
    exact this
  have ha : ¬ AltSize (patOf (lookOr c.reg) oe) ts := by
    have := hA oe hoe
    rw [forget_look c.reg, altSize_mapSym forget_slot] at this
    exact this
  obtain ⟨ms', vs, descs', h9, h10, h11, h12, h13, h14⟩ := C84_match_partial hdesc hne' hc hr hk hs hp hcl htyped.1 htyped.2 (by rw [h7, h8.2 hfit]) ha
    (by rw [← hnum]; exact ran_index hr) good
  rw [h4] at h9
  simp only [Option.some.injEq, List.append_cancel_right_eq] at h9
  subst h9
  have : descs' = descs := by
    obtain ⟨N, h6⟩ := h6
    obtain ⟨N', h13⟩ := h13
    have := h13 (max N N') (by omega)
    rw [h6 (max N N') (by omega)] at this
    cases this
    rfl
  subst this
  refine ⟨vs, ⟨oe, ms, hoe, ?_, ?_, ?_⟩, h14⟩
  · rw [forget_look c.reg, path_mapSym]
    exact deriv_path _ _ _ _ _ h3
  · have h15 : ∀ y ∈ leavesOf oe, Uses D.es y.1 y.2 := by
      intro y hy
      cases oe with
      | none => simp [leavesOf] at hy
      | some e => exact ⟨e, List.mem_of_getElem? hoe, mem_leaves.1 hy⟩
    have h16 : ∀ (u : List (Tok × Nat)) (l : List (PatternSymbol × Nat)) (ms : List MatchPos),
        List.Forall₂ (fun (x : Tok × Nat) (y : PatternSymbol × Nat) => symOf c.reg x.1 = some y.1 ∧ x.2 = y.2) u l →
        ms.map MatchPos.argIndex = l.map Prod.snd → Visits (patOf (lookOr c.reg) oe) (ms.map MatchPos.pos) (l.map Prod.fst) →
        List.Forall₂ (fun (x : Tok × Nat) (m : MatchPos) => m.argIndex = x.2 ∧ ∃ y, (leavesOf oe)[m.pos]? = some y ∧ D.Takes x.1 y.1 y.2) u ms := by
      intro u l ms h17
      induction h17 generalizing ms with
      | nil =>
        intro h18 _
        have : ms = [] := by simpa using h18
        subst this
        exact .nil
      | @cons x y u l h17 _ ih =>
        intro h18 h19
        cases ms with
        | nil => simp at h18
        | cons m0 ms =>
          simp only [List.map_cons, List.cons.injEq] at h18
          simp only [Visits, List.map_cons, List.cons.injEq, symbols_patOf] at h19
          refine .cons ⟨by rw [h18.1, h17.2], ?_⟩ (ih ms h18.2 (by simp only [Visits, symbols_patOf]; exact h19.2))
          have h20 := h19.1
          rw [List.getElem?_map, Option.map_eq_some_iff] at h20
          obtain ⟨z, h20, h21⟩ := h20
          have hu := h15 z (List.mem_of_getElem? h20)
          refine ⟨z, h20, (h.made.takes hu _).2 ?_⟩
          obtain ⟨s, hs⟩ := Option.ne_none_iff_exists'.1 (h.made.symbol hu)
          simp only [lookOr, hs, Option.getD_some] at h21
          rw [h17.1, hs, h21]
    exact h16 u l ms hul h1 h2
  · rw [forget_look c.reg, value_mapSym forget_slot]
    exact h12

end

end Verif.CliProc
