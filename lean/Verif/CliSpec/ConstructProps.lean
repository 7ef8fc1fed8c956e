import Verif.CliSpec.ConstructMain
/-!
C88: specifications of command-line processors.
-/
namespace Verif.CliSpec

open Verif.CliPattern

variable {env : Env}

/-- `SpecInv R s ds es`: The patterns `ds`, which are the expressions `es`, have been added. -/
structure SpecInv (R : Registry) (s : SpecState) (ds : List PatternDecl) (es : List (Option Expr)) : Prop where
  names : NameInv R s.reg (Uses es)
  le : R.Le s.reg
  infos : List.Forall₂ (fun (d : PatternDecl) (p : PatternInfo) => p.action = d.action ∧ (p.completing = true ↔ d.attr.toNat % 2 = 1)) ds s.patterns
  enc : ∀ t σ, Below s.t t → Agrees s.reg σ → List.Forall₂ (fun (p : PatternInfo) oe => EncRoot t (patOf σ oe) p.elemSeqIndex) s.patterns es
  clear : ∀ oe ∈ es, ∀ σ, Clear (patOf σ oe)

theorem SpecInv.empty {R : Registry} (h : NameInv R R (fun _ _ => False)) (t : Tables) : SpecInv R ⟨R, t, []⟩ [] [] where
  names := h.congr (by simp [Uses])
  le := Registry.Le.refl _
  infos := .nil
  enc := fun _ _ _ _ => .nil
  clear := by simp

theorem attr_unknown (a : BitVec 32) : a &&& ~~~ 1 ≠ 0 ↔ 2 ≤ a.toNat := by
  constructor
  · intro h
    by_contra hn
    apply h
    have ha : a = BitVec.ofNat 32 a.toNat := by simp
    generalize a.toNat = n at ha hn
    subst ha
    have : n < 2 := by omega
    interval_cases n <;> decide
  · intro h h0
    obtain ⟨i, hi, hb⟩ := Nat.exists_ge_and_testBit_of_ge_two_pow (n := 1) (x := a.toNat) (by simpa using h)
    have h1 : (a &&& ~~~ 1).getLsbD i = false := by rw [h0]; simp
    have hi2 : i < 32 := by
      by_contra hc
      have := Nat.testBit_lt_two_pow (x := a.toNat) (i := i) (lt_of_lt_of_le a.isLt (Nat.pow_le_pow_right (by omega) (by omega)))
      rw [hb] at this
      cases this
    have h2 : a.getLsbD i = true := hb
    have h3 : (1 : BitVec 32).getLsbD i = false := by
      interval_cases i <;> decide
    rw [BitVec.getLsbD_and, BitVec.getLsbD_not, h2, h3] at h1
    simp [hi2] at h1

/-- The outcome of the addition of a pattern. -/
theorem addPattern_main {t : Tables} {oe : Option Expr} {i : Nat} {r : Registry} (henc : ∀ σ, Agrees r σ → EncRoot t (patOf σ oe) i)
    (ps : List PatternInfo) (attr : BitVec 32) {action : PatternAction} (hty : action.Typed) :
    (addPattern ps attr i action t = some (.error .badAttr) ∧ 2 ≤ attr.toNat) ∨
    (addPattern ps attr i action t = some (.error .funcMismatch) ∧ ∃ ts, action = .func ts ∧ ¬ Fits (patOf slotOrNot oe) ts) ∨
    ∃ b, addPattern ps attr i action t = some (.ok (ps ++ [⟨b, i, action⟩])) ∧ attr.toNat < 2 ∧ (b = true ↔ attr.toNat % 2 = 1) ∧
      ∀ ts, action = .func ts → Fits (patOf slotOrNot oe) ts := by
  by_cases ha : attr &&& ~~~ 1 ≠ 0
  · exact Or.inl ⟨by simp only [addPattern, if_pos ha], (attr_unknown attr).1 ha⟩
  have ha' : attr.toNat < 2 := by have := (attr_unknown attr).not.1 ha; omega
  right
  have hok : ∀ (b : Bool), (if !action.isDeleg then action.check t i else some true) = some b →
      addPattern ps attr i action t = if b then some (.ok (ps ++ [⟨decide (attr &&& 1 ≠ 0), i, action⟩])) else some (.error .funcMismatch) := by
    intro b hb
    simp only [addPattern, if_neg ha, hb, Option.bind_eq_bind, Option.bind_some]
    cases b <;> rfl
  have hb1 : decide (attr &&& 1 ≠ 0) = true ↔ attr.toNat % 2 = 1 := by
    rw [decide_eq_true_iff]
    exact attr_short attr
  cases action with
  | null => exact Or.inr ⟨_, (hok true rfl).trans (if_pos rfl), ha', hb1, by simp⟩
  | deleg => exact Or.inr ⟨_, (hok true rfl).trans (if_pos rfl), ha', hb1, by simp⟩
  | func ts =>
    obtain ⟨σ, hσ, hfit⟩ := fits_any (r := r) oe ts
    obtain ⟨b, h1, h2⟩ := C84_check (henc σ hσ) hty.1 hty.2
    have h3 := hok b h1
    cases b with
    | false =>
      refine Or.inl ⟨h3, ts, rfl, fun hf => ?_⟩
      have := h2.2 (hfit.2 hf)
      cases this
    | true =>
      refine Or.inr ⟨_, h3, ha', hb1, ?_⟩
      intro ts' hts
      cases hts
      exact hfit.1 (h2.1 rfl)

/-- Outcomes that do not depend on limits, if they are high enough. -/
def Eventually {α : Type} (F : Nat → Option α) (a : α) : Prop := ∃ n, ∀ fuel, n ≤ fuel → F fuel = some a

theorem Eventually.unique {α : Type} {F : Nat → Option α} {a b : α} (h : Eventually F a) (h' : Eventually F b) : a = b := by
  obtain ⟨n, hn⟩ := h
  obtain ⟨m, hm⟩ := h'
  exact Option.some.inj ((hn (n + m) (by omega)).symm.trans (hm (n + m) (by omega)))

/-- What is true of a declaration of a pattern when an error is reported. -/
def PatternErrorTrue (env : Env) (ds : List OptionDecl) (os : List (List Form × ArgSpec)) (i : Nat) (d : PatternDecl) (err : SpecError) : Prop :=
  err.patternIndex = some i ∧ ∀ ps : List PatternDecl, ps[i]? = some d → SpecErrorTrue env ds os ps err

theorem uses_append {es : List (Option Expr)} {oe : Option Expr} {k : LeafKind} {l : Str} :
    Uses (es ++ [oe]) k l ↔ Uses es k l ∨ ∃ e, oe = some e ∧ Within (.leaf k l) e := by
  simp only [Uses, List.mem_append, List.mem_singleton]
  constructor
  · rintro ⟨e, h | h, hw⟩
    · exact Or.inl ⟨e, h, hw⟩
    · exact Or.inr ⟨e, h.symm, hw⟩
  · rintro (⟨e, h, hw⟩ | ⟨e, h, hw⟩)
    · exact ⟨e, Or.inl h, hw⟩
    · exact ⟨e, Or.inr h.symm, hw⟩

theorem forall₂_snoc {α β : Type} {P : α → β → Prop} {xs : List α} {ys : List β} (h : List.Forall₂ P xs ys) {x : α} {y : β} (hxy : P x y) :
    List.Forall₂ P (xs ++ [x]) (ys ++ [y]) := List.rel_append h (.cons hxy .nil)

theorem SpecInv.step {R : Registry} {s : SpecState} {ds : List PatternDecl} {es : List (Option Expr)} (h : SpecInv R s ds es) {oe : Option Expr}
    {reg' : Registry} {t' : Tables} {i : Nat} (hn : NameInv R reg' (Uses (es ++ [oe]))) (hle : s.reg.Le reg') (hb : Below s.t t')
    (henc : ∀ t σ, Below t' t → Agrees reg' σ → EncRoot t (patOf σ oe) i) (hc : ∀ σ, Clear (patOf σ oe)) {d : PatternDecl} {b : Bool}
    (hbb : b = true ↔ d.attr.toNat % 2 = 1) : SpecInv R ⟨reg', t', s.patterns ++ [⟨b, i, d.action⟩]⟩ (ds ++ [d]) (es ++ [oe]) where
  names := hn
  le := h.le.trans hle
  infos := forall₂_snoc h.infos ⟨rfl, hbb⟩
  enc := fun t σ ht hσ => forall₂_snoc (h.enc t σ (hb.trans ht) (hσ.mono hle)) (henc t σ ht hσ)
  clear := by
    intro oe' hm
    rcases List.mem_append.1 hm with hm | hm
    · exact h.clear oe' hm
    · rw [List.mem_singleton.1 hm]; exact hc

/-- The outcome for one pattern. -/
theorem declarePattern_main (he : EnvOk env) {ds : List OptionDecl} {os : List (List Form × ArgSpec)} {R : Registry} (hi : RegInv ds os R)
    {s : SpecState} {pds : List PatternDecl} {es : List (Option Expr)} (h : SpecInv R s pds es) {d : PatternDecl} (hty : d.action.Typed) (index : Nat) :
    (∃ err, Eventually (fun fuel => declarePattern env fuel s index d) (.error err) ∧ PatternErrorTrue env ds os index d err) ∨
    ∃ s' oe, Eventually (fun fuel => declarePattern env fuel s index d) (.ok s') ∧ SpecInv R s' (pds ++ [d]) (es ++ [oe]) ∧
      PatternDeclared env ds os d oe := by
  have hfinish : ∀ {oe : Option Expr} {node : Option Nat} {nodes : List Node} {reg' : Registry} {t' : Tables} {i : Nat},
      Parses env d.pattern d.action.isDeleg (.ok (node, nodes)) → Records nodes node index s.reg s.t (.ok (reg', t', i)) →
      Means env d.pattern oe → (d.action.isDeleg = true → ∀ e, oe = some e → ¬ HasSlot e) → (∀ e err, oe = some e → ¬ Flawed ds os e err) →
      NameInv R reg' (Uses (es ++ [oe])) → s.reg.Le reg' → Below s.t t' →
      (∀ t σ, Below t' t → Agrees reg' σ → EncRoot t (patOf σ oe) i) → (∀ σ, Clear (patOf σ oe)) →
      (∃ err, Eventually (fun fuel => declarePattern env fuel s index d) (.error err) ∧ PatternErrorTrue env ds os index d err) ∨
      ∃ s' oe, Eventually (fun fuel => declarePattern env fuel s index d) (.ok s') ∧ SpecInv R s' (pds ++ [d]) (es ++ [oe]) ∧
        PatternDeclared env ds os d oe := by
    intro oe node nodes reg' t' i ⟨n, hn⟩ ⟨m, hm⟩ hmean hslot hflaw hnames hle hb henc hc
    have key : ∀ {X}, addPattern s.patterns d.attr i d.action t' = some X → Eventually (fun fuel => declarePattern env fuel s index d)
        (match X with | .error err => .error (.pattern index err) | .ok patterns => .ok ⟨reg', t', patterns⟩) := by
      intro X hX
      refine ⟨n + m, fun fuel hf => ?_⟩
      simp only [declarePattern, hn fuel (by omega), hm fuel (by omega), Option.bind_eq_bind, Option.bind_some, hX]
      cases X <;> rfl
    rcases addPattern_main (henc t' · (Below.refl _)) s.patterns d.attr hty with ⟨h1, h2⟩ | ⟨h1, ts, h2, h3⟩ | ⟨b, h1, h2, h3, h4⟩
    · exact Or.inl ⟨_, key h1, rfl, fun ps hp => ⟨d, hp, h2⟩⟩
    · exact Or.inl ⟨_, key h1, rfl, fun ps hp => ⟨d, oe, ts, hp, hmean, h2, h3⟩⟩
    · exact Or.inr ⟨_, oe, key h1, h.step hnames hle hb henc hc h3, hmean, hslot, hflaw, h2, h4⟩
  rcases parse_outcome he d.pattern d.action.isDeleg with ⟨err, ⟨n, hn⟩, h1⟩ | ⟨nodes, h1, h2⟩ | ⟨e, i, nodes, h1, h2, h3, h4, h5⟩
  · refine Or.inl ⟨.parse index err, ⟨n, fun fuel hf => ?_⟩, rfl, fun ps hp => ⟨d, hp, h1⟩⟩
    simp only [declarePattern, hn fuel hf]
  · obtain ⟨t', j, h3, h4, h5⟩ := C85_empty nodes index s.reg s.t
    refine hfinish h1 h3 h2 (by simp) (by simp) (h.names.congr fun k l => ?_) (Registry.Le.refl _) h4 (fun t σ ht _ => h5 t ht) fun _ => trivial
    rw [uses_append]
    simp
  · rcases record_main h4 h5 h.names.ok index s.t with ⟨err, h6, h7⟩ | ⟨reg', t', j, h6, h7, _⟩
    · refine Or.inl ⟨.record index err, ?_, rfl, fun ps hp => ⟨d, e, hp, h2, (flawed_iff hi h.le h5 err).1 h7⟩⟩
      obtain ⟨n, hn⟩ := h1
      obtain ⟨m, hm⟩ := h6
      refine ⟨n + m, fun fuel hf => ?_⟩
      simp only [declarePattern, hn fuel (by omega), hm fuel (by omega), Option.bind_eq_bind, Option.bind_some]
    · refine hfinish h1 h6 h2 (fun hd e' he' => by cases he'; exact h3 hd) ?_ ?_ h7.le h7.below h7.root (C85_clear h4 h5 h.names.ok h6)
      · rintro e' err he'
        cases he'
        rw [← flawed_iff hi h.le h5 err]
        exact (C85_accepts h4 h5 h.names.ok index s.t).1 ⟨_, h6⟩ err
      · have hlex : ∀ k l, (k, l) ∈ leaves e → LexOk (.leaf k l) := fun k l hm => lexOk_leaf h5 (mem_leaves.1 hm)
        refine (h.names.leaves (leaves e) (fun l hm => hlex _ l hm) (fun l hm => hlex _ l hm) h7.trace).congr fun k l => ?_
        rw [uses_append, mem_leaves]
        simp

/-- The outcome for a list of patterns. -/
theorem declarePatterns_main (he : EnvOk env) {ds : List OptionDecl} {os : List (List Form × ArgSpec)} {R : Registry} (hi : RegInv ds os R) :
    ∀ (ps : List PatternDecl) {s : SpecState} {pds : List PatternDecl} {es : List (Option Expr)}, SpecInv R s pds es → (∀ d ∈ ps, d.action.Typed) →
    (∃ err i d es', Eventually (fun fuel => declarePatterns env fuel s pds.length ps) (.error err) ∧ ps[i]? = some d ∧
      List.Forall₂ (PatternDeclared env ds os) (ps.take i) es' ∧ PatternErrorTrue env ds os (pds.length + i) d err) ∨
    ∃ s' es', Eventually (fun fuel => declarePatterns env fuel s pds.length ps) (.ok s') ∧ SpecInv R s' (pds ++ ps) (es ++ es') ∧
      List.Forall₂ (PatternDeclared env ds os) ps es'
  | [], s, pds, es, h, _ => Or.inr ⟨s, [], ⟨0, fun _ _ => rfl⟩, by simpa using h, .nil⟩
  | d :: ps, s, pds, es, h, hty => by
    have hlen : pds.length = s.patterns.length := h.infos.length_eq
    rcases declarePattern_main he hi h (hty d (by simp)) pds.length with ⟨err, ⟨n, hn⟩, h1⟩ | ⟨s', oe, ⟨n, hn⟩, h1, h2⟩
    · refine Or.inl ⟨err, 0, d, [], ⟨n, fun fuel hf => ?_⟩, rfl, .nil, h1⟩
      have := hn fuel hf
      simp only at this
      simp only [declarePatterns, hlen, if_true, Option.bind_eq_bind]
      rw [← hlen, this]
      rfl
    · have hstep : ∀ fuel, n ≤ fuel → declarePatterns env fuel s pds.length (d :: ps) = declarePatterns env fuel s' (pds.length + 1) ps := by
        intro fuel hf
        have := hn fuel hf
        simp only at this
        simp only [declarePatterns, hlen, if_true, Option.bind_eq_bind]
        rw [← hlen, this]
        rfl
      have hl : (pds ++ [d]).length = pds.length + 1 := by simp
      rcases declarePatterns_main he hi ps h1 (fun d hd => hty d (by simp [hd])) with ⟨err, i, d', es', ⟨m, hm⟩, h3, h4, h5⟩ | ⟨s'', es', ⟨m, hm⟩, h3, h4⟩
      · rw [hl] at h5 hm
        refine Or.inl ⟨err, i + 1, d', oe :: es', ⟨n + m, fun fuel hf => ?_⟩, h3, .cons h2 h4, ?_⟩
        · simp only [hstep fuel (by omega)]
          exact hm fuel (by omega)
        · rwa [show pds.length + (i + 1) = pds.length + 1 + i by omega]
      · rw [hl] at hm
        refine Or.inr ⟨s'', oe :: es', ⟨n + m, fun fuel hf => ?_⟩, by simpa using h3, .cons h2 h4⟩
        simp only [hstep fuel (by omega)]
        exact hm fuel (by omega)

theorem PatternDeclared.no_error (he : EnvOk env) {ds : List OptionDecl} {os : List (List Form × ArgSpec)} {d : PatternDecl} {oe : Option Expr}
    (h : PatternDeclared env ds os d oe) {ps : List PatternDecl} {i : Nat} (hd : ps[i]? = some d) {err : SpecError} (hi : err.patternIndex = some i) :
    ¬ SpecErrorTrue env ds os ps err := by
  intro hE
  cases err with
  | options err => cases hi
  | parse j err =>
    cases hi
    obtain ⟨d', hd', h1⟩ := hE
    cases hd.symm.trans hd'
    exact h1 ⟨oe, h.means, h.slots⟩
  | record j err =>
    cases hi
    obtain ⟨d', e, hd', h1, h2⟩ := hE
    cases hd.symm.trans hd'
    exact h.sound e err (h.means.unique he h1) h2
  | pattern j err =>
    cases hi
    cases err with
    | badAttr =>
      obtain ⟨d', hd', h1⟩ := hE
      cases hd.symm.trans hd'
      have := h.attr
      omega
    | funcMismatch =>
      obtain ⟨d', oe', ts, hd', h1, h2, h3⟩ := hE
      cases hd.symm.trans hd'
      cases h.means.unique he h1
      exact h3 (h.fits ts h2)

theorem default_declared (ds : List OptionDecl) (os : List (List Form × ArgSpec)) : PatternDeclared env ds os defaultPattern none where
  means := .done (t := ⟨.endOfInput, [], false⟩) ⟨0, rfl, rfl, rfl, rfl⟩ rfl
  slots := by simp
  sound := by simp
  attr := by decide
  fits := by simp [defaultPattern]

theorem has_iff {ds : List OptionDecl} {os : List (List Form × ArgSpec)} {R : Registry} (hi : RegInv ds os R) {i : Nat} {n : OptName} :
    Has os i n ↔ protoNamed R n = some i := (hi.named n i).symm

theorem construct_main (he : EnvOk env) (ds : List OptionDecl) {ps : List PatternDecl} (hty : ∀ d ∈ ps, d.action.Typed) :
    (∃ err, Builds env ds ps (.error (.options err)) ∧ Declares env ds (.error err)) ∨
    ∃ os R, Declares env ds (.ok R) ∧ AllDeclared env ds os ∧ RegInv ds os R ∧
      ((∃ err i d es, Builds env ds ps (.error err) ∧ ps[i]? = some d ∧ List.Forall₂ (PatternDeclared env ds os) (ps.take i) es ∧
          PatternErrorTrue env ds os i d err) ∨
       ∃ s es, Builds env ds ps (.ok s) ∧ SpecInv R s (withDefault ps) es ∧ List.Forall₂ (PatternDeclared env ds os) (withDefault ps) es) := by
  rcases declare_main he ds with ⟨os, R, hD, hi, hA⟩ | ⟨err, hD, _⟩
  · obtain ⟨h1, h2, h3⟩ := C87_ready he hD
    have hinv : SpecInv R ⟨R, ⟨[], [], [], []⟩, []⟩ [] [] := SpecInv.empty (NameInv.base h1 hi.keywordMap h3) _
    refine Or.inr ⟨os, R, hD, hA, hi, ?_⟩
    obtain ⟨n, hn⟩ := hD
    have hc : ∀ fuel, n ≤ fuel → ∀ X, declarePatterns env fuel ⟨R, ⟨[], [], [], []⟩, []⟩ 0 ps = some X → construct env fuel ds ps =
        match X with
        | .error err => some (.error err)
        | .ok s => if s.patterns.length = 0 then declarePattern env fuel s 0 defaultPattern else some (.ok s) := by
      intro fuel hf X hX
      simp only [construct, hn fuel hf, hX, Option.bind_eq_bind, Option.bind_some]
      cases X <;> rfl
    rcases declarePatterns_main he hi ps hinv hty with ⟨err, i, d, es, ⟨m, hm⟩, h4, h5, h6⟩ | ⟨s, es, ⟨m, hm⟩, h4, h5⟩
    · refine Or.inl ⟨err, i, d, es, ⟨n + m, fun fuel hf => hc fuel (by omega) _ (hm fuel (by omega))⟩, h4, h5, by simpa using h6⟩
    · right
      simp only [List.nil_append] at h4
      have hlen : s.patterns.length = ps.length := h4.infos.length_eq.symm
      cases ps with
      | nil =>
        cases h5
        rcases declarePattern_main he hi h4 (d := defaultPattern) trivial 0 with ⟨err, h6, h7, h8⟩ | ⟨s', oe, ⟨k, hk⟩, h7, h8⟩
        · exact absurd (h8 [defaultPattern] rfl) ((default_declared ds os).no_error he rfl h7)
        · refine ⟨s', [oe], ⟨n + m + k, fun fuel hf => ?_⟩, h7, .cons h8 .nil⟩
          rw [hc fuel (by omega) _ (hm fuel (by omega))]
          simp only [hlen, List.length_nil, if_true]
          exact hk fuel (by omega)
      | cons d ps =>
        refine ⟨s, es, ⟨n + m, fun fuel hf => ?_⟩, h4, h5⟩
        rw [hc fuel (by omega) _ (hm fuel (by omega))]
        simp [hlen]
  · refine Or.inl ⟨err, ?_, hD⟩
    obtain ⟨n, hn⟩ := hD
    refine ⟨n, fun fuel hf => ?_⟩
    simp only [construct, hn fuel hf, Option.bind_eq_bind, Option.bind_some]

theorem Builds.unique {ds : List OptionDecl} {ps : List PatternDecl} {R R' : Except SpecError SpecState} (h : Builds env ds ps R)
    (h' : Builds env ds ps R') : R = R' := Eventually.unique (F := fun fuel => construct env fuel ds ps) h h'

theorem PatternDeclared.unique (he : EnvOk env) {ds : List OptionDecl} {os : List (List Form × ArgSpec)} {ps : List PatternDecl}
    {es es' : List (Option Expr)} (h : List.Forall₂ (PatternDeclared env ds os) ps es) (h' : List.Forall₂ (PatternDeclared env ds os) ps es') :
    es = es' := by
  induction h generalizing es' with
  | nil => cases h'; rfl
  | cons h1 _ ih =>
    cases h' with
    | cons h2 h3 => rw [h1.means.unique he h2.means, ih h3]

/-- C88: the construction of a command-line processor always leads to success or to an error message; nothing else goes wrong. -/
theorem C88_total (he : EnvOk env) (ds : List OptionDecl) {ps : List PatternDecl} (hty : ∀ d ∈ ps, d.action.Typed) : ∃ R, Builds env ds ps R := by
  rcases construct_main he ds hty with ⟨_, h, _⟩ | ⟨_, _, _, _, _, ⟨_, _, _, _, h, _⟩ | ⟨_, _, h, _⟩⟩ <;> exact ⟨_, h⟩

/-- C88: the specification is accepted precisely when there is nothing wrong with any of the options or patterns. -/
theorem C88_accepts (he : EnvOk env) (ds : List OptionDecl) {ps : List PatternDecl} (hty : ∀ d ∈ ps, d.action.Typed) :
    (∃ s, Builds env ds ps (.ok s)) ↔ ∃ os es, AllDeclared env ds os ∧ List.Forall₂ (PatternDeclared env ds os) ps es := by
  rcases construct_main he ds hty with ⟨err, h, hD⟩ | ⟨os, R, hD, hA, hi, ⟨err, i, d, es, h, hd, h2, h3, h4⟩ | ⟨s, es, h, h1, h2⟩⟩
  · constructor
    · rintro ⟨s, h'⟩; cases h.unique h'
    · rintro ⟨os, _, hA, _⟩
      obtain ⟨R, hR⟩ := (C87_accepts he ds).2 ⟨os, hA⟩
      cases hD.unique hR
  · constructor
    · rintro ⟨s, h'⟩; cases h.unique h'
    · rintro ⟨os', es', hA', h5⟩
      cases AllDeclared.unique he hA.1 hA'.1
      obtain ⟨h6, h7⟩ := List.forall₂_iff_get.1 h5
      have hlt := (List.getElem?_eq_some_iff.1 hd).1
      have := h7 i hlt (h6 ▸ hlt)
      simp only [List.get_eq_getElem] at this
      rw [(List.getElem?_eq_some_iff.1 hd).2] at this
      exact absurd (h4 ps hd) (this.no_error he hd h3)
  · refine ⟨fun _ => ⟨os, ?_⟩, fun _ => ⟨s, h⟩⟩
    cases ps with
    | nil => exact ⟨[], hA, .nil⟩
    | cons d ps => exact ⟨es, hA, h2⟩

/-- C88: what is reported when a specification is rejected is true, and it is about the first option or pattern that is rejected. -/
theorem C88_errors (he : EnvOk env) {ds : List OptionDecl} {ps : List PatternDecl} (hty : ∀ d ∈ ps, d.action.Typed) {err : SpecError}
    (h : Builds env ds ps (.error err)) :
    (∃ e, err = .options e ∧ DeclErrorTrue env ds e ∧ ∃ os, AllDeclared env (ds.take e.index) os) ∨
    ∃ os i es, AllDeclared env ds os ∧ err.patternIndex = some i ∧ i < ps.length ∧ SpecErrorTrue env ds os ps err ∧
      List.Forall₂ (PatternDeclared env ds os) (ps.take i) es := by
  rcases construct_main he ds hty with ⟨err', h', hD⟩ | ⟨os, R, hD, hA, hi, ⟨err', i, d, es, h', hd, h2, h3, h4⟩ | ⟨s, es, h', h1, h2⟩⟩
  · cases h.unique h'
    obtain ⟨h1, _, h2⟩ := C87_errors he hD
    exact Or.inl ⟨err', rfl, h1, h2⟩
  · cases h.unique h'
    exact Or.inr ⟨os, i, es, hA, h3, (List.getElem?_eq_some_iff.1 hd).1, h4 ps hd, h2⟩
  · cases h.unique h'

theorem built (he : EnvOk env) {ds : List OptionDecl} {ps : List PatternDecl} (hty : ∀ d ∈ ps, d.action.Typed) {s : SpecState}
    (h : Builds env ds ps (.ok s)) {os : List (List Form × ArgSpec)} (hA : AllDeclared env ds os) {es : List (Option Expr)}
    (hE : List.Forall₂ (PatternDeclared env ds os) (withDefault ps) es) : ∃ R, RegInv ds os R ∧ SpecInv R s (withDefault ps) es := by
  rcases construct_main he ds hty with ⟨err', h', hD⟩ | ⟨os', R, hD, hA', hi, ⟨err', i, d, es, h', hd, h2, h3, h4⟩ | ⟨s, es', h', h1, h2⟩⟩
  · cases h.unique h'
  · cases h.unique h'
  · cases h.unique h'
    cases AllDeclared.unique he hA.1 hA'.1
    cases PatternDeclared.unique he hE h2
    exact ⟨R, hi, h1⟩

/-- C88: if the specification is accepted, the pattern structure is that of the expressions, and what is matched by any of them has only one
structure. If no patterns are specified, there is one, which is empty. -/
theorem C88_patterns (he : EnvOk env) {ds : List OptionDecl} {ps : List PatternDecl} (hty : ∀ d ∈ ps, d.action.Typed) {s : SpecState}
    (h : Builds env ds ps (.ok s)) {os : List (List Form × ArgSpec)} (hA : AllDeclared env ds os) {es : List (Option Expr)}
    (hE : List.Forall₂ (PatternDeclared env ds os) (withDefault ps) es) {σ : LeafKind → Str → PatternSymbol} (hσ : Agrees s.reg σ) :
    Described s.t (s.patterns.map PatternInfo.spec) (es.map (patOf σ)) ∧ (∀ p ∈ es.map (patOf σ), Clear p) ∧ s.patterns ≠ [] ∧
    List.Forall₂ (fun (d : PatternDecl) (p : PatternInfo) => p.action = d.action ∧ (p.completing = true ↔ d.attr.toNat % 2 = 1)) (withDefault ps)
      s.patterns := by
  obtain ⟨R, hi, h1⟩ := built he hty h hA hE
  refine ⟨?_, ?_, ?_, h1.infos⟩
  · rw [Described, List.forall₂_map_left_iff, List.forall₂_map_right_iff]
    exact h1.enc s.t σ (Below.refl _) hσ
  · intro p hp
    obtain ⟨oe, hoe, rfl⟩ := List.mem_map.1 hp
    exact h1.clear oe hoe σ
  · intro hn
    have := h1.infos.length_eq
    rw [hn] at this
    cases ps <;> simp [withDefault] at this

/-- C88: the names by which keywords and options are recognized. Two names are for the same option only if they are declared to be. -/
theorem C88_names (he : EnvOk env) {ds : List OptionDecl} {ps : List PatternDecl} (hty : ∀ d ∈ ps, d.action.Typed) {s : SpecState}
    (h : Builds env ds ps (.ok s)) {os : List (List Form × ArgSpec)} (hA : AllDeclared env ds os) {es : List (Option Expr)}
    (hE : List.Forall₂ (PatternDeclared env ds os) (withDefault ps) es) :
    (∀ l, s.reg.findKeyword l ≠ none ↔ Uses es .keyword l) ∧
    (∀ l l' i, s.reg.findKeyword l = some i → s.reg.findKeyword l' = some i → l = l') ∧
    (∀ n, protoNamed s.reg n ≠ none ↔ (∃ i, Has os i n) ∨ ∃ k l, Uses es k l ∧ leafName k l = some n) ∧
    (∀ n n' i, protoNamed s.reg n = some i → (protoNamed s.reg n' = some i ↔ n = n' ∨ ∃ j, Has os j n ∧ Has os j n')) ∧
    (∀ n j, optionNamed s.reg n = some j ↔ Has os j n) := by
  obtain ⟨R, hi, h1⟩ := built he hty h hA hE
  have hn := h1.names
  refine ⟨hn.keyword, ?_, ?_, ?_, ?_⟩
  · intro l l' i h2 h3
    have h4 := hn.ok.keyword l i h2
    rw [hn.ok.keyword l' i h3] at h4
    cases h4
    rfl
  · intro n
    rw [hn.found]
    simp only [has_iff hi, Option.ne_none_iff_exists']
  · intro n n' i h2
    constructor
    · intro h3
      rcases hn.same n n' i h2 h3 with h4 | h4
      · exact Or.inl h4
      · exact Or.inr ⟨i, (has_iff hi).2 (hn.old n i h2 h4), (has_iff hi).2 (hn.old n' i h3 h4)⟩
    · rintro (rfl | ⟨j, h3, h4⟩)
      · exact h2
      · rw [hn.kept n j ((has_iff hi).1 h3)] at h2
        cases h2
        exact hn.kept n' _ ((has_iff hi).1 h4)
  · intro n j
    rw [has_iff hi]
    have hx : optionNamed s.reg n = (protoNamed s.reg n).bind fun i => protoIdx R i := by
      simp only [optionNamed]
      congr 1
      funext i
      exact hn.index i
    rw [hx, Option.bind_eq_some_iff]
    constructor
    · rintro ⟨i, h2, h3⟩
      have h4 : i < R.protos.length := by
        by_contra hc
        have : R.protos[i]? = none := by simp; omega
        simp [protoIdx, this] at h3
      have h5 := hn.old n i h2 h4
      simp only [protoIdx, hi.proto h5, Option.bind_some, Option.some.injEq] at h3
      rw [← h3]; exact h5
    · intro h2
      exact ⟨j, hn.kept n j h2, by simp [protoIdx, hi.proto h2]⟩

/-- C88: the options are as declared. Those that are used in patterns are marked, and they are regular options that take no argument. -/
theorem C88_options (he : EnvOk env) {ds : List OptionDecl} {ps : List PatternDecl} (hty : ∀ d ∈ ps, d.action.Typed) {s : SpecState}
    (h : Builds env ds ps (.ok s)) {os : List (List Form × ArgSpec)} (hA : AllDeclared env ds os) {es : List (Option Expr)}
    (hE : List.Forall₂ (PatternDeclared env ds os) (withDefault ps) es) :
    (s.reg.options.length = ds.length ∧ ∀ (i : Nat) (d : OptionDecl) (p : List Form × ArgSpec), ds[i]? = some d → os[i]? = some p →
      ∃ o, s.reg.options[i]? = some o ∧ o.arg = p.2 ∧ (o.shortCircuit = true ↔ d.shortCircuit) ∧ (o.furtherArgs = true ↔ d.furtherArgs) ∧
        s.reg.getOptionForms o.formsOffset o.formsSize = some p.1) ∧
    (∀ (n : OptName) (i : Nat), protoNamed s.reg n = some i → ∃ p, s.reg.protos[i]? = some p ∧ (p.patternIndex ≠ none ↔ OptUsed os es n)) ∧
    ∀ (n : OptName) (j : Nat) (d : OptionDecl) (p : List Form × ArgSpec), OptUsed os es n → Has os j n → ds[j]? = some d → os[j]? = some p →
      p.2.allow = false ∧ ¬ d.shortCircuit ∧ ¬ d.furtherArgs := by
  obtain ⟨R, hi, h1⟩ := built he hty h hA hE
  have hn := h1.names
  obtain ⟨_, _, _, hsame, hopt⟩ := C88_names he hty h hA hE
  have hops : ∀ (i : Nat) (d : OptionDecl) (p : List Form × ArgSpec), ds[i]? = some d → os[i]? = some p →
      ∃ o, s.reg.options[i]? = some o ∧ o.arg = p.2 ∧ (o.shortCircuit = true ↔ d.shortCircuit) ∧ (o.furtherArgs = true ↔ d.furtherArgs) ∧
        s.reg.getOptionForms o.formsOffset o.formsSize = some p.1 := by
    intro i d p hd hp
    obtain ⟨o, h2, h3, h4, h5, h6⟩ := hi.options i d p hd hp
    refine ⟨o, by rw [hn.options]; exact h2, h3, h4, h5, ?_⟩
    simp only [Registry.getOptionForms, hn.forms] at *
    exact h6
  refine ⟨⟨by rw [hn.options, hi.len, hi.declared], hops⟩, ?_, ?_⟩
  · intro n i h2
    have hlt := hn.ok.named h2
    refine ⟨s.reg.protos[i], List.getElem?_eq_getElem hlt, ?_⟩
    rw [hn.marked i _ (List.getElem?_eq_getElem hlt)]
    constructor
    · rintro ⟨k, l, n', h3, h4, h5⟩
      rcases (hsame n n' i h2).1 h5 with rfl | h6
      · exact ⟨k, l, n, h3, h4, Or.inl rfl⟩
      · exact ⟨k, l, n', h3, h4, Or.inr h6⟩
    · rintro ⟨k, l, n', h3, h4, h5⟩
      refine ⟨k, l, n', h3, h4, (hsame n n' i h2).2 ?_⟩
      rcases h5 with rfl | h5
      · exact Or.inl rfl
      · exact Or.inr h5
  · rintro n j d p ⟨k, l, n', h3, h4, h5⟩ h6 hd hp
    have h7 : Has os j n' := by
      rcases h5 with rfl | ⟨j', h5, h5'⟩
      · exact h6
      · have := (has_iff hi).1 h5
        rw [(has_iff hi).1 h6] at this
        cases this
        exact h5'
    obtain ⟨i, h8, h9⟩ := Option.bind_eq_some_iff.1 ((hopt n' j).2 h7)
    obtain ⟨o, h10, h11, h12, h13, _⟩ := hops j d p hd hp
    obtain ⟨h14, h15, h16⟩ := hn.plain k l n' i j o h3 h4 h8 h9 h10
    rw [← h11, ← h12, ← h13]
    simp [h14, h15, h16]

/-! The options `-f, --foo <x>` and `-b`, and patterns `get [<a>] -b`, and `-f`, among others. -/

def examplePattern : PatternDecl := ⟨[103, 101, 116, 32, 91, 60, 97, 62, 93, 32, 45, 98], 1, .func (.cons (.optional .other) .nil)⟩

/-- C88: an accepted specification. -/
example : ∃ s, construct asciiEnv 40 [exampleF, { exampleB with attr := 0 }] [examplePattern] = some (.ok s) ∧ s.reg.keywords = [[103, 101, 116]] ∧
    s.reg.protos = [⟨none, some 0⟩, ⟨some 0, some 1⟩] ∧ s.patterns = [⟨true, 1, .func (.cons (.optional .other) .nil)⟩] :=
  ⟨_, rfl, rfl, rfl, rfl⟩

/-- C88: with no patterns, there is one, which is empty. -/
example : ∃ s, construct asciiEnv 40 [exampleF] [] = some (.ok s) ∧ s.patterns = [⟨false, 0, .null⟩] := ⟨_, rfl, rfl⟩

/-- C88: a reference to an option that takes an argument. -/
example : construct asciiEnv 40 [exampleF] [⟨[45, 102], 0, .null⟩] = some (.error (.record 0 .refTakesArg)) := rfl

/-- C88: a function that is not for this pattern. -/
example : construct asciiEnv 40 [{ exampleB with attr := 0 }] [⟨[45, 98], 0, .null⟩, { examplePattern with action := .func .nil }] =
    some (.error (.pattern 1 .funcMismatch)) := rfl

/-- C88: a value slot in a pattern that is for delegation. -/
example : construct asciiEnv 40 [] [⟨[60, 97, 62], 0, .deleg⟩] = some (.error (.parse 0 .valueSlotsInDeleg)) := rfl

/-- C88: an attribute that does not exist. -/
example : construct asciiEnv 40 [] [⟨[60, 97, 62], 2, .null⟩] = some (.error (.pattern 0 .badAttr)) := rfl

end Verif.CliSpec
