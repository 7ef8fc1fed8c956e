import Verif.CliSpec.OptMain
/-!
C87: declarations of options.
-/
namespace Verif.CliSpec

open Verif.CliPattern

variable {env : Env}

theorem Declares.unique {ds : List OptionDecl} {R R' : Except DeclError Registry} (h : Declares env ds R) (h' : Declares env ds R') : R = R' :=
  Option.some.inj (Evt.unique (F := fun f => declareOptions env f emptyRegistry 0 ds) h h')

theorem AllDeclared.unique (he : EnvOk env) {ds : List OptionDecl} {ps qs : List (List Form × ArgSpec)}
    (h : List.Forall₂ (fun d p => Declared env d p.1 p.2) ds ps) (h' : List.Forall₂ (fun d p => Declared env d p.1 p.2) ds qs) : ps = qs := by
  induction h generalizing qs with
  | nil => cases h'; rfl
  | @cons d p ds ps h1 _ ih =>
    cases h' with
    | @cons _ q _ qs h2 h3 =>
      rw [ih h3]
      have e1 := h1.forms.unique he h2.forms
      have e2 := h1.arg.unique he h2.arg
      rw [Prod.ext e1 e2]

theorem AllDeclared.at {ds : List OptionDecl} {ps : List (List Form × ArgSpec)} (h : AllDeclared env ds ps) {i : Nat} {d : OptionDecl}
    (hd : ds[i]? = some d) : ∃ p, ps[i]? = some p ∧ Declared env d p.1 p.2 := by
  obtain ⟨h1, h2⟩ := List.forall₂_iff_get.1 h.1
  obtain ⟨hlt, rfl⟩ := List.getElem?_eq_some_iff.1 hd
  exact ⟨ps[i]'(h1 ▸ hlt), List.getElem?_eq_getElem _, h2 i hlt (h1 ▸ hlt)⟩

theorem AllDeclared.no_error (he : EnvOk env) {ds : List OptionDecl} {ps : List (List Form × ArgSpec)} (h : AllDeclared env ds ps)
    (err : DeclError) : ¬ DeclErrorTrue env ds err := by
  intro hE
  cases err with
  | forms i err =>
    obtain ⟨d, hd, hn⟩ := hE
    obtain ⟨p, _, hD⟩ := h.at hd
    exact hn ⟨_, hD.forms⟩
  | arg i err =>
    obtain ⟨d, hd, hn⟩ := hE
    obtain ⟨p, _, hD⟩ := h.at hd
    exact hn ⟨_, hD.arg⟩
  | option i err =>
    cases err with
    | noForms =>
      obtain ⟨d, hd, hn⟩ := hE
      obtain ⟨p, _, hD⟩ := h.at hd
      exact hD.some (hD.forms.unique he hn)
    | badAttr =>
      obtain ⟨d, hd, hn⟩ := hE
      obtain ⟨p, _, hD⟩ := h.at hd
      exact absurd hD.attr (by omega)
    | argShortCircuit =>
      obtain ⟨d, a, hd, ha, h1, h2⟩ := hE
      obtain ⟨p, _, hD⟩ := h.at hd
      rw [ha.unique he hD.arg] at h1
      exact (hD.plain h1).1 h2
    | argFurtherArgs =>
      obtain ⟨d, a, hd, ha, h1, h2⟩ := hE
      obtain ⟨p, _, hD⟩ := h.at hd
      rw [ha.unique he hD.arg] at h1
      exact (hD.plain h1).2 h2
    | argNotAccepted =>
      obtain ⟨d, a, hd, ha, h1, h2⟩ := hE
      obtain ⟨p, _, hD⟩ := h.at hd
      rw [ha.unique he hD.arg] at h1
      rw [(hD.action h1).1] at h2
      cases h2
    | argNotOptional =>
      obtain ⟨d, hd, ha, h1⟩ := hE
      obtain ⟨p, _, hD⟩ := h.at hd
      have h2 := ha.unique he hD.arg
      have h3 := (hD.action (by rw [← h2])).2 h1
      rw [← h2] at h3
      cases h3
    | formReuse l k =>
      obtain ⟨d, fs, f, d', fs', hd, hf, h1, _, _, h3, hd', hf', h4⟩ := hE
      obtain ⟨p, hp, hD⟩ := h.at hd
      obtain ⟨p', hp', hD'⟩ := h.at hd'
      cases hf.unique he hD.forms
      cases hf'.unique he hD'.forms
      have := h.2 i (k - 1) p p' (nameOf f) hp hp' (List.mem_map_of_mem h1) h4
      omega

/-- C87: the declarations of options always lead to success or to an error message; nothing else goes wrong. -/
theorem C87_total (he : EnvOk env) (ds : List OptionDecl) : ∃ R, Declares env ds R := by
  rcases declare_main he ds with ⟨_, _, h, _⟩ | ⟨_, h, _⟩ <;> exact ⟨_, h⟩

/-- C87: declarations are accepted precisely when there is nothing wrong with any of them, and no two options are recognized by the same. -/
theorem C87_accepts (he : EnvOk env) (ds : List OptionDecl) : (∃ R, Declares env ds (.ok R)) ↔ ∃ ps, AllDeclared env ds ps := by
  rcases declare_main he ds with ⟨ps, R, h, _, hA⟩ | ⟨err, h, hE, _⟩
  · exact ⟨fun _ => ⟨ps, hA⟩, fun _ => ⟨R, h⟩⟩
  · constructor
    · rintro ⟨R, h'⟩
      cases h.unique h'
    · rintro ⟨ps, hA⟩
      exact absurd hE (hA.no_error he err)

/-- C87: what is reported when declarations are rejected is true, and it is about the first declaration that is rejected. -/
theorem C87_errors (he : EnvOk env) {ds : List OptionDecl} {err : DeclError} (h : Declares env ds (.error err)) :
    DeclErrorTrue env ds err ∧ err.index < ds.length ∧ ∃ ps, AllDeclared env (ds.take err.index) ps := by
  rcases declare_main he ds with ⟨ps, R, h', _⟩ | ⟨err', h', h1, h2, h3⟩
  · cases h.unique h'
  · cases h.unique h'
    exact ⟨h1, h2, h3⟩

theorem declared_inv (he : EnvOk env) {ds : List OptionDecl} {R : Registry} (h : Declares env ds (.ok R)) {ps : List (List Form × ArgSpec)}
    (hA : AllDeclared env ds ps) : RegInv ds ps R := by
  rcases declare_main he ds with ⟨qs, R', h', h1, h2⟩ | ⟨err', h', _⟩
  · cases h.unique h'
    cases AllDeclared.unique he hA.1 h2.1
    exact h1
  · cases h.unique h'

theorem named_optionNamed {ds : List OptionDecl} {ps : List (List Form × ArgSpec)} {r : Registry} (h : RegInv ds ps r) (n : OptName) :
    optionNamed r n = protoNamed r n := by
  unfold optionNamed
  cases hn : protoNamed r n with
  | none => rfl
  | some i => simp [h.proto hn]

/-- C87: a name is looked up as the option that has a form with this name, and as nothing if there is no such option. -/
theorem C87_lookup (he : EnvOk env) {ds : List OptionDecl} {R : Registry} (h : Declares env ds (.ok R)) {ps : List (List Form × ArgSpec)}
    (hA : AllDeclared env ds ps) (n : OptName) :
    (∀ i, optionNamed R n = some i ↔ ∃ p, ps[i]? = some p ∧ n ∈ p.1.map nameOf) ∧
    (protoNamed R n = none ↔ ∀ p ∈ ps, n ∉ p.1.map nameOf) := by
  have hi := declared_inv he h hA
  refine ⟨fun i => by rw [named_optionNamed hi]; exact hi.named n i, ?_⟩
  constructor
  · intro hn p hp hm
    obtain ⟨i, hlt, rfl⟩ := List.getElem_of_mem hp
    rw [(hi.named n i).2 ⟨_, List.getElem?_eq_getElem hlt, hm⟩] at hn
    cases hn
  · intro hn
    cases hp : protoNamed R n with
    | none => rfl
    | some i =>
      obtain ⟨p, h1, h2⟩ := (hi.named n i).1 hp
      exact absurd h2 (hn p (List.mem_of_getElem? h1))

/-- C87: the registered options are those that were declared, in order. -/
theorem C87_options (he : EnvOk env) {ds : List OptionDecl} {R : Registry} (h : Declares env ds (.ok R)) {ps : List (List Form × ArgSpec)}
    (hA : AllDeclared env ds ps) :
    R.options.length = ds.length ∧ ∀ (i : Nat) (d : OptionDecl) (p : List Form × ArgSpec), ds[i]? = some d → ps[i]? = some p →
      ∃ o, R.options[i]? = some o ∧ o.arg = p.2 ∧ (o.shortCircuit = true ↔ d.shortCircuit) ∧ (o.furtherArgs = true ↔ d.furtherArgs) ∧
        R.getOptionForms o.formsOffset o.formsSize = some p.1 := by
  have hi := declared_inv he h hA
  exact ⟨by rw [hi.len, hi.declared], hi.options⟩

/-- C87: the patterns are added to a `Spec` object that is in order, and in which there are no keywords, and no references from patterns. -/
theorem C87_ready (he : EnvOk env) {ds : List OptionDecl} {R : Registry} (h : Declares env ds (.ok R)) :
    RegOk R ∧ R.keywords = [] ∧ ∀ p ∈ R.protos, p.patternIndex = none := by
  obtain ⟨ps, hA⟩ := (C87_accepts he ds).1 ⟨R, h⟩
  have hi := declared_inv he h hA
  have hlt : ∀ n i, protoNamed R n = some i → i < R.protos.length := fun n i hn => (List.getElem?_eq_some_iff.1 (hi.proto hn)).1
  refine ⟨⟨?_, fun c i => hlt (.short c) i, fun l i => hlt (.long l) i, ?_⟩, hi.keywords, ?_⟩
  · simp [Registry.findKeyword, hi.keywordMap]
  · intro i p j hp hj
    rw [hi.protos] at hp
    rw [hi.len]
    simp only [List.getElem?_map, Option.map_eq_some_iff] at hp
    obtain ⟨k, hk, rfl⟩ := hp
    cases hj
    exact List.mem_range.1 (List.mem_of_getElem? hk)
  · intro p hp
    rw [hi.protos] at hp
    obtain ⟨i, _, rfl⟩ := List.mem_map.1 hp
    rfl

/-- C87: the forms in a text are unique, and so is the argument, if any. -/
theorem C87_unambiguous (he : EnvOk env) {s : Str} : (∀ fs fs', FormsOf env s fs → FormsOf env s fs' → fs = fs') ∧
    ∀ a a', ArgOf env s a → ArgOf env s a' → a = a' :=
  ⟨fun _ _ h h' => h.unique he h', fun _ _ h h' => h.unique he h'⟩

/-- Forms separated by a comma and a space. -/
def writeForms : List Form → Str
  | [] => []
  | [f] => f.lexeme
  | f :: g :: fs => f.lexeme ++ 44 :: 32 :: writeForms (g :: fs)

theorem Listed.cons {e : Expr} {us : List Token} {t : Token} (h : Denotes 1 e us) (ht : t.type = .comma) {es : List Expr} {ts : List Token}
    (hl : Listed es ts) : Listed (e :: es) (us ++ t :: ts) := by
  induction hl with
  | one h' => exact .more (.one h) ht h'
  | @more es e' t' ts us' _ h2 h3 ih =>
    have := Listed.more ih h2 h3
    simpa using this

theorem write_forms (he : EnvOk env) : ∀ (fs : List Form) (n : Nat), fs ≠ [] →
    (∀ f ∈ fs, IsLexeme env (if f.isLong then .longOption else .shortOption) f.lexeme) →
    ∃ ts, Lexes env (List.replicate n 32 ++ writeForms fs) ts ∧ Listed (fs.map formExpr) ts
  | [], _, h, _ => absurd rfl h
  | [f], n, _, hf => by
    have hd : Denotes 1 (formExpr f) [⟨if f.isLong then .longOption else .shortOption, f.lexeme, decide (0 < n)⟩] := by
      refine .up (by omega) (.up (by omega) (.up (by omega) (.leaf (t := ⟨_, f.lexeme, _⟩) ?_)))
      cases f.isLong <;> rfl
    refine ⟨_, .token (rest := []) ⟨n, by simp [writeForms], rfl, hf f (by simp), ?_⟩ ?_ (.done (t := ⟨.endOfInput, [], false⟩) ⟨0, rfl, rfl, rfl, rfl⟩ rfl), .one hd⟩
    · cases f.isLong <;> simp [CanFollow]
    · cases f.isLong <;> simp
  | f :: g :: fs, n, _, hf => by
    obtain ⟨ts, h1, h2⟩ := write_forms he (g :: fs) 1 (by simp) (fun x hx => hf x (by simp [hx]))
    have hd : Denotes 1 (formExpr f) [⟨if f.isLong then .longOption else .shortOption, f.lexeme, decide (0 < n)⟩] := by
      refine .up (by omega) (.up (by omega) (.up (by omega) (.leaf (t := ⟨_, f.lexeme, _⟩) ?_)))
      cases f.isLong <;> rfl
    refine ⟨_, .token (rest := 44 :: 32 :: writeForms (g :: fs)) ⟨n, by simp [writeForms], rfl, hf f (by simp), ?_⟩ ?_
      (.token (t := ⟨.comma, [44], false⟩) (rest := 32 :: writeForms (g :: fs)) ⟨0, rfl, rfl, rfl, trivial⟩ (by simp) h1), Listed.cons hd rfl h2⟩
    · have := he.alnum 44 (by simp [specials])
      cases f.isLong <;> simp [CanFollow, this]
    · cases f.isLong <;> simp

/-- C87: every list of well-formed forms can be declared. -/
theorem C87_written (he : EnvOk env) (fs : List Form) (hf : ∀ f ∈ fs, IsLexeme env (if f.isLong then .longOption else .shortOption) f.lexeme) :
    FormsOf env (writeForms fs) fs := by
  by_cases h : fs = []
  · subst h
    exact Or.inl ⟨.done (t := ⟨.endOfInput, [], false⟩) ⟨0, rfl, rfl, rfl, rfl⟩ rfl, rfl⟩
  · obtain ⟨ts, h1, h2⟩ := write_forms he fs 0 h hf
    exact Or.inr ⟨ts, by simpa using h1, h2⟩

/-- C87: if an argument is declared, and the action cannot do without one, then the argument is required. -/
theorem C87_required_partial (he : EnvOk env) {ds : List OptionDecl} {R : Registry} (h : Declares env ds (.ok R)) {i : Nat} {d : OptionDecl}
    {o : OptionInfo} (hd : ds[i]? = some d) (ho : R.options[i]? = some o) (hr : d.requireArg = true) (ha : o.arg.allow = true) :
    o.arg.require = true := by
  obtain ⟨ps, hA⟩ := (C87_accepts he ds).1 ⟨R, h⟩
  obtain ⟨p, hp, hD⟩ := hA.at hd
  obtain ⟨o', ho', h1, _⟩ := (C87_options he h hA).2 i d p hd hp
  cases ho.symm.trans ho'
  rw [h1] at ha ⊢
  exact (hD.action ha).2 hr

/-! `-f, --foo` with the argument `<x>`, and `-b` with no argument. -/

def exampleF : OptionDecl := ⟨[45, 102, 44, 32, 45, 45, 102, 111, 111], [60, 120, 62], 0, true, true⟩

def exampleB : OptionDecl := ⟨[45, 98], [], 1, false, false⟩

def exampleForms : Registry :=
  ⟨[], [⟨none, some 0⟩, ⟨none, some 1⟩], [⟨false, [45, 102]⟩, ⟨true, [45, 45, 102, 111, 111]⟩, ⟨false, [45, 98]⟩],
    [⟨0, 2, ⟨true, true⟩, false, false⟩, ⟨2, 1, ⟨false, false⟩, true, false⟩], [], [(98, 1), (102, 0)], [([102, 111, 111], 0)]⟩

/-- C87: the two options are declared. -/
example : declareOptions asciiEnv 10 emptyRegistry 0 [exampleF, exampleB] = some (.ok exampleForms) := rfl

/-- C87: `--foo` is the first option, `-b` the second, and `--bar` is not an option. -/
example : optionNamed exampleForms (.long [102, 111, 111]) = some 0 ∧ optionNamed exampleForms (.short 98) = some 1 ∧
    optionNamed exampleForms (.long [98, 97, 114]) = none := by decide

/-- C87: `-f` cannot be declared again. -/
example : declareOptions asciiEnv 10 emptyRegistry 0 [exampleF, exampleB, { exampleB with forms := [45, 102] }] =
    some (.error (.option 2 (.formReuse [45, 102] 1))) := rfl

/-- C87: `-b` cannot have an argument when it is short-circuiting. -/
example : declareOptions asciiEnv 10 emptyRegistry 0 [exampleF, { exampleB with arg := [60, 120, 62] }] =
    some (.error (.option 1 .argShortCircuit)) := rfl

/-- C87: attribute 8 does not exist. -/
example : declareOptions asciiEnv 10 emptyRegistry 0 [{ exampleB with attr := 8 }] = some (.error (.option 0 .badAttr)) := rfl

/-- C87: `foo` is not a form of an option. -/
example : declareOptions asciiEnv 10 emptyRegistry 0 [{ exampleB with forms := [102, 111, 111] }] = some (.error (.forms 0 .syntaxError)) := rfl

/-- C87: the action of `-f` cannot do without an argument, so the argument cannot be optional. -/
example : declareOptions asciiEnv 10 emptyRegistry 0 [{ exampleF with arg := [91, 60, 120, 62, 93] }] =
    some (.error (.option 0 .argNotOptional)) := rfl

/-- C87: the action of `-f` cannot do without an argument, but the option is accepted when it takes no argument at all. -/
theorem C87_required_argument_missing : ∃ R o, declareOptions asciiEnv 10 emptyRegistry 0 [{ exampleF with arg := [] }] = some (.ok R) ∧
    exampleF.requireArg = true ∧ R.options[0]? = some o ∧ o.arg.allow = false := ⟨_, _, rfl, rfl, rfl, rfl⟩

/-- C87: a form can be listed more than once for an option. -/
example : ∃ R, declareOptions asciiEnv 10 emptyRegistry 0 [{ exampleB with forms := [45, 98, 44, 45, 98] }] = some (.ok R) := ⟨_, rfl⟩

/-- C87: the forms of `-f, --foo` as they are written. -/
example : writeForms [⟨false, [45, 102]⟩, ⟨true, [45, 45, 102, 111, 111]⟩] = exampleF.forms := rfl

end Verif.CliSpec
