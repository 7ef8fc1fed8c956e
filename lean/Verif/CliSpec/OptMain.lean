import Verif.CliSpec.OptLemmas
import Mathlib.Tactic.IntervalCases
/-!
The loop over the declarations of options.
-/
namespace Verif.CliSpec

open Verif.CliPattern

variable {env : Env}

theorem attr_bad (a : BitVec 32) : a &&& ~~~ (1 ||| 2 ||| 4) ≠ 0 ↔ 8 ≤ a.toNat := by
  constructor
  · intro h
    by_contra hn
    apply h
    have ha : a = BitVec.ofNat 32 a.toNat := by simp
    generalize a.toNat = n at ha hn
    subst ha
    have : n < 8 := by omega
    interval_cases n <;> decide
  · intro h h0
    obtain ⟨i, hi, hb⟩ := Nat.exists_ge_and_testBit_of_ge_two_pow (n := 3) (x := a.toNat) (by simpa using h)
    have h1 : (a &&& ~~~ (1 ||| 2 ||| 4)).getLsbD i = false := by rw [h0]; simp
    have hi2 : i < 32 := by
      by_contra hc
      have := Nat.testBit_lt_two_pow (x := a.toNat) (i := i) (lt_of_lt_of_le a.isLt (Nat.pow_le_pow_right (by omega) (by omega)))
      rw [hb] at this
      cases this
    have h2 : a.getLsbD i = true := hb
    have h3 : ((1 : BitVec 32) ||| 2 ||| 4).getLsbD i = false := by
      interval_cases i <;> decide
    rw [BitVec.getLsbD_and, BitVec.getLsbD_not, h2, h3] at h1
    simp [hi2] at h1

theorem attr_short (a : BitVec 32) : a &&& 1 ≠ 0 ↔ a.toNat % 2 = 1 := by
  have : a &&& 1 = 0 ↔ a.toNat % 2 = 0 := by
    rw [← BitVec.toNat_inj, BitVec.toNat_and]
    simp [Nat.and_one_is_mod]
  rw [Ne, this]
  omega

theorem attr_further (a : BitVec 32) : a &&& 2 ≠ 0 ↔ a.toNat / 2 % 2 = 1 := by
  have h1 : a.getLsbD 1 = decide (a.toNat / 2 % 2 = 1) := by
    rw [BitVec.getLsbD, Nat.testBit_eq_decide_div_mod_eq, pow_one]
  have : a &&& 2 = 0 ↔ a.getLsbD 1 = false := by
    constructor
    · intro h
      have := congrArg (fun x : BitVec 32 => x.getLsbD 1) h
      simpa [BitVec.getLsbD_and] using this
    · intro h
      apply BitVec.eq_of_getLsbD_eq
      intro i hi
      rw [BitVec.getLsbD_and]
      by_cases h2 : i = 1
      · subst h2; rw [h]; rfl
      · have : (2 : BitVec 32).getLsbD i = false := by
          interval_cases i <;> first | rfl | exact absurd rfl h2
        rw [this, Bool.and_false]; simp
  rw [Ne, this, h1]
  simp

theorem lookup_emplace_eq {κ : Type} [BEq κ] [LawfulBEq κ] [DecidableEq κ] (m : List (κ × Nat)) (k k' : κ) (v : Nat) :
    (emplace m k v).1.lookup k' = (m.lookup k').or (if k' = k then some v else none) := by
  unfold emplace
  cases h : m.lookup k with
  | some v0 =>
    by_cases he : k' = k
    · subst he; simp [h]
    · simp [he]
  | none =>
    by_cases he : k' = k
    · subst he; simp [h, List.lookup]
    · have : (k' == k) = false := by simpa using he
      simp [List.lookup, this, he]

theorem get_one {l : Str} (h : 2 ≤ l.length) : l[1]? = some (l.getD 1 0) := by
  rw [List.getD_eq_getElem?_getD, List.getElem?_eq_getElem (by omega)]
  rfl

theorem findForm_eq {r : Registry} {f : Form} (h : 2 ≤ f.lexeme.length) : r.findForm f = some (protoNamed r (nameOf f)) := by
  unfold Registry.findForm nameOf
  cases f.isLong with
  | false => rw [get_one h]; rfl
  | true => simp [h, protoNamed, Registry.findLong]

theorem if_or (p q : Prop) [Decidable p] [Decidable q] (k : Nat) :
    (if p then some k else none).or (if q then some k else none) = if p ∨ q then some k else none := by
  by_cases hp : p <;> by_cases hq : q <;> simp [hp, hq]

theorem registerForms_ok (k : Nat) : ∀ (fs : List Form) (r : Registry), (∀ f ∈ fs, 2 ≤ f.lexeme.length) →
    ∃ s l, r.registerForms k fs = some { r with shortMap := s, longMap := l } ∧
      ∀ n, protoNamed { r with shortMap := s, longMap := l } n = (protoNamed r n).or (if n ∈ fs.map nameOf then some k else none)
  | [], r, _ => ⟨r.shortMap, r.longMap, rfl, fun n => by simp⟩
  | f :: fs, r, h => by
    have hf := h f (by simp)
    cases hb : f.isLong with
    | false =>
      obtain ⟨s, l, h1, h2⟩ := registerForms_ok k fs { r with shortMap := (emplace r.shortMap (f.lexeme.getD 1 0) k).1 } (fun g hg => h g (by simp [hg]))
      refine ⟨s, l, ?_, fun n => ?_⟩
      · simp only [Registry.registerForms, hb, get_one hf]
        simpa using h1
      · have h3 := h2 n
        have hn : nameOf f = .short (f.lexeme.getD 1 0) := by simp [nameOf, hb]
        simp only [List.map_cons, List.mem_cons, hn]
        cases n with
        | short c =>
          simp only [protoNamed, Registry.findShort, lookup_emplace_eq] at h3 ⊢
          rw [h3, Option.or_assoc, if_or]
          simp only [OptName.short.injEq]
        | long c =>
          simp only [protoNamed, Registry.findLong] at h3 ⊢
          rw [h3]
          simp
    | true =>
      obtain ⟨s, l, h1, h2⟩ := registerForms_ok k fs { r with longMap := (emplace r.longMap (f.lexeme.drop 2) k).1 } (fun g hg => h g (by simp [hg]))
      refine ⟨s, l, ?_, fun n => ?_⟩
      · simp only [Registry.registerForms, hb, hf]
        simpa using h1
      · have h3 := h2 n
        have hn : nameOf f = .long (f.lexeme.drop 2) := by simp [nameOf, hb]
        simp only [List.map_cons, List.mem_cons, hn]
        cases n with
        | long c =>
          simp only [protoNamed, Registry.findLong, lookup_emplace_eq] at h3 ⊢
          rw [h3, Option.or_assoc, if_or]
          simp only [OptName.long.injEq]
        | short c =>
          simp only [protoNamed, Registry.findShort] at h3 ⊢
          rw [h3]
          simp

/-- The options that have been declared, and nothing else, are registered. -/
structure RegInv (ds : List OptionDecl) (ps : List (List Form × ArgSpec)) (r : Registry) : Prop where
  keywords : r.keywords = []
  keywordMap : r.keywordMap = []
  declared : ds.length = ps.length
  len : r.options.length = ps.length
  protos : r.protos = (List.range ps.length).map fun i => ⟨none, some i⟩
  named : ∀ (n : OptName) (i : Nat), protoNamed r n = some i ↔ ∃ p, ps[i]? = some p ∧ n ∈ p.1.map nameOf
  options : ∀ (i : Nat) (d : OptionDecl) (p : List Form × ArgSpec), ds[i]? = some d → ps[i]? = some p → ∃ o, r.options[i]? = some o ∧ o.arg = p.2 ∧ (o.shortCircuit = true ↔ d.shortCircuit) ∧
    (o.furtherArgs = true ↔ d.furtherArgs) ∧ r.getOptionForms o.formsOffset o.formsSize = some p.1

theorem RegInv.empty : RegInv [] [] emptyRegistry :=
  ⟨rfl, rfl, rfl, rfl, rfl, fun n i => by cases n <;> simp [protoNamed, emptyRegistry, Registry.findShort, Registry.findLong], by simp⟩

theorem RegInv.proto {ds : List OptionDecl} {ps : List (List Form × ArgSpec)} {r : Registry} (h : RegInv ds ps r) {n : OptName} {i : Nat}
    (hn : protoNamed r n = some i) : r.protos[i]? = some ⟨none, some i⟩ := by
  obtain ⟨p, hp, _⟩ := (h.named n i).1 hn
  have := (List.getElem?_eq_some_iff.1 hp).1
  rw [h.protos]
  simp [this]

theorem findReuse_ok {r : Registry} (h : ∀ n i, protoNamed r n = some i → r.protos[i]? = some ⟨none, some i⟩) :
    ∀ fs : List Form, (∀ f ∈ fs, 2 ≤ f.lexeme.length) →
    (r.findReuse fs = some none ∧ ∀ f ∈ fs, protoNamed r (nameOf f) = none) ∨
    ∃ f i, f ∈ fs ∧ protoNamed r (nameOf f) = some i ∧ r.findReuse fs = some (some (.formReuse f.lexeme (1 + i)))
  | [], _ => Or.inl ⟨rfl, by simp⟩
  | f :: fs, hl => by
    have hf := findForm_eq (r := r) (hl f (by simp))
    cases hp : protoNamed r (nameOf f) with
    | some i => exact Or.inr ⟨f, i, by simp, hp, by simp [Registry.findReuse, hf, hp, h _ _ hp]⟩
    | none =>
      rcases findReuse_ok h fs (fun g hg => hl g (by simp [hg])) with ⟨h1, h2⟩ | ⟨g, i, h1, h2, h3⟩
      · refine Or.inl ⟨by simp [Registry.findReuse, hf, hp, h1], fun g hg => ?_⟩
        rcases List.mem_cons.1 hg with rfl | hg
        · exact hp
        · exact h2 g hg
      · exact Or.inr ⟨g, i, by simp [h1], h2, by simp [Registry.findReuse, hf, hp, h3]⟩

/-- The checks of one declaration. -/
theorem check_cases (env : Env) (d : OptionDecl) (fs : List Form) (a : ArgSpec) (hf : FormsOf env d.forms fs) (ha : ArgOf env d.arg a) :
    (checkOption fs.length a d.attr d.allowArg d.requireArg = none ∧ Declared env d fs a) ∨
    ∃ err, checkOption fs.length a d.attr d.allowArg d.requireArg = some err ∧ ∀ ds i, ds[i]? = some d → DeclErrorTrue env ds (.option i err) := by
  unfold checkOption
  by_cases h0 : fs.length = 0
  · refine Or.inr ⟨.noForms, by simp [h0], fun ds i hd => ⟨d, hd, ?_⟩⟩
    rwa [List.eq_nil_of_length_eq_zero h0] at hf
  · rw [if_neg h0]
    by_cases h1 : d.attr &&& ~~~ (1 ||| 2 ||| 4) ≠ 0
    · exact Or.inr ⟨.badAttr, by rw [if_pos h1], fun ds i hd => ⟨d, hd, (attr_bad _).1 h1⟩⟩
    · rw [if_neg h1]
      have h1' : d.attr.toNat < 8 := by
        by_contra hc
        exact h1 ((attr_bad _).2 (by omega))
      have h0' : fs ≠ [] := by rintro rfl; exact h0 rfl
      by_cases h2 : a.allow = true
      · rw [if_pos h2]
        by_cases h3 : d.attr &&& 1 ≠ 0
        · exact Or.inr ⟨.argShortCircuit, by rw [if_pos h3], fun ds i hd => ⟨d, a, hd, ha, h2, (attr_short _).1 h3⟩⟩
        · rw [if_neg h3]
          by_cases h4 : d.attr &&& 2 ≠ 0
          · exact Or.inr ⟨.argFurtherArgs, by rw [if_pos h4], fun ds i hd => ⟨d, a, hd, ha, h2, (attr_further _).1 h4⟩⟩
          · rw [if_neg h4]
            cases h5 : d.allowArg with
            | false => exact Or.inr ⟨.argNotAccepted, by simp, fun ds i hd => ⟨d, a, hd, ha, h2, h5⟩⟩
            | true =>
              cases h6 : (!a.require && d.requireArg) with
              | true =>
                refine Or.inr ⟨.argNotOptional, by simp, fun ds i hd => ⟨d, hd, ?_, ?_⟩⟩
                · rcases a with ⟨x, y⟩
                  simp only [Bool.and_eq_true, Bool.not_eq_true'] at h6
                  simp only at h2
                  rw [← h2, ← h6.1]
                  exact ha
                · simp only [Bool.and_eq_true] at h6
                  exact h6.2
              | false =>
                refine Or.inl ⟨by simp, hf, ha, h0', h1', fun _ => ⟨fun h => h3 ((attr_short _).2 h), fun h => h4 ((attr_further _).2 h)⟩,
                  fun _ => ⟨h5, fun h => ?_⟩⟩
                simpa [h] using h6
      · rw [if_neg h2]
        exact Or.inl ⟨rfl, hf, ha, h0', h1', fun h => absurd h h2, fun h => absurd h h2⟩

theorem getForms_append {r : Registry} {o n : Nat} {fs : List Form} (h : r.getOptionForms o n = some fs) (gs : List Form) {r' : Registry}
    (hr : r'.forms = r.forms ++ gs) : r'.getOptionForms o n = some fs := by
  unfold Registry.getOptionForms at h ⊢
  split at h
  · rename_i hle
    rw [hr, if_pos (by simp; omega), List.drop_append_of_le_length (by omega), List.take_append_of_le_length (by simp; omega)]
    exact h
  · cases h

/-- One declaration. -/
theorem declare_step (he : EnvOk env) {ds : List OptionDecl} {ps : List (List Form × ArgSpec)} {r : Registry} (hi : RegInv ds ps r)
    (hd : List.Forall₂ (fun d p => Declared env d p.1 p.2) ds ps) (d : OptionDecl) :
    (∃ p r', Declared env d p.1 p.2 ∧ Evt (fun f => declareOption env f r ds.length d) (some (.ok r')) ∧ RegInv (ds ++ [d]) (ps ++ [p]) r') ∨
    ∃ err, Evt (fun f => declareOption env f r ds.length d) (some (.error err)) ∧ err.index = ds.length ∧
      ∀ rest, DeclErrorTrue env (ds ++ d :: rest) err := by
  have hidx : ds.length = r.options.length := by rw [hi.len, hi.declared]
  have hget : ∀ rest, (ds ++ d :: rest)[ds.length]? = some d := by simp
  rcases forms_cases he d.forms with ⟨fs, hf1, n, hn⟩ | ⟨hf1, err, n, hn⟩
  · rcases arg_cases he d.arg with ⟨a, ha1, m, hm⟩ | ⟨ha1, err, m, hm⟩
    · have key : ∀ R, Registry.addOption { r with forms := r.forms ++ fs } r.forms.length fs.length a d.attr d.allowArg d.requireArg = some R →
          Evt (fun f => declareOption env f r ds.length d) (some (match R with | .error err => .error (.option ds.length err) | .ok r => .ok r)) := by
        intro R hR
        refine ⟨n + m, fun f hfl => ?_⟩
        have e1 := hn f (by omega)
        have e2 := hm f (by omega)
        dsimp only at e1 e2
        cases R <;> simp [declareOption, ← hidx, e1, e2, Registry.addOptionForms, hR]
      rcases check_cases env d fs a hf1 ha1 with ⟨hc, hD⟩ | ⟨err, hc, hE⟩
      · have hlong := hf1.long
        have hg : Registry.getOptionForms { r with forms := r.forms ++ fs } r.forms.length fs.length = some fs := by
          simp [Registry.getOptionForms]
        have hnm : ∀ (r' : Registry) n, r'.shortMap = r.shortMap → r'.longMap = r.longMap → protoNamed r' n = protoNamed r n := by
          intro r' n h1 h2
          cases n <;> simp [protoNamed, Registry.findShort, Registry.findLong, h1, h2]
        rcases findReuse_ok (r := { r with forms := r.forms ++ fs }) (fun n i hn => hi.proto ((hnm _ n rfl rfl).symm.trans hn)) fs hlong with
          ⟨h1, h2⟩ | ⟨f, i, h1, h2, h3⟩
        · left
          obtain ⟨s, l, h3, h4⟩ := registerForms_ok r.protos.length fs { r with
            forms := r.forms ++ fs
            options := r.options ++ [⟨r.forms.length, fs.length, a, decide (d.attr &&& 1 ≠ 0), decide (d.attr &&& 2 ≠ 0)⟩]
            protos := r.protos ++ [⟨none, some r.options.length⟩] } hlong
          refine ⟨(fs, a), { r with
              forms := r.forms ++ fs
              options := r.options ++ [⟨r.forms.length, fs.length, a, decide (d.attr &&& 1 ≠ 0), decide (d.attr &&& 2 ≠ 0)⟩]
              protos := r.protos ++ [⟨none, some r.options.length⟩]
              shortMap := s
              longMap := l }, hD, key (.ok _) ?_, ?_⟩
          · simp only [Registry.addOption, hc, hg, h1, h3, Option.bind_eq_bind, Option.bind_some]
          · have hpl : r.protos.length = ps.length := by rw [hi.protos]; simp
            have hnone : ∀ n ∈ fs.map nameOf, protoNamed r n = none := by
              intro n hn
              obtain ⟨f, hf, rfl⟩ := List.mem_map.1 hn
              rw [← h2 f hf]
              exact (hnm _ _ rfl rfl).symm
            have hnm' : ∀ n, protoNamed { r with
                forms := r.forms ++ fs
                options := r.options ++ [⟨r.forms.length, fs.length, a, decide (d.attr &&& 1 ≠ 0), decide (d.attr &&& 2 ≠ 0)⟩]
                protos := r.protos ++ [⟨none, some r.options.length⟩]
                shortMap := s
                longMap := l } n = (protoNamed r n).or (if n ∈ fs.map nameOf then some ps.length else none) := by
              intro n
              rw [← hpl]
              refine (h4 n).trans ?_
              congr 1
            refine ⟨hi.keywords, hi.keywordMap, by simp [hi.declared], by simp [hi.len], ?_, ?_, ?_⟩
            · dsimp only
              rw [hi.protos, hi.len, List.length_append, List.length_singleton, List.range_succ, List.map_append]
              rfl
            · intro n i
              rw [hnm', Option.or_eq_some_iff]
              constructor
              · rintro (h | ⟨h, h'⟩)
                · obtain ⟨p, hp1, hp2⟩ := (hi.named n i).1 h
                  exact ⟨p, by rw [List.getElem?_append_left (List.getElem?_eq_some_iff.1 hp1).1]; exact hp1, hp2⟩
                · split at h'
                  · rename_i hmem
                    cases h'
                    exact ⟨(fs, a), by simp, hmem⟩
                  · cases h'
              · rintro ⟨p, hp1, hp2⟩
                by_cases hlt : i < ps.length
                · rw [List.getElem?_append_left hlt] at hp1
                  exact Or.inl ((hi.named n i).2 ⟨p, hp1, hp2⟩)
                · have hlt2 := (List.getElem?_eq_some_iff.1 hp1).1
                  have : i = ps.length := by simp at hlt2; omega
                  subst this
                  simp only [List.getElem?_concat_length, Option.some.injEq] at hp1
                  subst hp1
                  refine Or.inr ⟨hnone n hp2, ?_⟩
                  rw [if_pos hp2]
            · intro i d' p hd' hp
              by_cases hlt : i < ps.length
              · rw [List.getElem?_append_left hlt] at hp
                rw [List.getElem?_append_left (by rw [hi.declared]; exact hlt)] at hd'
                obtain ⟨o, h5, h6, h7, h8, h9⟩ := hi.options i d' p hd' hp
                refine ⟨o, ?_, h6, h7, h8, getForms_append h9 fs rfl⟩
                rw [List.getElem?_append_left (by rw [hi.len]; exact hlt)]
                exact h5
              · have hlt2 := (List.getElem?_eq_some_iff.1 hp).1
                have : i = ps.length := by simp at hlt2; omega
                subst this
                simp only [List.getElem?_concat_length, Option.some.injEq] at hp
                subst hp
                rw [← hi.declared] at hd'
                simp only [List.getElem?_concat_length, Option.some.injEq] at hd'
                subst hd'
                refine ⟨⟨r.forms.length, fs.length, a, decide (d.attr &&& 1 ≠ 0), decide (d.attr &&& 2 ≠ 0)⟩, ?_, rfl, ?_, ?_, ?_⟩
                · rw [← hi.len]; simp
                · rw [decide_eq_true_iff]; exact attr_short _
                · rw [decide_eq_true_iff]; exact attr_further _
                · simp [Registry.getOptionForms]
        · right
          refine ⟨_, key (.error (.formReuse f.lexeme (1 + i))) (by simp [Registry.addOption, hc, hg, h3]), rfl, fun rest => ?_⟩
          obtain ⟨p, hp1, hp2⟩ := (hi.named (nameOf f) i).1 ((hnm _ _ rfl rfl).symm.trans h2)
          have hlt := (List.getElem?_eq_some_iff.1 hp1).1
          have hlt' : i < ds.length := by rw [hi.declared]; exact hlt
          obtain ⟨d', hd'⟩ : ∃ d', ds[i]? = some d' := ⟨_, List.getElem?_eq_getElem hlt'⟩
          have hD' : Declared env d' p.1 p.2 := by
            have := List.forall₂_iff_get.1 hd
            have h5 := this.2 i hlt' hlt
            obtain ⟨_, h6⟩ := List.getElem?_eq_some_iff.1 hd'
            obtain ⟨_, h7⟩ := List.getElem?_eq_some_iff.1 hp1
            simp only [List.get_eq_getElem, h6, h7] at h5
            exact h5
          refine ⟨d, fs, f, d', p.1, hget rest, hf1, h1, rfl, by omega, ?_, ?_, hD'.forms, hp2⟩
          · omega
          · rw [show 1 + i - 1 = i by omega, List.getElem?_append_left hlt']
            exact hd'
      · right
        refine ⟨_, key (.error err) (by simp [Registry.addOption, hc]), rfl, fun rest => hE _ _ (hget rest)⟩
    · right
      refine ⟨.arg ds.length err, ⟨n + m, fun f hfl => ?_⟩, rfl, fun rest => ⟨d, hget rest, ha1⟩⟩
      have e1 := hn f (by omega)
      have e2 := hm f (by omega)
      dsimp only at e1 e2
      simp [declareOption, ← hidx, e1, e2]
  · right
    refine ⟨.forms ds.length err, ⟨n, fun f hfl => ?_⟩, rfl, fun rest => ⟨d, hget rest, hf1⟩⟩
    have e1 := hn f hfl
    dsimp only at e1
    simp [declareOption, ← hidx, e1]

theorem RegInv.distinct {ds : List OptionDecl} {ps : List (List Form × ArgSpec)} {r : Registry} (h : RegInv ds ps r) :
    ∀ (i j : Nat) (p q : List Form × ArgSpec) (n : OptName), ps[i]? = some p → ps[j]? = some q → n ∈ p.1.map nameOf → n ∈ q.1.map nameOf → i = j := by
  intro i j p q n hp hq hn hn'
  have h1 := (h.named n i).2 ⟨p, hp, hn⟩
  have h2 := (h.named n j).2 ⟨q, hq, hn'⟩
  exact Option.some.inj (h1.symm.trans h2)

/-- The rest of the declarations. -/
theorem declare_loop (he : EnvOk env) : ∀ (rest ds : List OptionDecl) (ps : List (List Form × ArgSpec)) (r : Registry), RegInv ds ps r →
    List.Forall₂ (fun d p => Declared env d p.1 p.2) ds ps →
    (∃ qs r', Evt (fun f => declareOptions env f r ds.length rest) (some (.ok r')) ∧ RegInv (ds ++ rest) (ps ++ qs) r' ∧
      List.Forall₂ (fun d p => Declared env d p.1 p.2) (ds ++ rest) (ps ++ qs)) ∨
    ∃ err, Evt (fun f => declareOptions env f r ds.length rest) (some (.error err)) ∧ DeclErrorTrue env (ds ++ rest) err ∧
      ds.length ≤ err.index ∧ err.index < (ds ++ rest).length ∧ ∃ qs, AllDeclared env ((ds ++ rest).take err.index) qs
  | [], ds, ps, r, hi, hd => Or.inl ⟨[], r, Evt.of fun f => rfl, by simpa using hi, by simpa using hd⟩
  | d :: rest, ds, ps, r, hi, hd => by
    rcases declare_step he hi hd d with ⟨p, r', hD, ⟨n, hn⟩, hi'⟩ | ⟨err, ⟨n, hn⟩, hx, hE⟩
    · have hd' : List.Forall₂ (fun d p => Declared env d p.1 p.2) (ds ++ [d]) (ps ++ [p]) :=
        List.rel_append hd (.cons hD .nil)
      have hev : ∀ R, Evt (fun f => declareOptions env f r' (ds ++ [d]).length rest) R →
          Evt (fun f => declareOptions env f r ds.length (d :: rest)) R := by
        rintro R ⟨m, hm⟩
        refine ⟨n + m, fun f hf => ?_⟩
        have e1 := hn f (by omega)
        have e2 := hm f (by omega)
        dsimp only at e1 e2
        simp only [List.length_append, List.length_singleton] at e2
        simp [declareOptions, e1, e2]
      rcases declare_loop he rest (ds ++ [d]) (ps ++ [p]) r' hi' hd' with ⟨qs, r'', h1, h2, h3⟩ | ⟨err, h1, h2, h3, h4, qs, h5⟩
      · exact Or.inl ⟨p :: qs, r'', hev _ h1, by simpa using h2, by simpa using h3⟩
      · refine Or.inr ⟨err, hev _ h1, by simpa using h2, ?_, by simpa using h4, qs, by simpa using h5⟩
        simp only [List.length_append, List.length_singleton] at h3
        omega
    · refine Or.inr ⟨err, ⟨n, fun f hf => ?_⟩, hE rest, by omega, by simp [hx], ps, ?_⟩
      · have e1 := hn f hf
        dsimp only at e1
        simp [declareOptions, e1]
      · rw [hx, List.take_left' rfl]
        exact ⟨hd, hi.distinct⟩

/-- The two possible outcomes. -/
theorem declare_main (he : EnvOk env) (ds : List OptionDecl) :
    (∃ ps R, Declares env ds (.ok R) ∧ RegInv ds ps R ∧ AllDeclared env ds ps) ∨
    ∃ err, Declares env ds (.error err) ∧ DeclErrorTrue env ds err ∧ err.index < ds.length ∧ ∃ ps, AllDeclared env (ds.take err.index) ps := by
  rcases declare_loop he ds [] [] emptyRegistry RegInv.empty .nil with ⟨ps, R, h1, h2, h3⟩ | ⟨err, h1, h2, _, h4, ps, h5⟩
  · exact Or.inl ⟨ps, R, h1, by simpa using h2, by simpa using h3, (by simpa using h2 : RegInv ds ps R).distinct⟩
  · exact Or.inr ⟨err, h1, by simpa using h2, by simpa using h4, ps, by simpa using h5⟩

end Verif.CliSpec
