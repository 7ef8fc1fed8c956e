import Verif.CliSpec.OptProps
import Verif.CliSpec.ConstructSpec
/-!
What names lead to after symbols of patterns have been registered.
-/
namespace Verif.CliSpec

open Verif.CliPattern

/-- `NameInv R r W`: In `r`, the symbols in `W` have been registered in addition to what is in `R`. -/
structure NameInv (R r : Registry) (W : LeafKind → Str → Prop) : Prop where
  ok : RegOk r
  options : r.options = R.options
  forms : r.forms = R.forms
  keyword : ∀ l, r.findKeyword l ≠ none ↔ W .keyword l
  found : ∀ n, protoNamed r n ≠ none ↔ protoNamed R n ≠ none ∨ ∃ k l, W k l ∧ leafName k l = some n
  kept : ∀ n i, protoNamed R n = some i → protoNamed r n = some i
  old : ∀ n i, protoNamed r n = some i → i < R.protos.length → protoNamed R n = some i
  same : ∀ n n' i, protoNamed r n = some i → protoNamed r n' = some i → n = n' ∨ i < R.protos.length
  len : R.protos.length ≤ r.protos.length
  index : ∀ i, protoIdx r i = protoIdx R i
  marked : ∀ (i : Nat) (p : Proto), r.protos[i]? = some p →
    (p.patternIndex ≠ none ↔ ∃ k l n, W k l ∧ leafName k l = some n ∧ protoNamed r n = some i)
  plain : ∀ (k : LeafKind) (l : Str) (n : OptName) (i j : Nat) (o : OptionInfo), W k l → leafName k l = some n → protoNamed r n = some i →
    protoIdx r i = some j → r.options[j]? = some o → o.arg.allow = false ∧ o.shortCircuit = false ∧ o.furtherArgs = false

theorem RegOk.named {r : Registry} (h : RegOk r) {n : OptName} {i : Nat} (hn : protoNamed r n = some i) : i < r.protos.length := by
  cases n with
  | short c => exact h.short c i hn
  | long l => exact h.long l i hn

theorem NameInv.base {R : Registry} (h : RegOk R) (h1 : R.keywordMap = []) (h2 : ∀ p ∈ R.protos, p.patternIndex = none) :
    NameInv R R (fun _ _ => False) where
  ok := h
  options := rfl
  forms := rfl
  keyword := fun l => by simp [Registry.findKeyword, h1]
  found := fun n => by simp
  kept := fun _ _ h => h
  old := fun _ _ h _ => h
  same := fun n n' i hn _ => Or.inr (h.named hn)
  len := Nat.le_refl _
  index := fun _ => rfl
  marked := fun i p hp => by simp [h2 p (List.mem_of_getElem? hp)]
  plain := fun _ _ _ _ _ _ h => h.elim

theorem NameInv.congr {R r : Registry} {W W' : LeafKind → Str → Prop} (h : NameInv R r W) (hw : ∀ k l, W k l ↔ W' k l) : NameInv R r W' := by
  have : W = W' := by funext k l; exact propext (hw k l)
  exact this ▸ h

theorem ensureProto_cases {r : Registry} {isLong : Bool} {l : Str} (hl : 2 ≤ l.length) {n0 : OptName}
    (hn : leafName (optKind isLong) l = some n0) : ∃ r1 i, r.ensureProto ⟨isLong, l⟩ = some (r1, i) ∧ r1.options = r.options ∧
      r1.forms = r.forms ∧ r1.keywordMap = r.keywordMap ∧ r1.keywords = r.keywords ∧
      ((protoNamed r n0 = some i ∧ r1.protos = r.protos ∧ ∀ n, protoNamed r1 n = protoNamed r n) ∨
       (protoNamed r n0 = none ∧ i = r.protos.length ∧ r1.protos = r.protos ++ [⟨none, none⟩] ∧
        ∀ n, protoNamed r1 n = if n = n0 then some i else protoNamed r n)) := by
  cases isLong with
  | false =>
    simp only [optKind, Bool.false_eq_true, if_false, leafName, Option.some.injEq] at hn
    obtain ⟨c, hc⟩ : ∃ c, l[1]? = some c := ⟨_, List.getElem?_eq_some_iff.2 ⟨by omega, rfl⟩⟩
    have hc' : l.getD 1 0 = c := by rw [List.getD_eq_getElem?_getD, hc]; rfl
    rw [hc'] at hn
    subst hn
    have he := lookup_emplace_eq r.shortMap c
    unfold emplace at he
    simp only [Registry.ensureProto, Bool.not_false, if_true, hc, Option.bind_eq_bind, Option.bind_some]
    unfold emplace
    cases hx : r.shortMap.lookup c with
    | some v => exact ⟨_, _, rfl, rfl, rfl, rfl, rfl, Or.inl ⟨hx, rfl, fun n => rfl⟩⟩
    | none =>
      refine ⟨_, _, rfl, rfl, rfl, rfl, rfl, Or.inr ⟨hx, rfl, rfl, fun n => ?_⟩⟩
      cases n with
      | long l => simp [protoNamed, Registry.findLong]
      | short d =>
        simp only [protoNamed, Registry.findShort, OptName.short.injEq, List.lookup]
        by_cases hd : d = c
        · subst hd; simp
        · have : (d == c) = false := by simpa using hd
          simp [this, hd]
  | true =>
    simp only [optKind, if_true, leafName, Option.some.injEq] at hn
    subst hn
    simp only [Registry.ensureProto, Bool.not_true, Bool.false_eq_true, if_false, hl, if_true]
    unfold emplace
    cases hx : r.longMap.lookup (l.drop 2) with
    | some v => exact ⟨_, _, rfl, rfl, rfl, rfl, rfl, Or.inl ⟨hx, rfl, fun n => rfl⟩⟩
    | none =>
      refine ⟨_, _, rfl, rfl, rfl, rfl, rfl, Or.inr ⟨hx, rfl, rfl, fun n => ?_⟩⟩
      cases n with
      | short l => simp [protoNamed, Registry.findShort]
      | long d =>
        simp only [protoNamed, Registry.findLong, OptName.long.injEq, List.lookup]
        by_cases hd : d = l.drop 2
        · subst hd; simp
        · have : (d == l.drop 2) = false := by simpa using hd
          simp [this, hd]

theorem NameInv.keywordStep {R r : Registry} {W : LeafKind → Str → Prop} (h : NameInv R r W) (l0 : Str) :
    NameInv R (r.ensureKeyword l0).1 (fun k l => W k l ∨ (k = .keyword ∧ l = l0)) := by
  have hok := (ensureKeyword_ok h.ok l0).1
  have hp : (r.ensureKeyword l0).1.protos = r.protos := by unfold Registry.ensureKeyword; split <;> rfl
  have ho : (r.ensureKeyword l0).1.options = r.options := by unfold Registry.ensureKeyword; split <;> rfl
  have hf : (r.ensureKeyword l0).1.forms = r.forms := by unfold Registry.ensureKeyword; split <;> rfl
  have hm : (r.ensureKeyword l0).1.keywordMap = (emplace r.keywordMap l0 r.keywords.length).1 := by
    unfold Registry.ensureKeyword
    split <;> (rename_i hx; rw [hx])
  have hn : ∀ n, protoNamed (r.ensureKeyword l0).1 n = protoNamed r n := by
    intro n
    unfold Registry.ensureKeyword
    cases n <;> split <;> rfl
  have hi : ∀ i, protoIdx (r.ensureKeyword l0).1 i = protoIdx r i := fun i => by simp only [protoIdx, hp]
  have hw : ∀ n (P : Prop), (∃ k l, (W k l ∨ (k = .keyword ∧ l = l0)) ∧ leafName k l = some n ∧ P) ↔ ∃ k l, W k l ∧ leafName k l = some n ∧ P := by
    intro n P
    constructor
    · rintro ⟨k, l, h1 | ⟨rfl, rfl⟩, h2, h3⟩
      · exact ⟨k, l, h1, h2, h3⟩
      · cases h2
    · rintro ⟨k, l, h1, h2, h3⟩; exact ⟨k, l, Or.inl h1, h2, h3⟩
  refine ⟨hok, ho.trans h.options, hf.trans h.forms, ?_, ?_, ?_, ?_, ?_, ?_, ?_, ?_, ?_⟩
  · intro l
    simp only [Registry.findKeyword, hm, lookup_emplace_eq]
    have := h.keyword l
    simp only [Registry.findKeyword] at this
    by_cases hl : l = l0
    · subst hl; cases r.keywordMap.lookup l <;> simp
    · simp [hl, this]
  · intro n
    rw [hn, h.found]
    have := hw n True
    simp only [and_true] at this
    rw [this]
  · intro n i hi'; rw [hn]; exact h.kept n i hi'
  · intro n i hi'; rw [hn] at hi'; exact h.old n i hi'
  · intro n n' i; rw [hn, hn]; exact h.same n n' i
  · rw [hp]; exact h.len
  · intro i; rw [hi]; exact h.index i
  · intro i p hpp
    rw [hp] at hpp
    rw [h.marked i p hpp]
    constructor
    · rintro ⟨k, l, n, h1, h2, h3⟩; exact ⟨k, l, n, Or.inl h1, h2, by rw [hn]; exact h3⟩
    · rintro ⟨k, l, n, h1 | ⟨rfl, rfl⟩, h2, h3⟩
      · exact ⟨k, l, n, h1, h2, by rw [← hn]; exact h3⟩
      · cases h2
  · rintro k l n i j o (h1 | ⟨rfl, rfl⟩) h2 h3 h4 h5
    · rw [hn] at h3; rw [hi] at h4; rw [ho] at h5
      exact h.plain k l n i j o h1 h2 h3 h4 h5
    · cases h2

theorem NameInv.slotStep {R r : Registry} {W : LeafKind → Str → Prop} (h : NameInv R r W) (l0 : Str) :
    NameInv R r (fun k l => W k l ∨ (k = .slot ∧ l = l0)) := by
  refine ⟨h.ok, h.options, h.forms, ?_, ?_, h.kept, h.old, h.same, h.len, h.index, ?_, ?_⟩
  · intro l; rw [h.keyword]; simp
  · intro n
    rw [h.found]
    constructor
    · rintro (h1 | ⟨k, l, h1, h2⟩)
      · exact Or.inl h1
      · exact Or.inr ⟨k, l, Or.inl h1, h2⟩
    · rintro (h1 | ⟨k, l, h1 | ⟨rfl, rfl⟩, h2⟩)
      · exact Or.inl h1
      · exact Or.inr ⟨k, l, h1, h2⟩
      · cases h2
  · intro i p hp
    rw [h.marked i p hp]
    constructor
    · rintro ⟨k, l, n, h1, h2, h3⟩; exact ⟨k, l, n, Or.inl h1, h2, h3⟩
    · rintro ⟨k, l, n, h1 | ⟨rfl, rfl⟩, h2, h3⟩
      · exact ⟨k, l, n, h1, h2, h3⟩
      · cases h2
  · rintro k l n i j o (h1 | ⟨rfl, rfl⟩) h2 h3 h4 h5
    · exact h.plain k l n i j o h1 h2 h3 h4 h5
    · cases h2

theorem NameInv.optionStep {R r r' : Registry} {W : LeafKind → Str → Prop} (h : NameInv R r W) {isLong : Bool} {l0 : Str} (hl : 2 ≤ l0.length)
    {pi i0 : Nat} (he : r.ensurePatternOption ⟨isLong, l0⟩ pi = some (.ok (r', i0))) :
    NameInv R r' (fun k l => W k l ∨ (k = optKind isLong ∧ l = l0)) := by
  have hok : RegOk r' := by
    rcases ensurePatternOption_ok h.ok (isLong := isLong) hl pi with ⟨err, o, h1, _⟩ | ⟨r1, i, h1, h2, _⟩
    · rw [he] at h1; cases h1
    · rw [he] at h1; cases h1; exact h2
  obtain ⟨n0, hn0⟩ : ∃ n, leafName (optKind isLong) l0 = some n := by cases isLong <;> exact ⟨_, rfl⟩
  obtain ⟨r1, i, h1, ho1, hf1, hk1, hk2, hc⟩ := ensureProto_cases (r := r) hl hn0
  simp only [Registry.ensurePatternOption, h1, Option.bind_eq_bind, Option.bind_some] at he
  rcases hp : r1.protos[i]? with _ | proto
  · simp [hp] at he
  simp only [hp, Option.bind_some] at he
  rcases hq : r1.refError proto with _ | e
  · simp [hq] at he
  simp only [hq, Option.bind_some] at he
  cases e with
  | some err => simp at he
  | none =>
  simp only [Option.some.injEq, Except.ok.injEq, Prod.mk.injEq] at he
  obtain ⟨rfl, rfl⟩ := he
  have hi : i < r1.protos.length := (List.getElem?_eq_some_iff.1 hp).1
  generalize hproto' : (if proto.patternIndex = none then { proto with patternIndex := some pi } else proto : Proto) = proto' at hok ⊢
  have hpx : proto'.optionIndex = proto.optionIndex := by rw [← hproto']; split <;> rfl
  have hpm : proto'.patternIndex ≠ none := by rw [← hproto']; split <;> simp_all
  -- names
  have hname : ∀ n, protoNamed { r1 with protos := r1.protos.set i proto' } n = protoNamed r1 n := by intro n; cases n <;> rfl
  have h0 : protoNamed r1 n0 = some i := by
    rcases hc with ⟨h2, _, h4⟩ | ⟨_, h3, _, h5⟩
    · rw [h4, h2]
    · rw [h5, if_pos rfl]
  have hmono : ∀ n j, protoNamed r n = some j → protoNamed r1 n = some j := by
    intro n j hj
    rcases hc with ⟨_, _, h4⟩ | ⟨h2, h3, _, h5⟩
    · rw [h4, hj]
    · rw [h5, if_neg, hj]
      rintro rfl
      rw [h2] at hj; cases hj
  have hback : ∀ n j, protoNamed r1 n = some j → protoNamed r n = some j ∨ (n = n0 ∧ j = i ∧ i = r.protos.length ∧ protoNamed r n0 = none) := by
    intro n j hj
    rcases hc with ⟨_, _, h4⟩ | ⟨h2, h3, _, h5⟩
    · rw [h4] at hj; exact Or.inl hj
    · rw [h5] at hj
      split at hj
      · cases hj; exact Or.inr ⟨by assumption, rfl, h3, h2⟩
      · exact Or.inl hj
  have hlen : r.protos.length ≤ r1.protos.length := by
    rcases hc with ⟨_, h4, _⟩ | ⟨_, _, h4, _⟩ <;> rw [h4] <;> simp
  have hidx1 : ∀ j, protoIdx r1 j = protoIdx r j := by
    intro j
    rcases hc with ⟨_, h4, _⟩ | ⟨_, _, h4, _⟩
    · simp only [protoIdx, h4]
    · simp only [protoIdx, h4]
      by_cases hj : j < r.protos.length
      · rw [List.getElem?_append_left hj]
      · rw [List.getElem?_append_right (by omega)]
        have : r.protos[j]? = none := by simp; omega
        rw [this]
        cases j - r.protos.length <;> simp
  have hidx : ∀ j, protoIdx { r1 with protos := r1.protos.set i proto' } j = protoIdx r j := by
    intro j
    rw [← hidx1 j]
    simp only [protoIdx, List.getElem?_set]
    split
    · rename_i hij
      subst hij
      have hp2 : r1.protos[i] = proto := by simpa [List.getElem?_eq_getElem hi] using hp
      simp [hi, hpx, hp2]
    · rfl
  refine ⟨hok, ho1.trans h.options, hf1.trans h.forms, ?_, ?_, ?_, ?_, ?_, ?_, ?_, ?_, ?_⟩
  · intro l
    simp only [Registry.findKeyword, hk1]
    have := h.keyword l
    simp only [Registry.findKeyword] at this
    rw [this]
    cases isLong <;> simp [optKind]
  · intro n
    rw [hname]
    constructor
    · intro hne
      obtain ⟨j, hj⟩ := Option.ne_none_iff_exists'.1 hne
      rcases hback n j hj with h3 | ⟨rfl, _⟩
      · rcases (h.found n).1 (by rw [h3]; simp) with h4 | ⟨k, l, h4, h5⟩
        · exact Or.inl h4
        · exact Or.inr ⟨k, l, Or.inl h4, h5⟩
      · exact Or.inr ⟨_, _, Or.inr ⟨rfl, rfl⟩, hn0⟩
    · rintro (h3 | ⟨k, l, h3 | ⟨rfl, rfl⟩, h4⟩)
      · obtain ⟨j, hj⟩ := Option.ne_none_iff_exists'.1 ((h.found n).2 (Or.inl h3))
        rw [hmono n j hj]; simp
      · obtain ⟨j, hj⟩ := Option.ne_none_iff_exists'.1 ((h.found n).2 (Or.inr ⟨k, l, h3, h4⟩))
        rw [hmono n j hj]; simp
      · rw [hn0] at h4
        cases h4
        rw [h0]; simp
  · intro n j hj
    rw [hname]
    exact hmono n j (h.kept n j hj)
  · intro n j hj hlt
    rw [hname] at hj
    rcases hback n j hj with h3 | ⟨_, rfl, h4, _⟩
    · exact h.old n j h3 hlt
    · have := h.len
      omega
  · intro n n' j hj hj'
    rw [hname] at hj hj'
    rcases hback n j hj with h3 | ⟨rfl, rfl, h4, _⟩
    · rcases hback n' j hj' with h5 | ⟨rfl, rfl, h4, _⟩
      · exact h.same n n' j h3 h5
      · have := h.ok.named h3
        omega
    · rcases hback n' j hj' with h5 | ⟨rfl, _⟩
      · have := h.ok.named h5
        omega
      · exact Or.inl rfl
  · simp only [List.length_set]
    exact h.len.trans hlen
  · intro j; rw [hidx]; exact h.index j
  · intro j p hj
    simp only [List.getElem?_set] at hj
    by_cases hij : i = j
    · subst hij
      simp only [hi, if_true, Option.some.injEq] at hj
      subst hj
      exact ⟨fun _ => ⟨optKind isLong, l0, n0, Or.inr ⟨rfl, rfl⟩, hn0, by rw [hname]; exact h0⟩, fun _ => hpm⟩
    · rw [if_neg hij] at hj
      have hjr : r.protos[j]? = some p := by
        rcases hc with ⟨_, h4, _⟩ | ⟨_, h3, h4, _⟩
        · rw [h4] at hj; exact hj
        · rw [h4] at hj
          have : j < (r.protos ++ [(⟨none, none⟩ : Proto)]).length := (List.getElem?_eq_some_iff.1 hj).1
          simp only [List.length_append, List.length_cons, List.length_nil] at this
          rw [List.getElem?_append_left (by omega)] at hj
          exact hj
      rw [h.marked j p hjr]
      constructor
      · rintro ⟨k, l, n, h3, h4, h5⟩
        exact ⟨k, l, n, Or.inl h3, h4, by rw [hname]; exact hmono n j h5⟩
      · rintro ⟨k, l, n, h3 | ⟨rfl, rfl⟩, h4, h5⟩
        · rw [hname] at h5
          rcases hback n j h5 with h6 | ⟨_, h6, _⟩
          · exact ⟨k, l, n, h3, h4, h6⟩
          · exact absurd h6.symm hij
        · rw [hn0] at h4
          cases h4
          rw [hname, h0] at h5
          cases h5
          exact absurd rfl hij
  · have hplain : ∀ j o, proto.optionIndex = some j → r.options[j]? = some o → o.arg.allow = false ∧ o.shortCircuit = false ∧ o.furtherArgs = false := by
      intro j o hj ho
      simp only [Registry.refError, hj, ho1, ho, Option.bind_eq_bind, Option.bind_some] at hq
      split at hq
      · cases hq
      · split at hq
        · cases hq
        · split at hq
          · cases hq
          · simp_all
    rintro k l n m j o h3 h4 h5 h6 h7
    rw [hname] at h5
    rw [hidx] at h6
    have h7' : r.options[j]? = some o := by rw [← ho1]; exact h7
    have hgen : protoNamed r1 n = some i → m = i → o.arg.allow = false ∧ o.shortCircuit = false ∧ o.furtherArgs = false := by
      intro _ hm
      subst hm
      refine hplain j o ?_ h7'
      rw [← hidx1] at h6
      simpa [protoIdx, hp] using h6
    rcases h3 with h3 | ⟨rfl, rfl⟩
    · rcases hback n m h5 with h8 | ⟨rfl, rfl, _⟩
      · exact h.plain k l n m j o h3 h4 h8 h6 h7'
      · exact hgen h0 rfl
    · rw [hn0] at h4
      cases h4
      rw [h0] at h5
      cases h5
      exact hgen h0 rfl

theorem NameInv.leaves {R : Registry} {pi : Nat} : ∀ (xs : List (LeafKind × Str)) {r r' : Registry} {W : LeafKind → Str → Prop}, NameInv R r W →
    (∀ l, (LeafKind.short, l) ∈ xs → 2 ≤ l.length) → (∀ l, (LeafKind.long, l) ∈ xs → 2 ≤ l.length) →
    ensureLeaves pi r xs = some r' → NameInv R r' (fun k l => W k l ∨ (k, l) ∈ xs)
  | [], r, r', W, h, _, _, he => by
    cases he
    exact h.congr (by simp)
  | (k0, l0) :: xs, r, r', W, h, h1, h2, he => by
    simp only [ensureLeaves, Option.bind_eq_some_iff] at he
    obtain ⟨r1, h3, h4⟩ := he
    have hstep : NameInv R r1 (fun k l => W k l ∨ (k = k0 ∧ l = l0)) := by
      cases k0 with
      | keyword =>
        simp only [ensureLeaf, Option.some.injEq] at h3
        subst h3
        exact h.keywordStep l0
      | slot =>
        simp only [ensureLeaf, Option.some.injEq] at h3
        subst h3
        exact h.slotStep l0
      | short =>
        simp only [ensureLeaf] at h3
        split at h3
        · rename_i r2 i hx
          cases h3
          exact h.optionStep (isLong := false) (h1 l0 (by simp)) hx
        · cases h3
      | long =>
        simp only [ensureLeaf] at h3
        split at h3
        · rename_i r2 i hx
          cases h3
          exact h.optionStep (isLong := true) (h2 l0 (by simp)) hx
        · cases h3
    refine (NameInv.leaves xs hstep (fun l hl => h1 l (by simp [hl])) (fun l hl => h2 l (by simp [hl])) h4).congr fun k l => ?_
    simp only [List.mem_cons, Prod.mk.injEq]
    tauto

theorem mem_leaves {k : LeafKind} {l : Str} : ∀ {e : Expr}, (k, l) ∈ leaves e ↔ Within (.leaf k l) e
  | .leaf k' l' => by
    simp only [leaves, List.mem_singleton, Prod.mk.injEq]
    constructor
    · rintro ⟨rfl, rfl⟩; exact .here
    · intro h; cases h; exact ⟨rfl, rfl⟩
  | .opt e => by
    simp only [leaves, mem_leaves (e := e)]
    exact ⟨.opt, fun h => by cases h; assumption⟩
  | .rep e => by
    simp only [leaves, mem_leaves (e := e)]
    exact ⟨.rep, fun h => by cases h; assumption⟩
  | .jux a b => by
    simp only [leaves, List.mem_append, mem_leaves (e := a), mem_leaves (e := b)]
    constructor
    · rintro (h | h)
      · exact .juxLeft h
      · exact .juxRight h
    · intro h; cases h
      · exact Or.inl (by assumption)
      · exact Or.inr (by assumption)
  | .alt a b => by
    simp only [leaves, List.mem_append, mem_leaves (e := a), mem_leaves (e := b)]
    constructor
    · rintro (h | h)
      · exact .altLeft h
      · exact .altRight h
    · intro h; cases h
      · exact Or.inl (by assumption)
      · exact Or.inr (by assumption)

end Verif.CliSpec
