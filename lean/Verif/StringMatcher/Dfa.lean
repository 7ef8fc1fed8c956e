import Verif.StringMatcher.Lang
import Mathlib.Data.List.Sublists
/-!
The construction of the deterministic automaton.
-/
namespace Verif.StringMatcher
open Verif.FrozenSets (Ident At)
open Verif.RangeMap (Ent toKey lookup)

variable {lo hi star : Int}

/-- A reference to a set of positions. -/
def Ref (sets : List Nat) (i : Ident) (v : List Nat) : Prop := At sets i v ∧ Sorted v

/-- Storage that is extended. -/
def Grows (s s' : List Nat) : Prop := ∃ more, s' = s ++ more

theorem grows_refl (s : List Nat) : Grows s s := ⟨[], by simp⟩
theorem grows_trans (a b c : List Nat) (h1 : Grows a b) (h2 : Grows b c) : Grows a c := by
  obtain ⟨m1, rfl⟩ := h1
  obtain ⟨m2, rfl⟩ := h2
  exact ⟨m1 ++ m2, by simp⟩
theorem ref_mono (s s' : List Nat) (t : Ident) (a : List Nat) (h : Grows s s') (hr : Ref s t a) : Ref s' t a := by
  obtain ⟨m, rfl⟩ := h
  exact ⟨hr.1.append m, hr.2⟩
theorem ref_default (s : List Nat) : Ref s ⟨0, 0⟩ [] := ⟨⟨Nat.le_refl _, Nat.zero_le _, by simp⟩, .nil⟩

theorem unite_ref {s : List Nat} {t : Ident} {a F : List Nat} (hr : Ref s t a) (hF : Sorted F) :
    ∃ s' t', (FrozenSets.uniteOrdered 0 s t F).toOption = some (s', t') ∧ Grows s s' ∧ Ref s' t' (FrozenSets.setUnion a F) := by
  have hl := FrozenSets.setUnion_lists hr.2 hF
  generalize FrozenSets.setUnion a F = c at hl
  rcases FrozenSets.uniteOrdered_spec 0 hr.1 hr.2 hF hl with ⟨h1, h2⟩ | ⟨h1, h2⟩
  · exact ⟨s, t, by rw [h2]; rfl, grows_refl s, h1 ▸ hr⟩
  · exact ⟨_, _, by rw [h2]; rfl, ⟨c, rfl⟩, At.new s c, hl.1⟩

theorem updateTarget_spec {b : Builder} (h : WF b) {q : Nat} {slot : Slot} (hq : b.positions[q]? = some slot) :
    ∀ s t a, Ref s t a → ∃ s' t', updateTarget slot b.followposSets s t = some (s', t') ∧ Grows s s' ∧
      Ref s' t' (FrozenSets.setUnion a (b.fol q)) := by
  intro s t a hr
  have hfol : b.fol q = folOf b.followposSets slot := by simp only [Builder.fol, hq]
  have hs := fol_sorted h q
  rw [updateTarget]
  cases hsg : slot.single
  · have hin := h.inside q slot hq hsg
    obtain ⟨set, hset⟩ : ∃ x, b.followposSets[slot.followpos]? = some x := ⟨_, List.getElem?_eq_getElem hin⟩
    have e : b.fol q = set := by rw [hfol]; simp [folOf, hsg, hset]
    simp only [Bool.false_eq_true, if_false, hset, Option.bind_eq_bind, Option.bind_some]
    rw [e] at hs ⊢
    exact unite_ref hr hs
  · have e : b.fol q = [slot.followpos] := by rw [hfol]; simp [folOf, hsg]
    simp only [if_true]
    rw [e] at hs ⊢
    exact unite_ref hr hs

/-- The indexes of the patterns whose terminal position is in a set. -/
def Builder.fin (b : Builder) (S : List Nat) : List Nat := S.filterMap (fun q => if b.fol q = [] then b.pat q else none)

/-- The characters of positions with follow positions are in range. -/
def InRange (lo hi : Int) (b : Builder) : Prop := ∀ q c, b.sym q = some (some c) → b.fol q ≠ [] → lo ≤ c ∧ c ≤ hi

/-- What a range map tells about a function from characters to sets. -/
structure Maps (lo hi : Int) (A : List (Ent (List Nat))) (f : Int → List Nat) : Prop where
  wf : RangeMap.WF lo hi A
  val : ∀ c, lo ≤ c → c ≤ hi → (lookup A c).getD [] = f c
  nonempty : ∀ c v, lookup A c = some v → v ≠ []

theorem setUnion_ne_nil {a F : List Nat} (ha : Sorted a) (hF : Sorted F) (hne : F ≠ []) : FrozenSets.setUnion a F ≠ [] := by
  obtain ⟨x, hx⟩ := List.exists_mem_of_ne_nil F hne
  intro e
  have := (FrozenSets.setUnion_lists ha hF).2 x
  rw [e] at this
  simp [hx] at this

theorem entsRel_lookup {s : List Nat} {es : List (Ent Ident)} {A : List (Ent (List Nat))} (h : EntsRel Ref s es A) {c : Int}
    {v : List Nat} (hv : lookup A c = some v) : Sorted v := by
  induction h with
  | nil => simp at hv
  | @cons e e' es es' he hes ih =>
    rw [RangeMap.lookup_cons] at hv
    split at hv
    · injection hv with hv; subst hv; exact he.2.2.2
    · exact ih hv

theorem positionLoop_spec {b : Builder} (hb : WF b) (hlh : lo ≤ hi) (hr : InRange lo hi b) (allow : Bool) :
    ∀ (rest : List Nat) (sets1 : List Nat) (targets : List (Ent Ident)) (pidx : Option Nat) (A : List (Ent (List Nat)))
      (f : Int → List Nat), (∀ q ∈ rest, q < b.positions.length) → EntsRel Ref sets1 targets A → Maps lo hi A f →
      (pidx.toList ++ b.fin rest).Pairwise (· < ·) →
      ((allow = true ∨ (pidx.toList ++ b.fin rest).length ≤ 1) →
        ∃ s' t' A', positionLoop lo hi allow b rest (sets1, targets, pidx) = .ok (s', t', (pidx.toList ++ b.fin rest).head?) ∧
          EntsRel Ref s' t' A' ∧ Maps lo hi A' (fun c => b.delta c (f c) rest)) ∧
      (¬ (allow = true ∨ (pidx.toList ++ b.fin rest).length ≤ 1) → ∃ p p' l, pidx.toList ++ b.fin rest = p :: p' :: l ∧
        positionLoop lo hi allow b rest (sets1, targets, pidx) = .error (.ambiguity p p')) := by
  intro rest
  induction rest with
  | nil =>
    intro sets1 targets pidx A f _ he hm _
    refine ⟨fun _ => ⟨sets1, targets, A, ?_, he, hm⟩, fun h => absurd (.inr (by cases pidx <;> simp [Builder.fin])) h⟩
    rw [positionLoop]
    cases pidx <;> rfl
  | cons q rest ih =>
    intro sets1 targets pidx A f hlt he hm hpw
    have hq := hlt q List.mem_cons_self
    have hlt' : ∀ q ∈ rest, q < b.positions.length := fun x hx => hlt x (List.mem_cons_of_mem _ hx)
    obtain ⟨slot, hslot⟩ : ∃ s, b.positions[q]? = some s := ⟨_, List.getElem?_eq_getElem hq⟩
    have hfin := fol_nil_iff hb hslot
    have hsym : b.sym q = some slot.symbol := by simp [Builder.sym, hslot]
    have hpat : b.pat q = some slot.patternIndex := by simp [Builder.pat, hslot]
    rw [positionLoop, hslot]
    simp only [orUb, bind, Except.bind]
    by_cases hF : b.fol q = []
    · rw [if_neg (not_not_intro (hfin.2 hF))]
      have e1 : b.fin (q :: rest) = slot.patternIndex :: b.fin rest := by
        simp [Builder.fin, hF, hpat]
      have e2 : ∀ c acc, Sorted acc → b.delta c acc (q :: rest) = b.delta c acc rest := by
        intro c acc hs
        rw [Builder.delta]
        split
        · rw [hF]
          have := (FrozenSets.setUnion_lists hs (.nil : Sorted [])).unique ⟨hs, fun z => by simp⟩
          rw [this]
        · rfl
      have hfs : ∀ c, lo ≤ c → c ≤ hi → Sorted (f c) := by
        intro c h1 h2
        rw [← hm.val c h1 h2]
        cases hl : lookup A c with
        | none => exact .nil
        | some v => exact entsRel_lookup he hl
      have hmaps : ∀ A', Maps lo hi A' (fun c => b.delta c (f c) rest) → Maps lo hi A' (fun c => b.delta c (f c) (q :: rest)) := by
        intro A' h
        refine ⟨h.wf, fun c h1 h2 => ?_, h.nonempty⟩
        rw [h.val c h1 h2]
        exact (e2 c _ (hfs c h1 h2)).symm
      rw [e1] at hpw ⊢
      rcases pidx with _ | p
      · simp only [Option.toList_none, List.nil_append] at hpw ⊢
        have := ih sets1 targets (some slot.patternIndex) A f hlt' he hm (by simpa using hpw)
        simp only [Option.toList_some, List.singleton_append] at this
        refine ⟨fun hc => ?_, this.2⟩
        obtain ⟨s', t', A', h1, h2, h3⟩ := this.1 hc
        exact ⟨s', t', A', h1, h2, hmaps A' h3⟩
      · simp only [Option.toList_some, List.singleton_append] at hpw ⊢
        have hpp : p < slot.patternIndex := (List.pairwise_cons.1 hpw).1 _ List.mem_cons_self
        rw [if_pos hpp]
        cases allow
        · exact ⟨fun h => by simp at h, fun _ => ⟨p, slot.patternIndex, _, rfl, rfl⟩⟩
        · refine ⟨fun _ => ?_, fun h => absurd (.inl rfl) h⟩
          have := ih sets1 targets (some p) A f hlt' he hm (by
            have h1 := List.pairwise_cons.1 hpw
            have h2 := List.pairwise_cons.1 h1.2
            exact List.pairwise_cons.2 ⟨fun x hx => h1.1 x (List.mem_cons_of_mem _ hx), h2.2⟩)
          obtain ⟨s', t', A', h1, h2, h3⟩ := this.1 (.inl rfl)
          exact ⟨s', t', A', by simpa using h1, h2, hmaps A' h3⟩
    · rw [if_pos (fun h => hF (hfin.1 h))]
      have e1 : b.fin (q :: rest) = b.fin rest := by simp [Builder.fin, hF]
      rw [e1] at hpw ⊢
      -- the range
      obtain ⟨x, y, hxy, hx, hxy', hy, hu⟩ : ∃ x y, symbolRange lo hi slot.symbol = (x, y) ∧
          lo ≤ x ∧ x ≤ y ∧ y ≤ hi ∧ ∀ c, lo ≤ c → c ≤ hi → (b.uses q c ↔ x ≤ c ∧ c ≤ y) := by
        cases hs : slot.symbol with
        | none =>
          refine ⟨lo, hi, rfl, Int.le_refl _, hlh, Int.le_refl _, fun c h1 h2 => ?_⟩
          rw [Builder.uses, hsym, hs]; simp [h1, h2]
        | some c0 =>
          have := hr q c0 (by rw [hsym, hs]) hF
          refine ⟨c0, c0, rfl, this.1, Int.le_refl _, this.2, fun c h1 h2 => ?_⟩
          rw [Builder.uses, hsym, hs]
          simp; omega
      rw [hxy]
      obtain ⟨A1, hA1, wA1, vA1⟩ := RangeMap.update_spec [] (fun a => FrozenSets.setUnion a (b.fol q)) x y hx hxy' hy A hm.wf
      obtain ⟨s1, t1, h1, _, h3⟩ := update_sim (R := Ref) (le := Grows) grows_refl grows_trans ref_mono (updateTarget_spec hb hslot)
        ref_default he hA1
      rw [h1]
      have hm1 : Maps lo hi A1 (fun c => if b.uses q c then FrozenSets.setUnion (f c) (b.fol q) else f c) := by
        refine ⟨wA1, fun c hc1 hc2 => ?_, fun c v hv => ?_⟩
        · rw [vA1, ← hm.val c hc1 hc2]
          by_cases hc : x ≤ c ∧ c ≤ y
          · rw [if_pos hc, if_pos ((hu c hc1 hc2).2 hc)]; rfl
          · rw [if_neg hc, if_neg (fun h => hc ((hu c hc1 hc2).1 h))]
        · rw [vA1] at hv
          split at hv
          · injection hv with hv
            subst hv
            refine setUnion_ne_nil ?_ (fol_sorted hb q) hF
            cases hl : lookup A c with
            | none => exact .nil
            | some v => exact entsRel_lookup he hl
          · exact hm.nonempty c v hv
      exact ih s1 t1 pidx A1 _ hlt' h3 hm1 hpw

theorem equalSets_spec {s : List Nat} : ∀ t u a b, Ref s t a → Ref s u b →
    equalSets s t u = some ((fun x y : List Nat => decide (x = y)) a b) := by
  intro t u a b h1 h2
  simp only [equalSets, contents_at h1.1, contents_at h2.1, Option.bind_eq_bind, Option.bind_some]

theorem defrag_maps {s : List Nat} {es : List (Ent Ident)} {A : List (Ent (List Nat))} {f : Int → List Nat}
    (he : EntsRel Ref s es A) (hm : Maps lo hi A f) :
    ∃ r A', defrag lo hi (equalSets s) es = some r ∧ EntsRel Ref s r A' ∧ Maps lo hi A' f := by
  obtain ⟨A', h1, h2, -, h4⟩ := RangeMap.C34_defrag lo hi (fun x y : List Nat => decide (x = y)) (by simp)
    (by simp only [decide_eq_true_eq]; intro x y z h1 h2; exact h1.trans h2) A hm.wf
  obtain ⟨r, h5, h6⟩ := defrag_sim (R := Ref) equalSets_spec he h1
  have hl : ∀ k, lookup A' k = lookup A k := by
    intro k
    cases hk : lookup A k with
    | none => exact (h4 k).2 hk
    | some x =>
      obtain ⟨y, h7, h8⟩ := (h4 k).1 x hk
      rw [h7, of_decide_eq_true h8]
  exact ⟨r, A', h5, h6, h2, fun c h7 h8 => by rw [hl]; exact hm.val c h7 h8, fun c v hv => hm.nonempty c v (by rw [← hl]; exact hv)⟩

/-! ### Numbering of the states -/

/-- The map from sets of positions to states, for sets in order of state index. -/
def MapOk (sets2 : List Nat) : Nat → List (Ident × Nat) → List (List Nat) → Prop
  | _, [], [] => True
  | k, (i, j) :: m, v :: K => j = k ∧ Ref sets2 i v ∧ MapOk sets2 (k + 1) m K
  | _, _, _ => False

theorem MapOk.mono {s s' : List Nat} (h : Grows s s') : ∀ {k : Nat} {m : List (Ident × Nat)} {K : List (List Nat)},
    MapOk s k m K → MapOk s' k m K
  | _, [], [], _ => trivial
  | _, (_, _) :: _, _ :: _, h1 => ⟨h1.1, ref_mono _ _ _ _ h h1.2.1, h1.2.2.mono h⟩
  | _, [], _ :: _, h1 => h1.elim
  | _, _ :: _, [], h1 => h1.elim

theorem MapOk.length {s : List Nat} : ∀ {k : Nat} {m : List (Ident × Nat)} {K : List (List Nat)}, MapOk s k m K → m.length = K.length
  | _, [], [], _ => rfl
  | _, (_, _) :: _, _ :: _, h1 => by simp [h1.2.2.length]
  | _, [], _ :: _, h1 => h1.elim
  | _, _ :: _, [], h1 => h1.elim

theorem MapOk.snoc {s : List Nat} {i : Ident} {v : List Nat} (hr : Ref s i v) : ∀ {k : Nat} {m : List (Ident × Nat)}
    {K : List (List Nat)}, MapOk s k m K → MapOk s k (m ++ [(i, k + m.length)]) (K ++ [v])
  | k, [], [], _ => ⟨by simp, hr, trivial⟩
  | k, (_, _) :: m, _ :: K, h1 => by
    refine ⟨h1.1, h1.2.1, ?_⟩
    have := h1.2.2.snoc hr
    simp only [List.length_cons]
    rwa [show k + (m.length + 1) = k + 1 + m.length by omega]
  | _, [], _ :: _, h1 => h1.elim
  | _, _ :: _, [], h1 => h1.elim

theorem findState_spec {s : List Nat} {v : List Nat} : ∀ {k : Nat} {m : List (Ident × Nat)} {K : List (List Nat)}, MapOk s k m K →
    (∃ j, K[j]? = some v ∧ findState s v m = some (some (k + j))) ∨ (v ∉ K ∧ findState s v m = some none)
  | _, [], [], _ => .inr ⟨by simp, rfl⟩
  | k, (i, j) :: m, u :: K, h1 => by
    obtain ⟨rfl, hr, hm⟩ := h1
    simp only [findState, contents_at hr.1, Option.bind_eq_bind, Option.bind_some]
    by_cases he : u = v
    · subst he
      rw [if_pos rfl]
      exact .inl ⟨0, rfl, rfl⟩
    · rw [if_neg he]
      rcases findState_spec (v := v) hm with ⟨j', h2, h3⟩ | ⟨h2, h3⟩
      · exact .inl ⟨j' + 1, h2, by rw [h3]; congr 2; omega⟩
      · exact .inr ⟨by simp [h2, Ne.symm he], h3⟩
  | _, [], _ :: _, h1 => h1.elim
  | _, _ :: _, [], h1 => h1.elim

/-- The states that are known, and those that remain to be processed. -/
structure DInv (K : List (List Nat)) (d : Dfa) : Prop where
  map : MapOk d.sets2 0 d.stateMap K
  unchecked : List.Forall₂ (Ref d.sets2) d.unchecked (K.drop d.states.length)
  nodup : K.Nodup
  states : d.states.length ≤ K.length

theorem ensureState_spec {K : List (List Nat)} {d : Dfa} (h : DInv K d) {sets1 : List Nat} {i : Ident} {v : List Nat}
    (hv : Ref sets1 i v) :
    ∃ d' k K', ensureState sets1 d i = some (d', k) ∧ DInv K' d' ∧ K'[k]? = some v ∧ K <+: K' ∧ (∀ u ∈ K', u ∈ K ∨ u = v) ∧
      d'.states = d.states ∧ d'.transitions = d.transitions := by
  have hnew : Ref (d.sets2 ++ v) ⟨d.sets2.length, d.sets2.length + v.length⟩ v := ⟨At.new _ _, hv.2⟩
  have hg : Grows d.sets2 (d.sets2 ++ v) := ⟨v, rfl⟩
  simp only [ensureState, contents_at hv.1, FrozenSets.freezeOrdered, contents_at hnew.1, Option.bind_eq_bind, Option.bind_some]
  rcases findState_spec (v := v) (h.map.mono hg) with ⟨j, h1, h2⟩ | ⟨h1, h2⟩
  · rw [h2]
    simp only [FrozenSets.discardFrom, Option.bind_some]
    rw [if_pos (by simp)]
    simp only [Except.toOption, Option.bind_some, FrozenSets.resize_append]
    exact ⟨_, _, K, rfl, h, by simpa using h1, List.prefix_refl K, fun u hu => .inl hu, rfl, rfl⟩
  · rw [h2]
    simp only [Option.bind_some]
    refine ⟨_, _, K ++ [v], rfl, ⟨?_, ?_, ?_, ?_⟩, ?_, List.prefix_append _ _, ?_, rfl, rfl⟩
    · have := (h.map.mono hg).snoc hnew
      simpa using this
    · simp only
      rw [List.drop_append_of_le_length h.states]
      refine List.rel_append (h.unchecked.imp fun i v => ref_mono _ _ _ _ hg) (.cons hnew .nil)
    · rw [List.nodup_append]
      exact ⟨h.nodup, by simp, fun a ha b hb => by rw [List.mem_singleton] at hb; subst hb; rintro rfl; exact h1 ha⟩
    · simp only [List.length_append]; have := h.states; omega
    · rw [h.map.length]; simp
    · intro u hu
      rcases List.mem_append.1 hu with hu | hu
      · exact .inl hu
      · exact .inr (by simpa using hu)

/-- A transition that corresponds to a range. -/
def TransOk (K : List (List Nat)) (t : Transition) (e : Ent (List Nat)) : Prop :=
  t.first = e.first ∧ t.last = e.last ∧ K[t.target]? = some e.val

theorem prefix_getElem? {α : Type} {K K' : List α} (h : K <+: K') {k : Nat} {v : α} (hv : K[k]? = some v) : K'[k]? = some v := by
  obtain ⟨m, rfl⟩ := h
  rw [List.getElem?_append_left (List.getElem?_eq_some_iff.1 hv).1]; exact hv

theorem TransOk.mono {K K' : List (List Nat)} (h : K <+: K') {t : Transition} {e : Ent (List Nat)} (ht : TransOk K t e) :
    TransOk K' t e := ⟨ht.1, ht.2.1, prefix_getElem? h ht.2.2⟩

theorem transitionLoop_spec {sets1 : List Nat} {es : List (Ent Ident)} {A : List (Ent (List Nat))} (he : EntsRel Ref sets1 es A)
    (hne : ∀ e ∈ A, e.val ≠ []) : ∀ {K : List (List Nat)} {d : Dfa}, DInv K d →
    ∃ d' K' ts, transitionLoop sets1 es d = some d' ∧ DInv K' d' ∧ K <+: K' ∧ d'.states = d.states ∧
      d'.transitions = d.transitions ++ ts ∧ List.Forall₂ (TransOk K') ts A ∧ ∀ v ∈ K', v ∈ K ∨ ∃ e ∈ A, v = e.val := by
  induction he with
  | nil =>
    intro K d h
    exact ⟨d, K, [], rfl, h, List.prefix_refl K, rfl, by simp, .nil, fun v hv => .inl hv⟩
  | @cons e e' es es' hee hes ih =>
    intro K d h
    obtain ⟨e1, e2, e3⟩ := hee
    have hsz : ¬ e.val.size = 0 := by
      rw [e3.1.size]
      intro h0
      exact hne e' List.mem_cons_self (List.length_eq_zero_iff.1 h0)
    obtain ⟨d1, k, K1, h1, h2, h3, h4, h5, h6, h7⟩ := ensureState_spec h e3
    have h2' : DInv K1 { d1 with transitions := d1.transitions ++ [⟨e.first, e.last, k⟩] } := ⟨h2.map, h2.unchecked, h2.nodup, h2.states⟩
    obtain ⟨d2, K2, ts, g1, g2, g3, g4, g5, g6, g7⟩ := ih (fun x hx => hne x (List.mem_cons_of_mem _ hx)) h2'
    refine ⟨d2, K2, ⟨e.first, e.last, k⟩ :: ts, ?_, g2, h4.trans g3, g4.trans h6, ?_, .cons ⟨e1, e2, prefix_getElem? g3 h3⟩ g6, ?_⟩
    · simp only [transitionLoop, hsz, if_false, h1, Option.bind_eq_bind, Option.bind_some, g1]
    · rw [g5]; simp [h7]
    · intro v hv
      rcases g7 v hv with hv | ⟨x, hx, rfl⟩
      · rcases h5 v hv with hv | rfl
        · exact .inl hv
        · exact .inr ⟨e', List.mem_cons_self, rfl⟩
      · exact .inr ⟨x, List.mem_cons_of_mem _ hx, rfl⟩

/-! ### The main loop -/

/-- The strings that a matcher can be applied to. -/
def Str (lo hi : Int) (w : List Int) : Prop := ∀ c ∈ w, lo ≤ c ∧ c ≤ hi

/-- A state is that for a set of positions. -/
def StateOk (lo hi : Int) (allow : Bool) (b : Builder) (K : List (List Nat)) (ts : List Transition) (st : State) (S : List Nat) : Prop :=
  st.patternIndex = (b.fin S).head? ∧ (allow = true ∨ (b.fin S).length ≤ 1) ∧ st.transEnd ≤ ts.length ∧
    ∃ A, List.Forall₂ (TransOk K) ((ts.take st.transEnd).drop st.transBegin) A ∧ Maps lo hi A (fun c => b.delta c [] S)

theorem StateOk.mono {allow : Bool} {b : Builder} {K K' : List (List Nat)} {ts more : List Transition} {st : State} {S : List Nat}
    (hK : K <+: K') (h : StateOk lo hi allow b K ts st S) : StateOk lo hi allow b K' (ts ++ more) st S := by
  obtain ⟨h1, h2, h3, A, h4, h5⟩ := h
  refine ⟨h1, h2, by simp; omega, A, ?_, h5⟩
  rw [List.take_append_of_le_length h3]
  exact h4.imp fun _ _ => TransOk.mono hK

/-- What holds between turns of the main loop. -/
structure MInv (lo hi : Int) (allow : Bool) (b : Builder) (K : List (List Nat)) (d : Dfa) : Prop where
  dinv : DInv K d
  first : K[0]? = some b.startPositions
  reach : ∀ v ∈ K, ∃ w, Str lo hi w ∧ v = b.run b.startPositions w
  states : ∀ (j : Nat) (st : State), d.states[j]? = some st → ∃ S, K[j]? = some S ∧ StateOk lo hi allow b K d.transitions st S

theorem run_snoc (b : Builder) (S : List Nat) (w : List Int) (c : Int) : b.run S (w ++ [c]) = b.delta c [] (b.run S w) := by
  induction w generalizing S with
  | nil => rfl
  | cons x w ih => exact ih _

theorem run_sorted {b : Builder} (h : WF b) {S : List Nat} (hS : Sorted S) (w : List Int) : Sorted (b.run S w) := by
  induction w generalizing S with
  | nil => exact hS
  | cons c w ih => exact ih (delta_spec h .nil).1

variable {Ps : List (List Int)}

theorem run_lt {b : Builder} (h : Inv star Ps b) (w : List Int) : ∀ x ∈ b.run b.startPositions w, x < b.positions.length := by
  have key : ∀ (w : List Int) S, (∀ x ∈ S, x < b.positions.length) → ∀ x ∈ b.run S w, x < b.positions.length := by
    intro w
    induction w with
    | nil => intro S hS; exact hS
    | cons c w ih =>
      intro S hS
      refine ih _ fun x hx => ?_
      rcases ((delta_spec h.wf .nil).2 x).1 hx with hx | ⟨q, _, _, hx⟩
      · simp at hx
      · obtain ⟨i, P, q0, k, k', l, _, rfl, _, h2, _⟩ := (h.fol _ _).1 hx
        have := l.bound
        rw [h.len]; omega
  refine key w _ fun x hx => ?_
  obtain ⟨i, P, q0, k, l, rfl, h2, _⟩ := (h.start _).1 hx
  have := l.bound
  rw [h.len]; omega

/-- The patterns whose terminal position is reached are those that match. -/
theorem mem_fin {b : Builder} (h : Inv star Ps b) {w : List Int} {i : Nat} :
    i ∈ b.fin (b.run b.startPositions w) ↔ ∃ P, Ps[i]? = some P ∧ Spec.Matches star P w := by
  rw [Builder.fin, List.mem_filterMap]
  constructor
  · rintro ⟨q, hq, h1⟩
    split at h1
    · rename_i hf
      have hlt := run_lt h w q hq
      rw [h.len] at hlt
      obtain ⟨j, P, q0, k, l, hk, rfl⟩ := loc_of hlt
      have := (fol_nil h l hk).1 hf
      subst this
      rw [h.pat j P q0 _ l hk] at h1
      injection h1 with h1; subst h1
      exact ⟨P, l.1, (run_start h l w).1 hq⟩
    · simp at h1
  · rintro ⟨P, h1, h2⟩
    have l : Loc Ps i P (total (Ps.take i)) := ⟨h1, rfl⟩
    refine ⟨_, (run_start h l w).2 h2, ?_⟩
    rw [if_pos ((fol_nil h l (Nat.le_refl _)).2 rfl)]
    exact h.pat i P _ _ l (Nat.le_refl _)

theorem fin_pairwise {b : Builder} (h : Inv star Ps b) {S : List Nat} (hs : Sorted S) (hlt : ∀ x ∈ S, x < b.positions.length) :
    (b.fin S).Pairwise (· < ·) := by
  induction S with
  | nil => exact .nil
  | cons q S ih =>
    have hs' := List.pairwise_cons.1 hs
    have ih' := ih hs'.2 (fun x hx => hlt x (List.mem_cons_of_mem _ hx))
    unfold Builder.fin at ih' ⊢
    rw [List.filterMap_cons]
    split
    · exact ih'
    · rename_i p hp
      refine List.pairwise_cons.2 ⟨fun p' hp' => ?_, ih'⟩
      obtain ⟨q', hq', h1⟩ := List.mem_filterMap.1 hp'
      have hqq := hs'.1 q' hq'
      split at h1
      · rename_i hf'
        split at hp
        · rename_i hf
          have l1 := hlt q List.mem_cons_self
          have l2 := hlt q' (List.mem_cons_of_mem _ hq')
          rw [h.len] at l1 l2
          obtain ⟨j, P, q0, k, l, hk, rfl⟩ := loc_of l1
          obtain ⟨j', P', q0', k', l', hk', rfl⟩ := loc_of l2
          have e1 := (fol_nil h l hk).1 hf
          have e2 := (fol_nil h l' hk').1 hf'
          subst e1 e2
          rw [h.pat _ _ _ _ l hk] at hp
          rw [h.pat _ _ _ _ l' hk'] at h1
          injection hp with hp; subst hp
          injection h1 with h1; subst h1
          rcases Nat.lt_trichotomy j j' with hlt | heq | hgt
          · exact hlt
          · subst heq
            have e := l.1.symm.trans l'.1
            injection e with e; subst e
            have := l.2.trans l'.2.symm
            omega
          · have := l'.lt l hgt; omega
        · simp at hp
      · simp at h1

theorem inRange {b : Builder} (h : Inv star Ps b) (hr : ∀ P ∈ Ps, Str lo hi P) : InRange lo hi b := by
  intro q c hs hf
  obtain ⟨x, hx⟩ := List.exists_mem_of_ne_nil _ hf
  obtain ⟨i, P, q0, k, k', l, rfl, rfl, h1, _, _⟩ := (h.fol _ _).1 hx
  obtain ⟨s, hk⟩ : ∃ s, P[k]? = some s := ⟨_, List.getElem?_eq_getElem h1⟩
  rw [h.sym i P q0 k s l hk] at hs
  unfold symOf at hs
  split at hs
  · simp at hs
  · injection hs with hs
    injection hs with hs
    subst hs
    exact hr P (List.mem_of_getElem? l.1) s (List.mem_of_getElem? hk)

theorem maps_val {A : List (Ent (List Nat))} {f : Int → List Nat} (h : Maps lo hi A f) {e : Ent (List Nat)} (he : e ∈ A) :
    e.val ≠ [] ∧ lo ≤ e.first ∧ e.first ≤ hi ∧ e.val = f e.first := by
  have key : ∀ A : List (Ent (List Nat)), RangeMap.WF lo hi A → e ∈ A → lookup A e.first = some e.val := by
    intro A
    induction A with
    | nil => intro _ h; simp at h
    | cons x A ih =>
      intro hw hm
      obtain ⟨h1, h2, h3⟩ := RangeMap.WF.cons.1 hw
      rw [RangeMap.lookup_cons]
      rcases List.mem_cons.1 hm with rfl | hm
      · rw [if_pos ⟨Int.le_refl _, h1.2.1⟩]
      · have := h2 e hm
        rw [if_neg (by omega)]
        exact ih h3 hm
  have hl := key A h.wf he
  obtain ⟨h1, h2, h3⟩ := h.wf.1 e he
  refine ⟨h.nonempty _ _ hl, h1, by omega, ?_⟩
  have := h.val e.first h1 (by omega)
  rw [hl] at this
  exact this

theorem dfaStep_spec {b : Builder} (h : Inv star Ps b) (hlh : lo ≤ hi) (hr : ∀ P ∈ Ps, Str lo hi P) {allow : Bool}
    {K : List (List Nat)} {d : Dfa} (hM : MInv lo hi allow b K d) (hne : d.unchecked ≠ []) :
    (∃ d' K', dfaStep lo hi allow b d = .ok d' ∧ MInv lo hi allow b K' d' ∧ d'.states.length = d.states.length + 1) ∨
    (allow = false ∧ ∃ w p p' l, Str lo hi w ∧ b.fin (b.run b.startPositions w) = p :: p' :: l ∧
      dfaStep lo hi allow b d = .error (.ambiguity p p')) := by
  obtain ⟨⟨hmap, hun, hnd, hst⟩, hfirst, hreach, hstates⟩ := hM
  rcases hu : d.unchecked with _ | ⟨set2, rest⟩
  · exact absurd hu hne
  rw [hu] at hun
  rcases hdrop : K.drop d.states.length with _ | ⟨S, Krest⟩
  · rw [hdrop] at hun; cases hun
  rw [hdrop] at hun
  have hrefS : Ref d.sets2 set2 S := by cases hun; assumption
  have hKS : K[d.states.length]? = some S := by
    have := congrArg (·[0]?) hdrop
    simpa using this
  obtain ⟨w, hw, hSw⟩ := hreach S (List.mem_of_getElem? hKS)
  have hSlt : ∀ x ∈ S, x < b.positions.length := by rw [hSw]; exact run_lt h w
  have hpl := positionLoop_spec h.wf hlh (inRange h hr) allow S [] [] none [] (fun _ => []) hSlt .nil
    ⟨RangeMap.WF.nil, fun c _ _ => rfl, fun c v hv => by simp at hv⟩ (by simpa using fin_pairwise h hrefS.2 hSlt)
  simp only [Option.toList_none, List.nil_append] at hpl
  rw [dfaStep, hu]
  simp only [bind, Except.bind, contents_at hrefS.1, orUb]
  by_cases hc : allow = true ∨ (b.fin S).length ≤ 1
  · obtain ⟨s1, t1, A1, h1, h2, h3⟩ := hpl.1 hc
    rw [h1]
    simp only
    obtain ⟨r, A, h4, h5, h6⟩ := defrag_maps h2 h3
    rw [h4]
    simp only
    have hdinv : DInv K d := ⟨hmap, by rw [hu, hdrop]; exact hun, hnd, hst⟩
    obtain ⟨d1, K1, ts, g1, g2, g3, g4, g5, g6, g7⟩ := transitionLoop_spec h5 (fun e he => (maps_val h6 he).1) hdinv
    rw [g1]
    simp only
    left
    have hlenK : d.states.length < K.length := by
      have := congrArg List.length hdrop
      simp at this; omega
    have hlenK1 : d.states.length < K1.length := Nat.lt_of_lt_of_le hlenK g3.length_le
    refine ⟨_, K1, rfl, ⟨⟨g2.map, ?_, g2.nodup, ?_⟩, prefix_getElem? g3 hfirst, ?_, ?_⟩, by simp [g4]⟩
    · simp only [List.length_append, List.length_singleton]
      have := g2.unchecked
      rw [g4] at this ⊢
      rw [← List.tail_drop]
      generalize K1.drop d.states.length = KK at this
      generalize d1.unchecked = U at this
      cases this with
      | nil => exact .nil
      | cons _ h => exact h
    · simp only [List.length_append, List.length_singleton, g4]; omega
    · intro v hv
      rcases g7 v hv with hv | ⟨e, he, rfl⟩
      · exact hreach v hv
      · obtain ⟨_, e1, e2, e3⟩ := maps_val h6 he
        refine ⟨w ++ [e.first], ?_, by rw [run_snoc, ← hSw]; exact e3⟩
        intro c hc
        rcases List.mem_append.1 hc with hc | hc
        · exact hw c hc
        · rw [List.mem_singleton] at hc; subst hc; exact ⟨e1, e2⟩
    · intro j st hj
      simp only [g4, g5] at hj ⊢
      by_cases hjl : j < d.states.length
      · rw [List.getElem?_append_left hjl] at hj
        obtain ⟨S', h7, h8⟩ := hstates j st hj
        exact ⟨S', prefix_getElem? g3 h7, h8.mono g3⟩
      · rw [List.getElem?_append_right (by omega)] at hj
        have h0 := (List.getElem?_eq_some_iff.1 hj).1
        simp at h0
        have hje : j = d.states.length := by omega
        subst hje
        simp only [Nat.sub_self, List.getElem?_cons_zero, Option.some.injEq] at hj
        subst hj
        refine ⟨S, prefix_getElem? g3 hKS, rfl, hc, by simp, A, ?_, h6⟩
        simp only
        rw [List.take_of_length_le (Nat.le_refl _), List.drop_left]
        exact g6
  · obtain ⟨p, p', l, h1, h2⟩ := hpl.2 hc
    rw [h2]
    right
    refine ⟨by cases allow <;> simp at hc ⊢, w, p, p', l, hw, by rw [← hSw]; exact h1, rfl⟩

/-- There are at most `2 ^ n` different sets of positions. -/
theorem count_sets {n : Nat} {K : List (List Nat)} (hn : K.Nodup) (hs : ∀ S ∈ K, Sorted S) (hl : ∀ S ∈ K, ∀ x ∈ S, x < n) :
    K.length ≤ 2 ^ n := by
  have hsub : K ⊆ (List.range n).sublists := by
    intro S hS
    rw [List.mem_sublists]
    have e : S = (List.range n).filter (· ∈ S) := by
      refine Verif.FrozenSets.Spec.Lists.unique (P := (· ∈ S)) ⟨hs S hS, fun x => Iff.rfl⟩ ⟨?_, fun x => ?_⟩
      · exact List.Pairwise.filter _ List.pairwise_lt_range
      · simp only [List.mem_filter, List.mem_range, decide_eq_true_eq]
        exact ⟨fun h => h.2, fun h => ⟨hl S hS x h, h⟩⟩
    rw [e]
    exact List.filter_sublist
  have := (List.subperm_of_subset hn hsub).length_le
  rwa [List.length_sublists, List.length_range] at this

theorem MInv.bound {b : Builder} (h : Inv star Ps b) {allow : Bool} {K : List (List Nat)} {d : Dfa} (hM : MInv lo hi allow b K d) :
    K.length ≤ 2 ^ b.positions.length := by
  refine count_sets hM.dinv.nodup (fun S hS => ?_) (fun S hS => ?_)
  · obtain ⟨w, _, rfl⟩ := hM.reach S hS
    exact run_sorted h.wf h.startSorted w
  · obtain ⟨w, _, rfl⟩ := hM.reach S hS
    exact run_lt h w

/-- The result of the construction. -/
def Done (lo hi : Int) (allow : Bool) (b : Builder) (r : Except Fail Dfa) : Prop :=
  (∃ d K, r = .ok d ∧ MInv lo hi allow b K d ∧ d.states.length = K.length) ∨
  (allow = false ∧ ∃ w p p' l, Str lo hi w ∧ b.fin (b.run b.startPositions w) = p :: p' :: l ∧ r = .error (.ambiguity p p'))

theorem forall₂_nil_iff {α β : Type} {R : α → β → Prop} {xs : List α} {ys : List β} (h : List.Forall₂ R xs ys) : xs = [] ↔ ys = [] := by
  cases h <;> simp

theorem dfaLoop_spec {b : Builder} (h : Inv star Ps b) (hlh : lo ≤ hi) (hr : ∀ P ∈ Ps, Str lo hi P) {allow : Bool} (k : Nat) :
    ∀ {K : List (List Nat)} {d : Dfa}, MInv lo hi allow b K d → d.unchecked ≠ [] → 2 ^ b.positions.length ≤ d.states.length + k →
      Done lo hi allow b (dfaLoop lo hi allow b k d) := by
  induction k with
  | zero =>
    intro K d hM hne hk
    have h1 := hM.bound h
    have h2 : K.drop d.states.length ≠ [] := fun e => hne ((forall₂_nil_iff hM.dinv.unchecked).2 e)
    exact absurd (List.drop_eq_nil_of_le (by omega)) h2
  | succ k ih =>
    intro K d hM hne hk
    rw [dfaLoop]
    rcases dfaStep_spec h hlh hr hM hne with ⟨d1, K1, h1, h2, h3⟩ | ⟨h1, w, p, p', l, h2, h3, h4⟩
    · rw [h1]
      simp only [bind, Except.bind]
      by_cases hu : d1.unchecked ≠ []
      · rw [if_pos hu]
        exact ih h2 hu (by omega)
      · rw [if_neg hu]
        left
        refine ⟨d1, K1, rfl, h2, ?_⟩
        have e := (forall₂_nil_iff h2.dinv.unchecked).1 (not_not.1 hu)
        have := h2.dinv.states
        have := congrArg List.length e
        simp at this; omega
    · rw [h4]
      exact .inr ⟨h1, w, p, p', l, h2, h3, rfl⟩

theorem buildDfa_spec {b : Builder} (h : Inv star Ps b) (hlh : lo ≤ hi) (hr : ∀ P ∈ Ps, Str lo hi P) (allow : Bool) :
    Done lo hi allow b (buildDfa lo hi allow b) := by
  have href : Ref ([] ++ b.startPositions) ⟨([] : List Nat).length, ([] : List Nat).length + b.startPositions.length⟩ b.startPositions :=
    ⟨At.new [] b.startPositions, h.startSorted⟩
  have h0 : DInv [] ⟨[], [], [], [], []⟩ := ⟨trivial, .nil, .nil, Nat.le_refl _⟩
  obtain ⟨d, k, K, h1, h2, h3, h4, h5, h6, h7⟩ := ensureState_spec h0 href
  have hk : K = [b.startPositions] := by
    have hall : ∀ u ∈ K, u = b.startPositions := fun u hu => (h5 u hu).resolve_left (by simp)
    have hnd := h2.nodup
    rcases K with _ | ⟨x, _ | ⟨y, K⟩⟩
    · simp at h3
    · rw [hall x (by simp)]
    · have e1 := hall x (by simp)
      have e2 := hall y (by simp)
      subst e1; rw [e2] at hnd; simp at hnd
  subst hk
  rw [buildDfa]
  simp only [FrozenSets.freezeOrdered, bind, Except.bind, orUb, h1]
  refine dfaLoop_spec h hlh hr _ (K := [b.startPositions]) ⟨h2, rfl, ?_, ?_⟩ ?_ (by omega)
  · intro v hv
    rw [List.mem_singleton] at hv; subst hv
    exact ⟨[], by simp [Str], rfl⟩
  · intro j st hj
    rw [h6] at hj; simp at hj
  · intro e
    have := (forall₂_nil_iff h2.unchecked).1 e
    rw [h6] at this
    simp at this

/-! ### Matching -/

theorem lowerBound_spec {K : List (List Nat)} {ts : List Transition} {A : List (Ent (List Nat))} (h : List.Forall₂ (TransOk K) ts A)
    (hw : RangeMap.WF lo hi A) (c : Int) :
    (∃ t, ts.find? (fun t => ¬ t.last < c) = some t ∧ c ≥ t.first ∧ ∃ v, K[t.target]? = some v ∧ lookup A c = some v) ∨
    (lookup A c = none ∧ (ts.find? (fun t => ¬ t.last < c) = none ∨
      ∃ t, ts.find? (fun t => ¬ t.last < c) = some t ∧ ¬ c ≥ t.first)) := by
  induction h with
  | nil => exact .inr ⟨rfl, .inl rfl⟩
  | @cons t e ts A ht hts ih =>
    obtain ⟨h1, h2, h3⟩ := ht
    obtain ⟨w1, w2, w3⟩ := RangeMap.WF.cons.1 hw
    rw [List.find?_cons, RangeMap.lookup_cons]
    by_cases hc : t.last < c
    · rw [if_neg (by omega)]
      simp only [hc, not_true_eq_false, decide_false]
      exact ih w3
    · simp only [hc, not_false_eq_true, decide_true]
      by_cases hf : c ≥ t.first
      · exact .inl ⟨t, rfl, hf, e.val, h3, by rw [if_pos (by omega)]⟩
      · refine .inr ⟨?_, .inr ⟨t, rfl, hf⟩⟩
        rw [if_neg (by omega)]
        refine RangeMap.lookup_eq_none fun x hx => ?_
        have := w2 x hx
        omega

theorem run_nil {b : Builder} (w : List Int) : b.run [] w = [] := by
  induction w with
  | nil => rfl
  | cons c w ih => exact ih

theorem matchLoop_spec {b : Builder} {allow : Bool} {K : List (List Nat)} {d : Dfa} (hM : MInv lo hi allow b K d)
    (hlen : d.states.length = K.length) (ids : List Nat) (w : List Int) :
    ∀ {st : State} {S : List Nat}, Str lo hi w → StateOk lo hi allow b K d.transitions st S →
      ∃ r, matchLoop ⟨ids, d.states, d.transitions⟩ w st = some r ∧ r.bind (·.patternIndex) = (b.fin (b.run S w)).head? := by
  induction w with
  | nil => intro st S _ hst; exact ⟨some st, rfl, hst.1⟩
  | cons c w ih =>
    intro st S hw hst
    obtain ⟨h1, h2, h3, A, h4, h5⟩ := hst
    have hc := hw c List.mem_cons_self
    have hv := h5.val c hc.1 hc.2
    rw [matchLoop, Builder.run]
    rcases lowerBound_spec h4 h5.wf c with ⟨t, g1, g2, v, g3, g4⟩ | ⟨g1, g2⟩
    · simp only [g1, g2, if_true]
      rw [g4] at hv
      simp only [Option.getD_some] at hv
      subst hv
      have hlt := (List.getElem?_eq_some_iff.1 g3).1
      obtain ⟨st', hst'⟩ : ∃ s, d.states[t.target]? = some s := ⟨_, List.getElem?_eq_getElem (by omega)⟩
      obtain ⟨S', e1, e2⟩ := hM.states _ _ hst'
      rw [g3] at e1
      injection e1 with e1; subst e1
      obtain ⟨r, r1, r2⟩ := ih (fun x hx => hw x (List.mem_cons_of_mem _ hx)) e2
      exact ⟨r, by rw [hst']; exact r1, r2⟩
    · rw [g1] at hv
      simp only [Option.getD_none] at hv
      rw [← hv, run_nil]
      refine ⟨none, ?_, rfl⟩
      rcases g2 with g2 | ⟨t, g2, g3⟩
      · simp only [g2]
      · simp only [g2, g3, if_false]

end Verif.StringMatcher
