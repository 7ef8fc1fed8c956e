import Verif.StringMatcher.Nfa
import Verif.StringMatcher.Spec
import Mathlib.Data.List.TakeWhile
import Mathlib.Data.List.Induction
/-!
The positions of a pattern.
-/
namespace Verif.StringMatcher
open Verif.FrozenSets (Ident At)

variable {star : Int}

/-- All characters of `Q` from index `a` to index `b` (exclusive) are stars. -/
def gap (star : Int) (Q : List Int) (a b : Nat) : Prop := ∀ k, a ≤ k → k < b → Q[k]? = some star

/-- The character at index `k'` can be the next to be used after the one at index `k`. -/
def Fol (star : Int) (Q : List Int) (k k' : Nat) : Prop := (k' = k ∧ Q[k]? = some star) ∨ (k < k' ∧ gap star Q (k + 1) k')

theorem gap_nil {Q : List Int} {a b : Nat} (h : b ≤ a) : gap star Q a b := fun k h1 h2 => absurd h1 (by omega)

theorem gap_left {Q1 Q2 : List Int} {a b : Nat} (h : b ≤ Q1.length) : gap star (Q1 ++ Q2) a b ↔ gap star Q1 a b := by
  refine forall_congr' fun k => forall_congr' fun _ => forall_congr' fun hk => ?_
  rw [List.getElem?_append_left (by omega)]

theorem gap_right {Q1 Q2 : List Int} {a b : Nat} :
    gap star (Q1 ++ Q2) (Q1.length + a) (Q1.length + b) ↔ gap star Q2 a b := by
  constructor
  · intro h k h1 h2
    have := h (Q1.length + k) (by omega) (by omega)
    rwa [List.getElem?_append_right (by omega), Nat.add_sub_cancel_left] at this
  · intro h k h1 h2
    rw [List.getElem?_append_right (by omega)]
    exact h _ (by omega) (by omega)

theorem gap_split {Q : List Int} {a b c : Nat} (h1 : a ≤ b) (h2 : b ≤ c) : gap star Q a c ↔ gap star Q a b ∧ gap star Q b c := by
  constructor
  · intro h
    exact ⟨fun k h3 h4 => h k h3 (by omega), fun k h3 h4 => h k (by omega) h4⟩
  · rintro ⟨h3, h4⟩ k h5 h6
    by_cases hk : k < b
    · exact h3 k h5 hk
    · exact h4 k (by omega) h6

theorem gap_mid {Q1 Q2 : List Int} {a b : Nat} (h : a ≤ Q1.length) :
    gap star (Q1 ++ Q2) a (Q1.length + b) ↔ gap star Q1 a Q1.length ∧ gap star Q2 0 b := by
  rw [gap_split h (Nat.le_add_right _ _), gap_left (Nat.le_refl _)]
  have := gap_right (star := star) (Q1 := Q1) (Q2 := Q2) (a := 0) (b := b)
  rw [Nat.add_zero] at this
  rw [this]

theorem gap_nostar {Q : List Int} (h : star ∉ Q) {a b : Nat} : gap star Q a b ↔ b ≤ a := by
  constructor
  · intro hg
    by_contra hlt
    exact h (List.mem_of_getElem? (hg a (Nat.le_refl _) (by omega)))
  · exact gap_nil

/-- The symbol of a character. -/
def symOf (star c : Int) : Option Int := if c = star then none else some c

/-- What is added to a builder. -/
structure Ext (pi : Nat) (sy : List (Option Int)) (b b' : Builder) : Prop where
  wf : WF b'
  patterns : b'.patterns = b.patterns
  start : b'.startPositions = b.startPositions
  sets1 : ∃ more, b'.sets1 = b.sets1 ++ more
  sym : b'.positions.map (·.symbol) = b.positions.map (·.symbol) ++ sy
  pat : b'.positions.map (·.patternIndex) = b.positions.map (·.patternIndex) ++ List.replicate sy.length pi

variable {pi : Nat}

theorem Ext.len {sy : List (Option Int)} {b b' : Builder} (h : Ext pi sy b b') :
    b'.positions.length = b.positions.length + sy.length := by
  have := congrArg List.length h.sym
  simpa using this

theorem Ext.trans {s1 s2 : List (Option Int)} {a b c : Builder} (h1 : Ext pi s1 a b) (h2 : Ext pi s2 b c) :
    Ext pi (s1 ++ s2) a c := by
  obtain ⟨m1, e1⟩ := h1.sets1
  obtain ⟨m2, e2⟩ := h2.sets1
  refine ⟨h2.wf, h2.patterns.trans h1.patterns, h2.start.trans h1.start, ⟨m1 ++ m2, by rw [e2, e1, List.append_assoc]⟩, ?_, ?_⟩
  · rw [h2.sym, h1.sym, List.append_assoc]
  · rw [h2.pat, h1.pat, List.append_assoc, List.length_append, List.replicate_add]

theorem Ext.at {sy : List (Option Int)} {b b' : Builder} (h : Ext pi sy b b') {i : Ident} {c : List Nat} (hc : At b.sets1 i c) :
    At b'.sets1 i c := by
  obtain ⟨m, e⟩ := h.sets1
  rw [e]; exact hc.append m

theorem Frame.ext {b b' : Builder} (h : Frame b b') (hw : WF b') : Ext pi [] b b' := by
  refine ⟨hw, h.patterns, h.start, ⟨[], by rw [h.sets1, List.append_nil]⟩, ?_, ?_⟩
  · rw [List.append_nil]
    refine List.ext_getElem? fun q => ?_
    rw [List.getElem?_map, List.getElem?_map]
    exact h.sym q
  · simp only [List.length_nil, List.replicate_zero, List.append_nil]
    refine List.ext_getElem? fun q => ?_
    rw [List.getElem?_map, List.getElem?_map]
    exact h.pat q

theorem fol_ge {b : Builder} {q : Nat} (h : b.positions.length ≤ q) : b.fol q = [] := by
  rw [Builder.fol, List.getElem?_eq_none h]

theorem registerPosition_ext {b : Builder} (h : WF b) (sym : Option Int) :
    Ext pi [sym] b (b.registerPosition sym pi).1 ∧ ∀ q, (b.registerPosition sym pi).1.fol q = b.fol q := by
  have hs := registerPosition_spec h sym pi
  refine ⟨⟨hs.1, rfl, rfl, ⟨[], by simp [Builder.registerPosition]⟩, ?_, ?_⟩, hs.2.2.2.2.2.2.2.2⟩ <;>
    simp [Builder.registerPosition]

theorem freeze_ext {b : Builder} (h : WF b) (pos : Nat) :
    Ext pi [] b (b.freeze pos).1 ∧ (∀ q, (b.freeze pos).1.fol q = b.fol q) ∧ At (b.freeze pos).1.sets1 (b.freeze pos).2 [pos] := by
  refine ⟨⟨h.of_eq rfl rfl, rfl, rfl, ⟨[pos], rfl⟩, ?_, ?_⟩, fun q => rfl, ?_⟩
  · simp [Builder.freeze]
  · simp [Builder.freeze]
  · exact At.new b.sets1 [pos]

theorem unite_ext {b : Builder} (h : WF b) {i j : Ident} {xs ys : List Nat} (hi : At b.sets1 i xs) (hj : At b.sets1 j ys)
    (hx : Sorted xs) (hy : Sorted ys) (hd : xs ≠ ys) :
    ∃ b' k zs, b.unite i j = some (b', k) ∧ Ext pi [] b b' ∧ (∀ q, b'.fol q = b.fol q) ∧ At b'.sets1 k zs ∧ Sorted zs ∧
      ∀ x, x ∈ zs ↔ x ∈ xs ∨ x ∈ ys := by
  have hl := FrozenSets.setUnion_lists hx hy
  generalize hzs : FrozenSets.setUnion xs ys = zs at hl
  obtain ⟨-, h2, h3, h4⟩ := FrozenSets.unite_spec 0 hi hj hx hy hl
  have hsame : ∀ _ : Ident, Ext pi [] b { b with sets1 := b.sets1 } ∧ ∀ q, ({ b with sets1 := b.sets1 } : Builder).fol q = b.fol q := by
    intro _
    exact ⟨⟨h, rfl, rfl, ⟨[], by simp⟩, by simp, by simp⟩, fun q => rfl⟩
  by_cases e1 : xs = zs
  · refine ⟨b, i, zs, ?_, (hsame i).1, (hsame i).2, e1 ▸ hi, hl.1, hl.2⟩
    simp only [Builder.unite, h2 hd e1, Except.toOption, Option.bind_eq_bind, Option.bind_some]
  · by_cases e2 : ys = zs
    · refine ⟨b, j, zs, ?_, (hsame i).1, (hsame i).2, e2 ▸ hj, hl.1, hl.2⟩
      simp only [Builder.unite, h3 hd e2, Except.toOption, Option.bind_eq_bind, Option.bind_some]
    · refine ⟨{ b with sets1 := b.sets1 ++ zs }, _, zs, ?_, ⟨h.of_eq rfl rfl, rfl, rfl, ⟨zs, rfl⟩, by simp, by simp⟩,
        fun q => rfl, At.new b.sets1 zs, hl.1, hl.2⟩
      simp only [Builder.unite, h4 e1 e2, Except.toOption, Option.bind_eq_bind, Option.bind_some]

theorem segmentLoop_spec {cs : List Int} : ∀ {b : Builder} {pos : Nat}, WF b → b.positions.length = pos + 1 →
    ∃ b', segmentLoop pi cs b pos = some (b', pos + cs.length) ∧ Ext pi (cs.map some) b b' ∧
      ∀ q x, x ∈ b'.fol q ↔ x ∈ b.fol q ∨ (pos ≤ q ∧ q < pos + cs.length ∧ x = q + 1) := by
  induction cs with
  | nil =>
    intro b pos h hl
    refine ⟨b, rfl, ⟨h, rfl, rfl, ⟨[], by simp⟩, by simp, by simp⟩, fun q x => ?_⟩
    simp; omega
  | cons c cs ih =>
    intro b pos h hl
    obtain ⟨e1, f1⟩ := registerPosition_ext (pi := pi) h (some c)
    have hp : (b.registerPosition (some c) pi).2 = b.positions.length := rfl
    generalize hb1 : b.registerPosition (some c) pi = r1 at e1 f1 hp
    obtain ⟨b1, p1⟩ := r1
    simp only at hp e1 f1; subst hp
    have hl1 := e1.len
    obtain ⟨b2, h2, w2, fr2, f2, f2'⟩ := registerFollowpos_spec e1.wf (p1 := pos) (by rw [hl1]; simp; omega) b.positions.length
    have e2 := e1.trans (fr2.ext (pi := pi) w2)
    have hl2 := e2.len
    obtain ⟨b3, h3, e3, f3⟩ := ih (b := b2) (pos := b.positions.length) w2 (by rw [hl2]; simp)
    refine ⟨b3, ?_, ?_, ?_⟩
    · simp only [segmentLoop, hb1, h2, Option.bind_eq_bind, Option.bind_some, h3, List.length_cons]
      congr 2; omega
    · have := e2.trans e3
      simpa using this
    · intro q x
      rw [f3]
      by_cases hq : q = pos
      · subst hq
        rw [f2', f1, hl, List.length_cons]
        constructor
        · rintro ((h | h) | h)
          · exact .inr ⟨Nat.le_refl _, by omega, h⟩
          · exact .inl h
          · omega
        · rintro (h | h)
          · exact .inl (.inr h)
          · exact .inl (.inl h.2.2)
      · rw [f2 q hq, f1, hl, List.length_cons]
        constructor
        · rintro (h | h)
          · exact .inl h
          · exact .inr ⟨by omega, by omega, h.2.2⟩
        · rintro (h | h)
          · exact .inl h
          · exact .inr ⟨by omega, by omega, h.2.2⟩

/-- A parse tree of a text. -/
inductive Tree (star : Int) : Node → List Int → Prop
  | segment {lexeme : List Int} : lexeme ≠ [] → star ∉ lexeme → Tree star (.segment lexeme) lexeme
  | wildcard : Tree star .wildcard [star]
  | concatenation {l r : Node} {p q : List Int} : Tree star l p → Tree star r q → Tree star (.concatenation l r) (p ++ q)

theorem Tree.ne_nil {n : Node} {Q : List Int} (h : Tree star n Q) : Q ≠ [] := by
  cases h with
  | segment h _ => exact h
  | wildcard => simp
  | concatenation h1 _ => have := h1.ne_nil; simp [this]

/-- What `add_node()` does. -/
structure Adds (star : Int) (pi : Nat) (Q : List Int) (b b' : Builder) (r : Result) : Prop where
  ext : Ext pi (Q.map (symOf star)) b b'
  nullable : r.nullable = true ↔ gap star Q 0 Q.length
  firstpos : ∃ F, At b'.sets1 r.firstpos F ∧ Sorted F ∧
    ∀ x, x ∈ F ↔ ∃ j, x = b.positions.length + j ∧ j < Q.length ∧ gap star Q 0 j
  lastpos : ∃ L, At b'.sets1 r.lastpos L ∧ Sorted L ∧
    ∀ x, x ∈ L ↔ ∃ j, x = b.positions.length + j ∧ j < Q.length ∧ gap star Q (j + 1) Q.length
  fol : ∀ q x, x ∈ b'.fol q ↔ x ∈ b.fol q ∨
    ∃ k k', q = b.positions.length + k ∧ x = b.positions.length + k' ∧ k < Q.length ∧ k' < Q.length ∧ Fol star Q k k'

theorem map_symOf {Q : List Int} (h : star ∉ Q) : Q.map (symOf star) = Q.map some := by
  refine List.map_congr_left fun c hc => ?_
  rw [symOf, if_neg]
  rintro rfl; exact h hc

theorem addNode_segment {Q : List Int} (hne : Q ≠ []) (hs : star ∉ Q) {b : Builder} (h : WF b) :
    ∃ b' r, addNode pi (.segment Q) b = some (b', r) ∧ Adds star pi Q b b' r := by
  rcases Q with _ | ⟨c, cs⟩
  · exact absurd rfl hne
  obtain ⟨e1, f1⟩ := registerPosition_ext (pi := pi) h (some c)
  have hp : (b.registerPosition (some c) pi).2 = b.positions.length := rfl
  generalize hb1 : b.registerPosition (some c) pi = r1 at e1 f1 hp
  obtain ⟨b1, p1⟩ := r1
  simp only at hp; subst hp
  obtain ⟨e2, f2, a2⟩ := freeze_ext (pi := pi) e1.wf b.positions.length
  simp only at e2 f2 a2
  generalize hb2 : b1.freeze b.positions.length = r2 at e2 f2 a2
  obtain ⟨b2, i2⟩ := r2
  simp only at e2 f2 a2
  have hl2 := (e1.trans e2).len
  simp only [List.length_append, List.length_cons, List.length_nil] at hl2
  obtain ⟨b3, h3, e3, f3⟩ := segmentLoop_spec (pi := pi) (cs := cs) (b := b2) (pos := b.positions.length) e2.wf (by omega)
  obtain ⟨e4, f4, a4⟩ := freeze_ext (pi := pi) e3.wf (b.positions.length + cs.length)
  generalize hb4 : b3.freeze (b.positions.length + cs.length) = r4 at e4 f4 a4
  obtain ⟨b4, i4⟩ := r4
  simp only at e4 f4 a4
  have hg := fun (a b : Nat) => gap_nostar (a := a) (b := b) hs
  have hfirst : ∀ x, x ∈ [b.positions.length] ↔
      ∃ j, x = b.positions.length + j ∧ j < (c :: cs).length ∧ gap star (c :: cs) 0 j := by
    intro x
    rw [List.mem_singleton]
    constructor
    · rintro rfl; exact ⟨0, by omega, by simp, gap_nil (Nat.le_refl _)⟩
    · rintro ⟨j, rfl, h1, h2⟩; have := (hg _ _).1 h2; omega
  have hlast : ∀ x, x ∈ [b.positions.length + cs.length] ↔
      ∃ j, x = b.positions.length + j ∧ j < (c :: cs).length ∧ gap star (c :: cs) (j + 1) (c :: cs).length := by
    intro x
    rw [List.mem_singleton, List.length_cons]
    constructor
    · rintro rfl; exact ⟨cs.length, by omega, by omega, gap_nil (Nat.le_refl _)⟩
    · rintro ⟨j, rfl, h1, h2⟩; have := (hg _ _).1 h2; omega
  have hfol : ∀ q x, x ∈ b3.fol q ↔ x ∈ b.fol q ∨ ∃ k k', q = b.positions.length + k ∧ x = b.positions.length + k' ∧
      k < (c :: cs).length ∧ k' < (c :: cs).length ∧ Fol star (c :: cs) k k' := by
    intro q x
    rw [f3, f2, f1, List.length_cons]
    refine or_congr_right ⟨?_, ?_⟩
    · rintro ⟨h1, h2, rfl⟩
      refine ⟨q - b.positions.length, q + 1 - b.positions.length, by omega, by omega, by omega, by omega, .inr ⟨by omega, ?_⟩⟩
      exact gap_nil (by omega)
    · rintro ⟨k, k', rfl, rfl, h1, h2, h3 | h3⟩
      · exact absurd (List.mem_of_getElem? h3.2) hs
      · have := (hg _ _).1 h3.2
        exact ⟨by omega, by omega, by omega⟩
  have hnull : (false = true ↔ gap star (c :: cs) 0 (c :: cs).length) := by
    rw [hg]; simp
  by_cases hcs : cs = []
  · subst hcs
    rw [segmentLoop] at h3
    simp only [Option.some.injEq, Prod.mk.injEq] at h3
    obtain ⟨h3, -⟩ := h3
    subst h3
    refine ⟨b2, ⟨false, i2, i2⟩, ?_, ⟨?_, hnull, ⟨_, a2, by simp [Sorted], hfirst⟩, ⟨_, a2, by simp [Sorted], hlast⟩, hfol⟩⟩
    · simp only [addNode, hb1, hb2, ne_eq, not_true_eq_false, if_false]
    · rw [map_symOf hs]; exact e1.trans e2
  · refine ⟨b4, ⟨false, i2, i4⟩, ?_, ⟨?_, hnull, ⟨_, (e3.trans e4).at a2, by simp [Sorted], hfirst⟩,
      ⟨_, a4, by simp [Sorted], hlast⟩, fun q x => by rw [f4]; exact hfol q x⟩⟩
    · simp only [addNode, hb1, hb2, ne_eq, hcs, not_false_eq_true, if_true, h3, Option.bind_eq_bind, Option.bind_some, hb4]
    · rw [map_symOf hs]
      simpa using ((e1.trans e2).trans e3).trans e4

theorem addNode_wildcard {b : Builder} (h : WF b) :
    ∃ b' r, addNode pi .wildcard b = some (b', r) ∧ Adds star pi [star] b b' r := by
  obtain ⟨e1, f1⟩ := registerPosition_ext (pi := pi) h none
  have hp : (b.registerPosition none pi).2 = b.positions.length := rfl
  generalize hb1 : b.registerPosition none pi = r1 at e1 f1 hp
  obtain ⟨b1, p1⟩ := r1
  simp only at hp e1 f1; subst hp
  have hl1 := e1.len
  simp only [List.length_cons, List.length_nil] at hl1
  obtain ⟨b2, h2, w2, fr2, f2, f2'⟩ := registerFollowpos_spec e1.wf (p1 := b.positions.length) (by omega) b.positions.length
  obtain ⟨e3, f3, a3⟩ := freeze_ext (pi := pi) w2 b.positions.length
  generalize hb3 : b2.freeze b.positions.length = r3 at e3 f3 a3
  obtain ⟨b3, i3⟩ := r3
  simp only at e3 f3 a3
  refine ⟨b3, ⟨true, i3, i3⟩, ?_, ⟨?_, ?_, ⟨_, a3, by simp [Sorted], ?_⟩, ⟨_, a3, by simp [Sorted], ?_⟩, ?_⟩⟩
  · simp only [addNode, hb1, h2, Option.bind_eq_bind, Option.bind_some, hb3]
  · have := (e1.trans (fr2.ext (pi := pi) w2)).trans e3
    simpa [symOf] using this
  · refine ⟨fun _ k _ hk => ?_, fun _ => rfl⟩
    simp at hk; subst hk; rfl
  · intro x
    simp only [List.mem_singleton, List.length_singleton]
    constructor
    · rintro rfl; exact ⟨0, by omega, by omega, gap_nil (Nat.le_refl _)⟩
    · rintro ⟨j, rfl, h1, _⟩; omega
  · intro x
    simp only [List.mem_singleton, List.length_singleton]
    constructor
    · rintro rfl; exact ⟨0, by omega, by omega, gap_nil (Nat.le_refl _)⟩
    · rintro ⟨j, rfl, h1, _⟩; omega
  · intro q x
    rw [f3, List.length_singleton]
    by_cases hq : q = b.positions.length
    · subst hq
      rw [f2', f1, or_comm]
      refine or_congr_right ⟨?_, ?_⟩
      · rintro rfl; exact ⟨0, 0, by omega, by omega, by omega, by omega, .inl ⟨rfl, rfl⟩⟩
      · rintro ⟨k, k', h1, rfl, _, h2, _⟩; omega
    · rw [f2 q hq, f1]
      refine ⟨.inl, ?_⟩
      rintro (h | ⟨k, k', h1, h2, h3, _⟩)
      · exact h
      · omega

theorem gap_right0 {Q1 Q2 : List Int} {b : Nat} :
    gap star (Q1 ++ Q2) Q1.length (Q1.length + b) ↔ gap star Q2 0 b := gap_right (a := 0)

theorem addNode_spec {n : Node} {Q : List Int} (ht : Tree star n Q) :
    ∀ {b : Builder}, WF b → ∃ b' r, addNode pi n b = some (b', r) ∧ Adds star pi Q b b' r := by
  induction ht with
  | segment h1 h2 => exact addNode_segment h1 h2
  | wildcard => exact addNode_wildcard
  | @concatenation l r P Q t1 t2 ih1 ih2 =>
    intro b h
    obtain ⟨b1, r1, h1, A1⟩ := ih1 h
    obtain ⟨b2, r2, h2, A2⟩ := ih2 A1.ext.wf
    obtain ⟨F1, af1, sf1, mf1⟩ := A1.firstpos
    obtain ⟨L1, al1, sl1, ml1⟩ := A1.lastpos
    obtain ⟨F2, af2, sf2, mf2⟩ := A2.firstpos
    obtain ⟨L2, al2, sl2, ml2⟩ := A2.lastpos
    have n1 : b1.positions.length = b.positions.length + P.length := by have := A1.ext.len; simpa using this
    have n2 : b2.positions.length = b1.positions.length + Q.length := by have := A2.ext.len; simpa using this
    generalize hN : b.positions.length = N at *
    have al1' := A2.ext.at al1
    have af1' := A2.ext.at af1
    have hP : 0 < P.length := List.length_pos_of_ne_nil t1.ne_nil
    have hQ : 0 < Q.length := List.length_pos_of_ne_nil t2.ne_nil
    obtain ⟨b3, h3, w3, fr3, f3⟩ := registerPairs_spec A2.ext.wf (ps := L1) af2 (by
      intro p hp
      obtain ⟨j, rfl, hj, _⟩ := (ml1 p).1 hp
      omega)
    have e3 := fr3.ext (pi := pi) w3
    -- follow positions
    have hfol : ∀ q x, x ∈ b3.fol q ↔ x ∈ b.fol q ∨ ∃ k k', q = N + k ∧ x = N + k' ∧ k < (P ++ Q).length ∧
        k' < (P ++ Q).length ∧ Fol star (P ++ Q) k k' := by
      intro q x
      rw [f3, A2.fol, A1.fol, hN, n1, mf2, ml1, List.length_append, n1]
      constructor
      · rintro (((h | ⟨k, k', rfl, rfl, h4, h5, h6⟩) | ⟨k, k', rfl, rfl, h4, h5, h6⟩) | ⟨⟨j, rfl, h4, h5⟩, j', rfl, h6, h7⟩)
        · exact .inl h
        · refine .inr ⟨k, k', rfl, rfl, by omega, by omega, ?_⟩
          rcases h6 with h6 | h6
          · exact .inl ⟨h6.1, by rw [List.getElem?_append_left h4]; exact h6.2⟩
          · exact .inr ⟨h6.1, (gap_left (by omega)).2 h6.2⟩
        · refine .inr ⟨P.length + k, P.length + k', by omega, by omega, by omega, by omega, ?_⟩
          rcases h6 with h6 | h6
          · exact .inl ⟨by omega, by rw [List.getElem?_append_right (by omega), Nat.add_sub_cancel_left]; exact h6.2⟩
          · exact .inr ⟨by omega, gap_right.2 h6.2⟩
        · exact .inr ⟨j, P.length + j', rfl, by omega, by omega, by omega, .inr ⟨by omega, (gap_mid (by omega)).2 ⟨h5, h7⟩⟩⟩
      · rintro (h | ⟨k, k', rfl, rfl, h4, h5, h6⟩)
        · exact .inl (.inl (.inl h))
        · by_cases hk : k < P.length
          · by_cases hk' : k' < P.length
            · refine .inl (.inl (.inr ⟨k, k', rfl, rfl, hk, hk', ?_⟩))
              rcases h6 with h6 | h6
              · exact .inl ⟨h6.1, by rw [List.getElem?_append_left hk] at h6; exact h6.2⟩
              · exact .inr ⟨h6.1, (gap_left (by omega)).1 h6.2⟩
            · rcases h6 with h6 | h6
              · omega
              · have := h6.2
                obtain ⟨k'', rfl⟩ : ∃ k'', k' = P.length + k'' := ⟨k' - P.length, by omega⟩
                obtain ⟨g1, g2⟩ := (gap_mid (by omega)).1 this
                exact .inr ⟨⟨k, rfl, hk, g1⟩, k'', by omega, by omega, g2⟩
          · obtain ⟨k2, rfl⟩ : ∃ k'', k = P.length + k'' := ⟨k - P.length, by omega⟩
            have hk' : P.length ≤ k' := by rcases h6 with h6 | h6 <;> omega
            obtain ⟨k2', rfl⟩ : ∃ k'', k' = P.length + k'' := ⟨k' - P.length, by omega⟩
            refine .inl (.inr ⟨k2, k2', by omega, by omega, by omega, by omega, ?_⟩)
            rcases h6 with h6 | h6
            · refine .inl ⟨by omega, ?_⟩
              have := h6.2
              rwa [List.getElem?_append_right (by omega), Nat.add_sub_cancel_left] at this
            · exact .inr ⟨by omega, gap_right.1 h6.2⟩
    -- disjointness
    have hdisj : ∀ (X Y : List Nat), X ≠ [] → (∀ x ∈ X, x < b1.positions.length) → (∀ x ∈ Y, b1.positions.length ≤ x) → X ≠ Y := by
      rintro X Y hX hx hy rfl
      obtain ⟨x, hxX⟩ := List.exists_mem_of_ne_nil X hX
      have := hx x hxX
      have := hy x hxX
      omega
    have hF1 : F1 ≠ [] := fun e => by
      have := (mf1 N).2 ⟨0, by omega, hP, gap_nil (Nat.le_refl _)⟩
      rw [e] at this; simp at this
    have hL1 : L1 ≠ [] := fun e => by
      have := (ml1 (N + (P.length - 1))).2 ⟨P.length - 1, rfl, by omega, gap_nil (by omega)⟩
      rw [e] at this; simp at this
    have dF := hdisj F1 F2 hF1 (fun x hx => by obtain ⟨j, rfl, hj, _⟩ := (mf1 x).1 hx; omega)
      (fun x hx => by obtain ⟨j, rfl, hj, _⟩ := (mf2 x).1 hx; omega)
    have dL := hdisj L1 L2 hL1 (fun x hx => by obtain ⟨j, rfl, hj, _⟩ := (ml1 x).1 hx; omega)
      (fun x hx => by obtain ⟨j, rfl, hj, _⟩ := (ml2 x).1 hx; omega)
    -- the first positions
    have hfirst : ∃ b4 i4 F, (if !r1.nullable then some (b3, r1.firstpos) else b3.unite r1.firstpos r2.firstpos) = some (b4, i4) ∧
        Ext pi [] b3 b4 ∧ (∀ q, b4.fol q = b3.fol q) ∧ At b4.sets1 i4 F ∧ Sorted F ∧
        ∀ x, x ∈ F ↔ ∃ j, x = N + j ∧ j < (P ++ Q).length ∧ gap star (P ++ Q) 0 j := by
      cases hnull : r1.nullable
      · have hng : ¬ gap star P 0 P.length := fun hg => by rw [A1.nullable.2 hg] at hnull; simp at hnull
        refine ⟨b3, r1.firstpos, F1, rfl, ⟨w3, rfl, rfl, ⟨[], by simp⟩, by simp, by simp⟩, fun _ => rfl, e3.at af1', sf1, fun x => ?_⟩
        rw [mf1, List.length_append]
        constructor
        · rintro ⟨j, rfl, h4, h5⟩; exact ⟨j, rfl, by omega, (gap_left (by omega)).2 h5⟩
        · rintro ⟨j, rfl, h4, h5⟩
          by_cases hj : j < P.length
          · exact ⟨j, rfl, hj, (gap_left (by omega)).1 h5⟩
          · obtain ⟨j', rfl⟩ : ∃ j', j = P.length + j' := ⟨j - P.length, by omega⟩
            exact absurd ((gap_mid (by omega)).1 h5).1 hng
      · have hg := A1.nullable.1 hnull
        obtain ⟨b4, i4, F, u1, u2, u3, u4, u5, u6⟩ := unite_ext (pi := pi) w3 (e3.at af1') (e3.at af2) sf1 sf2 dF
        refine ⟨b4, i4, F, u1, u2, u3, u4, u5, fun x => ?_⟩
        rw [u6, mf1, mf2, List.length_append, n1]
        constructor
        · rintro (⟨j, rfl, h4, h5⟩ | ⟨j, rfl, h4, h5⟩)
          · exact ⟨j, rfl, by omega, (gap_left (by omega)).2 h5⟩
          · exact ⟨P.length + j, by omega, by omega, (gap_mid (by omega)).2 ⟨hg, h5⟩⟩
        · rintro ⟨j, rfl, h4, h5⟩
          by_cases hj : j < P.length
          · exact .inl ⟨j, rfl, hj, (gap_left (by omega)).1 h5⟩
          · obtain ⟨j', rfl⟩ : ∃ j', j = P.length + j' := ⟨j - P.length, by omega⟩
            exact .inr ⟨j', by omega, by omega, ((gap_mid (by omega)).1 h5).2⟩
    obtain ⟨b4, i4, F, h4, e4, f4, aF, sF, mF⟩ := hfirst
    -- the last positions
    have hlast : ∃ b5 i5 L, (if !r2.nullable then some (b4, r2.lastpos) else b4.unite r1.lastpos r2.lastpos) = some (b5, i5) ∧
        Ext pi [] b4 b5 ∧ (∀ q, b5.fol q = b4.fol q) ∧ At b5.sets1 i5 L ∧ Sorted L ∧
        ∀ x, x ∈ L ↔ ∃ j, x = N + j ∧ j < (P ++ Q).length ∧ gap star (P ++ Q) (j + 1) (P ++ Q).length := by
      have e34 := e3.trans e4
      cases hnull : r2.nullable
      · have hng : ¬ gap star Q 0 Q.length := fun hg => by rw [A2.nullable.2 hg] at hnull; simp at hnull
        refine ⟨b4, r2.lastpos, L2, rfl, ⟨e4.wf, rfl, rfl, ⟨[], by simp⟩, by simp, by simp⟩, fun _ => rfl, e34.at al2, sl2, fun x => ?_⟩
        rw [ml2, List.length_append, n1]
        constructor
        · rintro ⟨j, rfl, h4, h5⟩; exact ⟨P.length + j, by omega, by omega, by rw [Nat.add_assoc]; exact gap_right.2 h5⟩
        · rintro ⟨j, rfl, h4, h5⟩
          by_cases hj : j < P.length
          · exact absurd ((gap_mid (by omega)).1 h5).2 hng
          · obtain ⟨j', rfl⟩ : ∃ j', j = P.length + j' := ⟨j - P.length, by omega⟩
            rw [Nat.add_assoc] at h5
            exact ⟨j', by omega, by omega, gap_right.1 h5⟩
      · have hg := A2.nullable.1 hnull
        obtain ⟨b5, i5, L, u1, u2, u3, u4, u5, u6⟩ := unite_ext (pi := pi) e4.wf (e34.at al1') (e34.at al2) sl1 sl2 dL
        refine ⟨b5, i5, L, u1, u2, u3, u4, u5, fun x => ?_⟩
        rw [u6, ml1, ml2, List.length_append, n1]
        constructor
        · rintro (⟨j, rfl, h4, h5⟩ | ⟨j, rfl, h4, h5⟩)
          · exact ⟨j, rfl, by omega, (gap_mid (by omega)).2 ⟨h5, hg⟩⟩
          · exact ⟨P.length + j, by omega, by omega, by rw [Nat.add_assoc]; exact gap_right.2 h5⟩
        · rintro ⟨j, rfl, h4, h5⟩
          by_cases hj : j < P.length
          · exact .inl ⟨j, rfl, hj, ((gap_mid (by omega)).1 h5).1⟩
          · obtain ⟨j', rfl⟩ : ∃ j', j = P.length + j' := ⟨j - P.length, by omega⟩
            rw [Nat.add_assoc] at h5
            exact .inr ⟨j', by omega, by omega, gap_right.1 h5⟩
    obtain ⟨b5, i5, L, h5, e5, f5, aL, sL, mL⟩ := hlast
    refine ⟨b5, ⟨r1.nullable && r2.nullable, i4, i5⟩, ?_, ?_⟩
    · simp only [addNode, h1, h2, Builder.registerFollowposSets, contents_at al1', h3, Option.bind_eq_bind, Option.bind_some]
      cases hn1 : r1.nullable <;> cases hn2 : r2.nullable <;> simp only [hn1, hn2, Bool.not_true, Bool.not_false, if_true,
        Bool.false_eq_true, if_false, Option.some.injEq, Prod.mk.injEq] at h4 h5 ⊢ <;>
        simp [h4, h5]
    · refine ⟨?_, ?_, ⟨F, e5.at aF, sF, ?_⟩, ⟨L, aL, sL, ?_⟩, ?_⟩
      · have := (((A1.ext.trans A2.ext).trans e3).trans e4).trans e5
        simpa using this
      · simp only [Bool.and_eq_true, A1.nullable, A2.nullable]
        rw [List.length_append, gap_mid (Nat.zero_le _)]
      · rw [hN]; exact mF
      · rw [hN]; exact mL
      · rw [hN]; intro q x; rw [f5, f4]; exact hfol q x

end Verif.StringMatcher
