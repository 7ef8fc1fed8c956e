import Verif.CliPattern.Builder
import Verif.CliPattern.Glushkov
import Mathlib.Tactic.Tauto
/-!
The automaton over positions that is built from a pattern.
-/
namespace Verif.CliPattern

theorem mem_setInsert {x y : Nat} : ∀ {l : List Nat}, y ∈ (setInsert x l).1 ↔ y = x ∨ y ∈ l
  | [] => by simp [setInsert]
  | z :: l => by
    unfold setInsert
    split
    · simp
    · split
      · next h => subst h; simp only [List.mem_cons]; tauto
      · simp only [List.mem_cons, mem_setInsert (l := l)]; tauto

theorem setInsert_sorted {x : Nat} : ∀ {l : List Nat}, l.Pairwise (· < ·) → (setInsert x l).1.Pairwise (· < ·)
  | [], _ => by simp [setInsert]
  | z :: l, h => by
    rw [List.pairwise_cons] at h
    unfold setInsert
    split
    · rw [List.pairwise_cons, List.pairwise_cons]
      refine ⟨?_, h⟩
      intro y hy
      rcases List.mem_cons.1 hy with rfl | hy
      · assumption
      · have := h.1 y hy; omega
    · split
      · rw [List.pairwise_cons]; exact h
      · rw [List.pairwise_cons]
        refine ⟨?_, setInsert_sorted h.2⟩
        intro y hy
        rcases mem_setInsert.1 hy with rfl | hy
        · omega
        · exact h.1 y hy

theorem setInsert_inserted {x : Nat} : ∀ {l : List Nat}, l.Pairwise (· < ·) → ((setInsert x l).2 = true ↔ x ∉ l)
  | [], _ => by simp [setInsert]
  | z :: l, h => by
    rw [List.pairwise_cons] at h
    unfold setInsert
    split
    · next hz =>
      simp only [List.mem_cons, true_iff]
      rintro (h' | h')
      · omega
      · have := h.1 x h'; omega
    · split
      · next h' => subst h'; simp
      · next h1 h2 => simp only [setInsert_inserted h.2, List.mem_cons]; tauto

theorem mem_union {x : Nat} : ∀ {a b : List Nat}, x ∈ union a b ↔ x ∈ a ∨ x ∈ b
  | [], b => by simp [union]
  | y :: a, [] => by simp [union]
  | y :: a, z :: b => by
    unfold union
    split
    · simp only [List.mem_cons, mem_union (a := a) (b := z :: b)]; tauto
    · split
      · simp only [List.mem_cons, mem_union (a := y :: a) (b := b)]; tauto
      · have : y = z := by omega
        subst this
        simp only [List.mem_cons, mem_union (a := a) (b := b)]; tauto

/-- What is known about a position besides the edges from it. -/
structure Info where
  patternIndex : Nat
  internalPos : Nat
  symbol : PatternSymbol

def Position.info (p : Position) : Info := ⟨p.patternIndex, p.internalPos, p.symbol⟩

def Nfa.infos (nfa : Nfa) : List Info := nfa.positions.map Position.info

/-- The edges from a position. -/
def Nfa.fol (nfa : Nfa) (x : Nat) : List Nat :=
  match nfa.positions[x]? with
  | some p => p.followpos
  | none => []

/-- Positions with the information `L` and edges `E` were added. -/
structure Grow (nfa nfa' : Nfa) (L : List Info) (E : Nat → Nat → Prop) : Prop where
  infos : nfa'.infos = nfa.infos ++ L
  starts : nfa'.starts = nfa.starts
  sorted : (∀ x, (nfa.fol x).Pairwise (· < ·)) → ∀ x, (nfa'.fol x).Pairwise (· < ·)
  edges : ∀ x y, y ∈ nfa'.fol x ↔ y ∈ nfa.fol x ∨ E x y

theorem Grow.length {nfa nfa' L E} (h : Grow nfa nfa' L E) : nfa'.positions.length = nfa.positions.length + L.length := by
  have := congrArg List.length h.infos
  simpa [Nfa.infos] using this

theorem Grow.refl (nfa : Nfa) : Grow nfa nfa [] (fun _ _ => False) := ⟨by simp, rfl, fun h => h, by simp⟩

theorem Grow.trans {a b c L L' E E'} (h : Grow a b L E) (h' : Grow b c L' E') : Grow a c (L ++ L') (fun x y => E x y ∨ E' x y) := by
  refine ⟨by rw [h'.infos, h.infos, List.append_assoc], by rw [h'.starts, h.starts], fun hs => h'.sorted (h.sorted hs), ?_⟩
  intro x y
  rw [h'.edges, h.edges, or_assoc]

theorem Grow.congr {a b L L' E E'} (h : Grow a b L E) (hL : L' = L) (hE : ∀ x y, E' x y ↔ E x y) : Grow a b L' E' := by
  subst hL
  exact ⟨h.infos, h.starts, h.sorted, fun x y => by rw [h.edges, hE]⟩

theorem create_grow (nfa : Nfa) (pi ip : Nat) (s : PatternSymbol) :
    Grow nfa (nfa.createPosition pi ip s).1 [⟨pi, ip, s⟩] (fun _ _ => False) := by
  have key : ∀ x, (nfa.createPosition pi ip s).1.fol x = nfa.fol x := by
    intro x
    unfold Nfa.fol Nfa.createPosition
    simp only
    rcases Nat.lt_trichotomy x nfa.positions.length with h | h | h
    · rw [List.getElem?_append_left h]
    · subst h; simp
    · rw [List.getElem?_eq_none (by simp; omega), List.getElem?_eq_none (by omega)]
  refine ⟨by simp [Nfa.infos, Nfa.createPosition, Position.info], rfl, fun h x => by rw [key]; exact h x, by simp [key]⟩

theorem register_grow {nfa : Nfa} {p q : Nat} (hp : p < nfa.positions.length) :
    ∃ nfa', nfa.registerFollowpos p q = some nfa' ∧ Grow nfa nfa' [] (fun x y => x = p ∧ y = q) := by
  refine ⟨{ nfa with positions := nfa.positions.set p { nfa.positions[p] with followpos := (setInsert q nfa.positions[p].followpos).1 } },
    by simp [Nfa.registerFollowpos, List.getElem?_eq_getElem hp], ?_⟩
  have key : ∀ x, Nfa.fol { nfa with
      positions := nfa.positions.set p { nfa.positions[p] with followpos := (setInsert q nfa.positions[p].followpos).1 } } x =
      if x = p then (setInsert q (nfa.fol p)).1 else nfa.fol x := by
    intro x
    unfold Nfa.fol
    by_cases h : x = p
    · subst h
      simp only [List.getElem?_set_self hp, List.getElem?_eq_getElem hp, if_true]
    · simp only [List.getElem?_set_ne (fun h' => h h'.symm), if_neg h]
  refine ⟨?_, rfl, ?_, ?_⟩
  · simp only [Nfa.infos, List.map_set, List.append_nil]
    apply List.ext_getElem?
    intro i
    by_cases hi : i = p
    · subst hi
      rw [List.getElem?_set_self (by simpa using hp)]
      simp [List.getElem?_eq_getElem hp, Position.info]
    · rw [List.getElem?_set_ne (fun h => hi h.symm)]
  · intro h x
    rw [key]
    split
    · exact setInsert_sorted (h _)
    · exact h x
  · intro x y
    rw [key]
    split
    · next h => subst h; rw [mem_setInsert]; tauto
    · next h => simp [h]

theorem followFrom_grow {p : Nat} : ∀ (set : List Nat) {nfa : Nfa}, p < nfa.positions.length →
    ∃ nfa', followFrom p set nfa = some nfa' ∧ Grow nfa nfa' [] (fun x y => x = p ∧ y ∈ set)
  | [], nfa, _ => ⟨nfa, rfl, (Grow.refl nfa).congr rfl (by simp)⟩
  | q :: set, nfa, hp => by
    obtain ⟨nfa1, h1, g1⟩ := register_grow (nfa := nfa) (q := q) hp
    obtain ⟨nfa2, h2, g2⟩ := followFrom_grow set (nfa := nfa1) (by rw [g1.length]; omega)
    refine ⟨nfa2, ?_, (g1.trans g2).congr rfl (by intro x y; simp only [List.mem_cons]; tauto)⟩
    unfold followFrom at *
    rw [List.foldlM_cons, h1]
    exact h2

theorem followSets_grow {set2 : List Nat} : ∀ (set : List Nat) {nfa : Nfa}, (∀ x ∈ set, x < nfa.positions.length) →
    ∃ nfa', followSets set set2 nfa = some nfa' ∧ Grow nfa nfa' [] (fun x y => x ∈ set ∧ y ∈ set2)
  | [], nfa, _ => ⟨nfa, rfl, (Grow.refl nfa).congr rfl (by simp)⟩
  | p :: set, nfa, hp => by
    obtain ⟨nfa1, h1, g1⟩ := followFrom_grow (p := p) set2 (nfa := nfa) (hp p (by simp))
    obtain ⟨nfa2, h2, g2⟩ := followSets_grow set (nfa := nfa1) (by
      intro x hx; have := hp x (by simp [hx]); rw [g1.length]; omega)
    refine ⟨nfa2, ?_, (g1.trans g2).congr rfl (by intro x y; simp only [List.mem_cons]; tauto)⟩
    unfold followSets at *
    rw [List.foldlM_cons, h1]
    exact h2

theorem followAll_grow {q : Nat} : ∀ (set : List Nat) {nfa : Nfa}, (∀ x ∈ set, x < nfa.positions.length) →
    ∃ nfa', followAll set q nfa = some nfa' ∧ Grow nfa nfa' [] (fun x y => x ∈ set ∧ y = q)
  | [], nfa, _ => ⟨nfa, rfl, (Grow.refl nfa).congr rfl (by simp)⟩
  | p :: set, nfa, hp => by
    obtain ⟨nfa1, h1, g1⟩ := register_grow (p := p) (q := q) (nfa := nfa) (hp p (by simp))
    obtain ⟨nfa2, h2, g2⟩ := followAll_grow set (nfa := nfa1) (by
      intro x hx; have := hp x (by simp [hx]); rw [g1.length]; omega)
    refine ⟨nfa2, ?_, (g1.trans g2).congr rfl (by intro x y; simp only [List.mem_cons]; tauto)⟩
    unfold followAll at *
    rw [List.foldlM_cons, h1]
    exact h2

/-- The result of a sequence after another element or suffix with the given properties. -/
def SeqPost (r r' : Result) (F L : Nat → Prop) (n : Bool) : Prop :=
  (∀ q, q ∈ r'.first ↔ q ∈ r.first ∨ (r.nullable = true ∧ F q)) ∧ (∀ q, q ∈ r'.last ↔ L q ∨ (n = true ∧ q ∈ r.last)) ∧
  r'.nullable = (r.nullable && n)

theorem integrateSeq_grow {r1 r2 : Result} {nfa : Nfa} (h : ∀ x ∈ r1.last, x < nfa.positions.length) :
    ∃ nfa' r', integrateSeq r1 r2 nfa = some (nfa', r') ∧ Grow nfa nfa' [] (fun x y => x ∈ r1.last ∧ y ∈ r2.first) ∧
      SeqPost r1 r' (· ∈ r2.first) (· ∈ r2.last) r2.nullable := by
  obtain ⟨nfa', h1, g⟩ := followSets_grow (set2 := r2.first) r1.last h
  refine ⟨nfa', _, by simp only [integrateSeq, h1]; rfl, g, ?_, ?_, rfl⟩
  · intro q
    cases h : r1.nullable <;> simp [mem_union]
  · intro q
    cases h : r2.nullable <;> simp [mem_union, or_comm]

/-- Transitions of the builder. -/
inductive Steps (t : Tables) (pi : Nat) : Nat → BState → BState → Prop where
  | refl (st) : Steps t pi 0 st st
  | head {n a b c} (h : a.label ≠ .finalize) (hs : step t pi a = some b) (h' : Steps t pi n b c) : Steps t pi (n + 1) a c

theorem Steps.trans {t pi n m a b c} (h : Steps t pi n a b) (h' : Steps t pi m b c) : Steps t pi (n + m) a c := by
  induction h with
  | refl => simpa using h'
  | head h hs _ ih => rw [Nat.add_right_comm]; exact .head h hs (ih h')

theorem build_steps {t pi n a b} (h : Steps t pi n a b) (fuel : Nat) : build t pi (n + fuel) a = build t pi fuel b := by
  induction h with
  | refl => simp
  | head h hs _ ih =>
    rw [Nat.add_right_comm]
    simp only [build, if_neg h, hs]
    exact ih

def infosOf (pi b : Nat) : List PatternSymbol → List Info
  | [] => []
  | s :: l => ⟨pi, b, s⟩ :: infosOf pi (b + 1) l

theorem infosOf_append (pi : Nat) : ∀ (l l' : List PatternSymbol) (b : Nat), infosOf pi b (l ++ l') = infosOf pi b l ++ infosOf pi (b + l.length) l'
  | [], l', b => by simp [infosOf]
  | s :: l, l', b => by
    simp only [List.cons_append, infosOf, infosOf_append pi l l' (b + 1), List.length_cons]
    congr 3
    omega

theorem infosOf_length (pi : Nat) : ∀ (l : List PatternSymbol) (b : Nat), (infosOf pi b l).length = l.length
  | [], b => rfl
  | s :: l, b => by simp [infosOf, infosOf_length pi l]

/-- What is to be shown about an element. -/
def ElemGoal (t : Tables) (pi : Nat) (p : Pat) : Prop := Wf p .elem → ∀ sq i b r stack nfa, i < sq.numElems →
  Enc t p (sq.elemsOffset + i) b → (∀ x ∈ r.last, x < nfa.positions.length) → ∃ n nfa' r',
    Steps t pi n ⟨.seqBegin, ⟨.seq sq i, r⟩, stack, nfa⟩ ⟨.seqContinue, ⟨.seq sq i, r'⟩, stack, nfa'⟩ ∧
    Grow nfa nfa' (infosOf pi b (symbols p)) (fun x y => Fol p nfa.positions.length x y ∨
      (x ∈ r.last ∧ First p nfa.positions.length y)) ∧
    SeqPost r r' (First p nfa.positions.length) (Last p nfa.positions.length) (nul p)

/-- What is to be shown about a sequence. -/
def SeqGoal (t : Tables) (pi : Nat) (p : Pat) : Prop := Wf p .seq → ∀ sq i b r stack nfa, i + len p = sq.numElems →
  Enc t p (sq.elemsOffset + i) b → (∀ x ∈ r.last, x < nfa.positions.length) → ∃ n nfa' r',
    Steps t pi n ⟨.seqBegin, ⟨.seq sq i, r⟩, stack, nfa⟩ ⟨.seqBegin, ⟨.seq sq sq.numElems, r'⟩, stack, nfa'⟩ ∧
    Grow nfa nfa' (infosOf pi b (symbols p)) (fun x y => Fol p nfa.positions.length x y ∨
      (x ∈ r.last ∧ First p nfa.positions.length y)) ∧
    SeqPost r r' (First p nfa.positions.length) (Last p nfa.positions.length) (nul p)

/-- What is to be shown about a list of branches. -/
def AltGoal (t : Tables) (pi : Nat) (p : Pat) : Prop := Wf p .branches → ∀ a i b r stack nfa, i + len p = a.numSeqs →
  Enc t p (a.seqsOffset + i) b → ∃ n nfa' r',
    Steps t pi n ⟨.altBegin, ⟨.alt a i, r⟩, stack, nfa⟩ ⟨.altBegin, ⟨.alt a a.numSeqs, r'⟩, stack, nfa'⟩ ∧
    Grow nfa nfa' (infosOf pi b (symbols p)) (Fol p nfa.positions.length) ∧
    (∀ q, q ∈ r'.first ↔ q ∈ r.first ∨ First p nfa.positions.length q) ∧
    (∀ q, q ∈ r'.last ↔ q ∈ r.last ∨ Last p nfa.positions.length q) ∧
    r'.nullable = (r.nullable || nul p)

theorem step_one {t : Tables} {pi : Nat} {a b : BState} (h : a.label ≠ .finalize) (hs : step t pi a = some b) : Steps t pi 1 a b :=
  .head h hs (.refl b)

theorem goals (t : Tables) (pi : Nat) : ∀ p : Pat, ElemGoal t pi p ∧ SeqGoal t pi p ∧ AltGoal t pi p := by
  intro p
  induction p with
  | sym s =>
    refine ⟨?_, fun h => h.elim, fun h => h.elim⟩
    intro _ sq i b r stack nfa hi henc hr
    obtain ⟨el, h1, h2, h3, h4, _⟩ := henc
    have g1 := create_grow nfa pi b s
    obtain ⟨nfa2, r2, h5, g2, post⟩ := integrateSeq_grow (r1 := r) (r2 := ⟨[nfa.positions.length], [nfa.positions.length], false⟩)
      (nfa := (nfa.createPosition pi b s).1) (by intro x hx; have := hr x hx; rw [g1.length]; omega)
    refine ⟨1, nfa2, r2, step_one (by simp) ?_, ?_, ?_⟩
    · simp only [step, if_pos hi, h1, Option.bind_eq_bind, Option.bind_some, beginElem, h2, h4, Nat.succ_pos, if_true, h3,
        Nat.add_sub_cancel]
      have h6 : (nfa.createPosition pi b s).2 = nfa.positions.length := rfl
      rw [h6, h5]
      rfl
    · refine (g1.trans g2).congr (by simp [symbols, infosOf]) ?_
      intro x y
      simp [Fol, First]
    · simpa [SeqPost, First, Last, nul] using post
  | opt p ih =>
    refine ⟨?_, fun h => h.elim, fun h => h.elim⟩
    intro hwf sq i b r stack nfa hi henc hr
    obtain ⟨el, h1, h2, h3, _, sq', h5, h6, h7, h8, h9⟩ := henc
    obtain ⟨n, nfa1, r1, st1, g1, post1⟩ := ih.2.1 hwf sq' 0 b ⟨[], [], true⟩ (⟨.seq sq i, r⟩ :: stack) nfa (by simpa using h6.symm)
      (by simpa using h9) (by simp)
    obtain ⟨nfa2, r2, h10, g2, post2⟩ := integrateSeq_grow (r1 := r) (r2 := { r1 with nullable := true })
      (nfa := nfa1) (by intro x hx; have := hr x hx; rw [g1.length]; omega)
    refine ⟨1 + (n + 1), nfa2, r2, (step_one (by simp) ?_).trans (st1.trans (step_one (by simp) ?_)), ?_, ?_⟩
    · simp only [step, if_pos hi, h1, Option.bind_eq_bind, Option.bind_some, beginElem, h2, initSeq, h5]
    · have : r1.nullable = sq'.nullable := by rw [post1.2.2, h8.1]; simp
      simp only [step, Nat.lt_irrefl, if_false, this, if_true, endSeq, h1, h2, Option.bind_eq_bind, Option.bind_some]
      rw [show ({ first := r1.first, last := r1.last, nullable := true } : Result) = { r1 with nullable := true } from rfl, h10]
      rfl
    · refine (g1.trans g2).congr (by simp [symbols]) ?_
      intro x y
      simp [Fol, First, post1.1]
    · simpa [SeqPost, First, Last, nul, post1.1, post1.2.1] using post2
  | rep p ih =>
    refine ⟨?_, fun h => h.elim, fun h => h.elim⟩
    intro hwf sq i b r stack nfa hi henc hr
    obtain ⟨el, h1, h2, h3, _, sq', h5, h6, h7, h8, h9⟩ := henc
    obtain ⟨n, nfa1, r1, st1, g1, post1⟩ := ih.2.1 hwf sq' 0 b ⟨[], [], true⟩ (⟨.seq sq i, r⟩ :: stack) nfa (by simpa using h6.symm)
      (by simpa using h9) (by simp)
    have hlen := g1.length
    rw [infosOf_length, symbols_length] at hlen
    obtain ⟨nfa2, h10, g2⟩ := followSets_grow (set2 := r1.first) r1.last (nfa := nfa1) (by
      intro x hx
      have := (post1.2.1 x).1 hx
      simp only [List.not_mem_nil, and_false, or_false] at this
      have := Last_range _ _ _ this
      omega)
    obtain ⟨nfa3, r3, h11, g3, post3⟩ := integrateSeq_grow (r1 := r) (r2 := r1)
      (nfa := nfa2) (by intro x hx; have := hr x hx; rw [g2.length]; omega)
    refine ⟨1 + (n + 1), nfa3, r3, (step_one (by simp) ?_).trans (st1.trans (step_one (by simp) ?_)), ?_, ?_⟩
    · simp only [step, if_pos hi, h1, Option.bind_eq_bind, Option.bind_some, beginElem, h2, initSeq, h5]
    · have : r1.nullable = sq'.nullable := by rw [post1.2.2, h8.1]; simp
      simp only [step, Nat.lt_irrefl, if_false, this, if_true, endSeq, h1, h2, Option.bind_eq_bind, Option.bind_some, h10, h11]
    · refine ((g1.trans g2).trans g3).congr (by simp [symbols]) ?_
      intro x y
      simp [Fol, First, post1.1, post1.2.1]
    · have hn := post1.2.2
      simp only [Bool.true_and] at hn
      simpa [SeqPost, First, Last, nul, post1.1, post1.2.1, hn] using post3
  | alt p ih =>
    refine ⟨?_, fun h => h.elim, fun h => h.elim⟩
    intro hwf sq i b r stack nfa hi henc hr
    obtain ⟨el, h1, h2, h3, _, a, h5, h6, h7, h9⟩ := henc
    obtain ⟨n, nfa1, r1, st1, g1, pf, pl, pn⟩ := ih.2.2 hwf.1 a 0 b ⟨[], [], false⟩ (⟨.seq sq i, r⟩ :: stack) nfa
      (by simpa using h6.symm) (by simpa using h9)
    obtain ⟨nfa2, r2, h10, g2, post2⟩ := integrateSeq_grow (r1 := r) (r2 := r1)
      (nfa := nfa1) (by intro x hx; have := hr x hx; rw [g1.length]; omega)
    refine ⟨1 + (n + 1), nfa2, r2, (step_one (by simp) ?_).trans (st1.trans (step_one (by simp) ?_)), ?_, ?_⟩
    · simp only [step, if_pos hi, h1, Option.bind_eq_bind, Option.bind_some, beginElem, h2, initAlt, h5]
    · simp only [step, Nat.lt_irrefl, if_false, if_true, endAlt, h1, h2, Option.bind_eq_bind, Option.bind_some, h10]
    · refine (g1.trans g2).congr (by simp [symbols]) ?_
      intro x y
      simp [Fol, First, pf]
    · simpa [SeqPost, First, Last, nul, pf, pl, pn] using post2
  | nil =>
    refine ⟨fun h => h.elim, ?_, fun h => h.elim⟩
    intro hwf sq i b r stack nfa hi henc hr
    simp only [len, Nat.add_zero] at hi
    subst hi
    refine ⟨0, nfa, r, .refl _, (Grow.refl nfa).congr rfl (by simp [Fol, First]), by simp [SeqPost, First, Last, nul]⟩
  | none =>
    refine ⟨fun h => h.elim, fun h => h.elim, ?_⟩
    intro hwf a i b r stack nfa hi henc
    simp only [len, Nat.add_zero] at hi
    subst hi
    refine ⟨0, nfa, r, .refl _, (Grow.refl nfa).congr rfl (by simp [Fol]), by simp [First, Last, nul]⟩
  | cons e s ihe ihs =>
    refine ⟨fun h => h.elim, ?_, fun h => h.elim⟩
    intro hwf sq i b r stack nfa hi henc hr
    simp only [len] at hi
    obtain ⟨n1, nfa1, r1, st1, g1, post1⟩ := ihe.1 hwf.1 sq i b r stack nfa (by omega) henc.1 hr
    have hlen := g1.length
    rw [infosOf_length, symbols_length] at hlen
    obtain ⟨n2, nfa2, r2, st2, g2, post2⟩ := ihs.2.1 hwf.2 sq (i + 1) (b + size e) r1 stack nfa1 (by omega)
      (by simpa [Nat.add_assoc] using henc.2) (by
        intro x hx
        rcases (post1.2.1 x).1 hx with h | ⟨_, h⟩
        · have := Last_range _ _ _ h; omega
        · have := hr x h; omega)
    refine ⟨n1 + (1 + n2), nfa2, r2, st1.trans ((step_one (by simp) ?_).trans st2), ?_, ?_⟩
    · simp only [step, if_pos (show i < sq.numElems by omega)]
    · refine (g1.trans g2).congr (by rw [symbols, infosOf_append, symbols_length]) ?_
      intro x y
      rw [hlen]
      simp only [Fol, First, post1.2.1]
      tauto
    · rw [hlen] at post2
      refine ⟨?_, ?_, ?_⟩
      · intro q
        rw [post2.1, post1.1, post1.2.2]
        simp only [First, Bool.and_eq_true]
        tauto
      · intro q
        rw [post2.2.1, post1.2.1]
        simp only [Last, nul, Bool.and_eq_true]
        tauto
      · rw [post2.2.2, post1.2.2]
        simp only [nul, Bool.and_assoc]
  | or s p ihs ihp =>
    refine ⟨fun h => h.elim, fun h => h.elim, ?_⟩
    intro hwf a i b r stack nfa hi henc
    simp only [len] at hi
    obtain ⟨⟨sq, h1, h2, h3, h4, h5⟩, h6⟩ := henc
    obtain ⟨n1, nfa1, r1, st1, g1, post1⟩ := ihs.2.1 hwf.1 sq 0 b ⟨[], [], true⟩ (⟨.alt a i, r⟩ :: stack) nfa (by simpa using h2.symm)
      (by simpa using h5) (by simp)
    have hlen := g1.length
    rw [infosOf_length, symbols_length] at hlen
    obtain ⟨n2, nfa2, r2, st2, g2, pf, pl, pn⟩ := ihp.2.2 hwf.2 a (i + 1) (b + size s) (integrateAlt r r1) stack nfa1 (by omega)
      (by simpa [Nat.add_assoc] using h6)
    refine ⟨1 + (n1 + (1 + (1 + n2))), nfa2, r2, (step_one (by simp) ?_).trans (st1.trans ((step_one (b := ⟨.altContinue, ⟨.alt a i,
      integrateAlt r r1⟩, stack, nfa1⟩) (by simp) ?_).trans ((step_one (by simp) ?_).trans st2))), ?_, ?_, ?_, ?_⟩
    · simp only [step, if_pos (show i < a.numSeqs by omega), initSeq, h1, Option.bind_eq_bind, Option.bind_some]
    · have : r1.nullable = sq.nullable := by rw [post1.2.2, h4.1]; simp
      simp only [step, Nat.lt_irrefl, if_false, this, if_true, endSeq]
    · simp only [step, if_pos (show i < a.numSeqs by omega)]
    · refine (g1.trans g2).congr (by rw [symbols, infosOf_append, symbols_length]) ?_
      intro x y
      rw [hlen]
      simp [Fol]
    · intro q
      rw [pf, hlen]
      simp [integrateAlt, mem_union, post1.1, First, or_assoc]
    · intro q
      rw [pl, hlen]
      simp [integrateAlt, mem_union, post1.2.1, Last, or_assoc]
    · rw [pn]
      have hn := post1.2.2
      simp only [Bool.true_and] at hn
      simp [integrateAlt, hn, nul, Bool.or_assoc]

end Verif.CliPattern
