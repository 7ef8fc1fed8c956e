import Verif.ImageFormat.Spec
import Verif.FlatMap.Props
import Verif.Streams.Lemmas
import Mathlib.Data.List.GetD

namespace Verif.ImageFormat

open Verif.FlatMap.Spec (SWO eqv)
open Verif.FlatMap (Rel MRel)
open Verif.Streams

variable {F K α σ β : Type}

/-! ## Registry -/

/-- Keys are equivalent only when they are equal. -/
def Strict (lt : K → K → Bool) : Prop := ∀ a b, eqv lt a b = true → a = b

theorem eqv_iff {lt : K → K → Bool} (w : SWO lt) (h : Strict lt) (a b : K) : eqv lt a b = true ↔ a = b :=
  ⟨h a b, fun e => by subst e; simp [eqv, w.irrefl]⟩

/-- All entries for particular formats. -/
def entriesOf (keys : F → List K) : ℕ → List F → List (K × ℕ)
  | _, [] => []
  | i, f :: fs => (keys f).map (fun k => (k, i)) ++ entriesOf keys (i + 1) fs

theorem entriesOf_append (keys : F → List K) : ∀ (i : ℕ) (fs gs : List F),
    entriesOf keys i (fs ++ gs) = entriesOf keys i fs ++ entriesOf keys (i + fs.length) gs
  | i, [], gs => by simp [entriesOf]
  | i, f :: fs, gs => by
    simp only [List.cons_append, entriesOf, entriesOf_append keys (i + 1) fs gs, List.append_assoc, List.length_cons]
    rw [show i + 1 + fs.length = i + (fs.length + 1) by omega]

theorem addAll_spec {lt : K → K → Bool} (w : SWO lt) (index : ℕ) : ∀ (ks : List K) (es m : List (K × ℕ)), MRel lt es m →
    ∃ es', addAll lt index ks es = some es' ∧ MRel lt es' (m ++ ks.map (fun k => (k, index)))
  | [], es, m, h => ⟨es, rfl, by simpa using h⟩
  | k :: ks, es, m, h => by
    obtain ⟨es', e, h'⟩ := FlatMap.mstep_refines w es m (.insert k index) h
    simp only [FlatMap.mstep, FlatMap.mspecStep] at e h'
    cases hi : FlatMap.insertMulti lt es k index with
    | none => simp [hi] at e
    | some p =>
      simp only [hi, Option.bind_eq_bind, Option.bind_some, Option.some.injEq, Prod.mk.injEq, and_true] at e
      obtain ⟨es'', e'', h''⟩ := addAll_spec w index ks es' _ h'
      refine ⟨es'', ?_, by simpa using h''⟩
      simp [addAll, hi, e, e'']

/-- The registry contains these formats. -/
structure Registry.Is (lt : K → K → Bool) (I : Info F K) (fs : List F) (r : Registry F K) : Prop where
  formats : r.formats = fs
  map : ∃ m, Rel lt r.map m ∧ ∀ k, FlatMap.Spec.lookup lt m k = fs.findIdx? (fun f => eqv lt (I.ident f) k)
  byExt : MRel lt r.byExt (entriesOf I.exts 0 fs)
  byMime : MRel lt r.byMime (entriesOf I.mimes 0 fs)

theorem lookup_insert {V : Type} {lt : K → K → Bool} (w : SWO lt) (m : List (K × V)) (k : K) (v : V) (k' : K) :
    FlatMap.Spec.lookup lt (FlatMap.Spec.insert lt m k v) k' =
      (FlatMap.Spec.lookup lt m k').or (if eqv lt k k' then some v else none) := by
  unfold FlatMap.Spec.insert
  by_cases h : (FlatMap.Spec.lookup lt m k).isSome = true
  · rw [if_pos h]
    by_cases hk : eqv lt k k' = true
    · have : (FlatMap.Spec.lookup lt m k').isSome = true := by
        unfold FlatMap.Spec.lookup at h ⊢
        simp only [Option.isSome_map, List.find?_isSome] at h ⊢
        obtain ⟨x, hx, hxk⟩ := h
        exact ⟨x, hx, FlatMap.eqv_trans w hxk hk⟩
      rw [Option.or_of_isSome this]
    · simp [hk]
  · rw [if_neg h]
    unfold FlatMap.Spec.lookup
    rw [List.find?_append, Option.map_or]
    by_cases hk : eqv lt k k' = true
    · simp [hk]
    · simp [hk]

theorem register_spec {lt : K → K → Bool} (w : SWO lt) (I : Info F K) {fs : List F} {r : Registry F K} (h : r.Is lt I fs) (f : F) :
    ∃ r', r.register lt I f = some (some r') ∧ r'.Is lt I (fs ++ [f]) := by
  obtain ⟨m, hm, hl⟩ := h.map
  obtain ⟨es', e, h'⟩ := FlatMap.step_refines w 0 r.map m (.insert (I.ident f) r.formats.length) hm
  simp only [FlatMap.step, FlatMap.specStep] at e h'
  obtain ⟨x1, e1, h1⟩ := addAll_spec w r.formats.length (I.exts f) _ _ h.byExt
  obtain ⟨x2, e2, h2⟩ := addAll_spec w r.formats.length (I.mimes f) _ _ h.byMime
  cases hi : FlatMap.insert lt r.map (I.ident f) r.formats.length with
  | none => simp [hi] at e
  | some p =>
    obtain ⟨es, i, b⟩ := p
    have hes : es = es' := by
      simp only [hi, Option.bind_eq_bind, Option.bind_some] at e
      cases hx : es[i]? with
      | none => simp [hx] at e
      | some x =>
        simp only [hx, Option.bind_some] at e
        split at e
        · simp only [Option.some.injEq, Prod.mk.injEq] at e; exact e.1
        · cases e
    subst hes
    refine ⟨⟨r.formats ++ [f], es, x1, x2⟩, ?_, ?_, ?_, ?_, ?_⟩
    · simp [Registry.register, hi, believedInserted, e1, e2]
    · simp [h.formats]
    · refine ⟨_, h', fun k => ?_⟩
      rw [lookup_insert w, hl, List.findIdx?_append, h.formats]
      congr 1
      by_cases hk : eqv lt (I.ident f) k = true
      · simp [hk, List.findIdx?_cons]
      · simp [hk, List.findIdx?_cons]
    · rw [entriesOf_append]
      simpa [entriesOf, h.formats] using h1
    · rw [entriesOf_append]
      simpa [entriesOf, h.formats] using h2

theorem registerAll_spec {lt : K → K → Bool} (w : SWO lt) (I : Info F K) : ∀ (gs fs : List F) (r : Registry F K), r.Is lt I fs →
    ∃ r', registerAll lt I gs r = some (some r') ∧ r'.Is lt I (fs ++ gs)
  | [], fs, r, h => ⟨r, rfl, by simpa using h⟩
  | g :: gs, fs, r, h => by
    obtain ⟨r', e, h'⟩ := register_spec w I h g
    obtain ⟨r'', e', h''⟩ := registerAll_spec w I gs _ r' h'
    exact ⟨r'', by simp [registerAll, e, e'], by simpa using h''⟩

theorem empty_is (lt : K → K → Bool) (I : Info F K) : ({} : Registry F K).Is lt I [] :=
  ⟨rfl, ⟨[], ⟨List.Pairwise.nil, List.Perm.refl _⟩, fun _ => by simp [FlatMap.Spec.lookup]⟩, ⟨List.Pairwise.nil, List.Perm.refl _, fun _ => rfl⟩,
    ⟨List.Pairwise.nil, List.Perm.refl _, fun _ => rfl⟩⟩

theorem lookup_spec {lt : K → K → Bool} (w : SWO lt) (I : Info F K) {fs : List F} {r : Registry F K} (h : r.Is lt I fs) (k : K) :
    r.lookup lt k = some (fs.find? (fun f => eqv lt (I.ident f) k)) := by
  obtain ⟨m, hm, hl⟩ := h.map
  obtain ⟨es', e, h'⟩ := FlatMap.step_refines w 0 r.map m (.at k) hm
  simp only [FlatMap.step, FlatMap.specStep] at e
  rw [hl] at e
  have hat : FlatMap.at? lt r.map k = some (fs.findIdx? (fun f => eqv lt (I.ident f) k)) := by
    cases ha : FlatMap.at? lt r.map k with
    | none => simp [ha] at e
    | some v =>
      simp only [ha, Option.bind_eq_bind, Option.bind_some, Option.some.injEq, Prod.mk.injEq, FlatMap.Out.val.injEq] at e
      rw [e.2]
  unfold FlatMap.at? at hat
  unfold Registry.lookup
  cases hf : FlatMap.find lt r.map k with
  | none => simp [hf] at hat
  | some i =>
    simp only [hf, Option.bind_eq_bind, Option.bind_some] at hat ⊢
    by_cases hi : i ≠ r.map.length
    · rw [if_pos hi] at hat ⊢
      cases hx : r.map[i]? with
      | none => simp [hx] at hat
      | some x =>
        simp only [hx, Option.bind_some, Option.some.injEq] at hat ⊢
        rw [h.formats]
        have hfi := hat.symm
        rw [List.findIdx?_eq_some_iff_getElem] at hfi
        obtain ⟨hlt, hp, hn⟩ := hfi
        rw [List.getElem?_eq_getElem hlt]
        simp only [Option.bind_some, Option.some.injEq]
        symm
        rw [List.find?_eq_some_iff_getElem]
        exact ⟨hp, x.2, hlt, rfl, fun j hj => by simpa using hn j hj⟩
    · rw [if_neg hi] at hat ⊢
      simp only [Option.some.injEq] at hat ⊢
      symm
      rw [List.find?_eq_none]
      have := hat.symm
      rw [List.findIdx?_eq_none_iff] at this
      intro x hx hc
      rw [this x hx] at hc
      cases hc

theorem collect_spec [DecidableEq K] (r : Registry F K) (keys : F → List K) (key : K) : ∀ (pre fs : List F), r.formats = pre ++ fs →
    r.collect ((entriesOf keys pre.length fs).filter (fun x => decide (x.1 = key))) = some (having keys fs key)
  | pre, [], _ => rfl
  | pre, f :: fs, h => by
    have ih := collect_spec r keys key (pre ++ [f]) fs (by simp [h])
    rw [show (pre ++ [f]).length = pre.length + 1 by simp] at ih
    simp only [entriesOf, List.filter_append, having, List.flatMap_cons]
    have hget : r.formats[pre.length]? = some f := by rw [h]; simp
    generalize keys f = ks
    induction ks with
    | nil => simpa [having] using ih
    | cons k ks ihk =>
      by_cases hk : k = key
      · simp only [List.map_cons, hk, decide_true, List.filter_cons_of_pos, List.cons_append, Registry.collect, hget, Option.bind_eq_bind,
          Option.bind_some, ihk]
      · simpa [hk] using ihk

theorem every_spec [DecidableEq K] {lt : K → K → Bool} (w : SWO lt) (hs : Strict lt) {fs : List F} {r : Registry F K} (hf : r.formats = fs)
    (keys : F → List K) {es : List (K × ℕ)} (h : MRel lt es (entriesOf keys 0 fs)) (key : K) :
    r.every lt es key = some (having keys fs key) := by
  obtain ⟨es', e, _⟩ := FlatMap.mstep_refines w es _ (.equalRange key) h
  simp only [FlatMap.mstep, FlatMap.mspecStep] at e
  unfold Registry.every
  cases hr : FlatMap.equalRange lt es key with
  | none => simp [hr] at e
  | some p =>
    obtain ⟨b, e'⟩ := p
    simp only [hr, Option.bind_eq_bind, Option.bind_some, Option.some.injEq, Prod.mk.injEq, FlatMap.MOut.range.injEq] at e ⊢
    rw [e.2, ← collect_spec r keys key [] fs (by simp [hf])]
    unfold FlatMap.Spec.entries
    congr 1
    apply List.filter_congr
    intro x _
    by_cases hx : x.1 = key
    · simp [hx, eqv, w.irrefl]
    · simp only [hx, decide_false]
      cases he : eqv lt x.1 key
      · rfl
      · exact absurd (hs _ _ he) hx

theorem first_spec [DecidableEq K] {lt : K → K → Bool} (w : SWO lt) (hs : Strict lt) {fs : List F} {r : Registry F K} (hf : r.formats = fs)
    (keys : F → List K) {es : List (K × ℕ)} (h : MRel lt es (entriesOf keys 0 fs)) (key : K) :
    r.first lt es key = some (having keys fs key).head? := by
  have he := every_spec w hs hf keys h key
  obtain ⟨b, e, h1, h2, h3, _⟩ := FlatMap.equalRange_spec w es h.1 key
  unfold Registry.every at he
  unfold Registry.first
  simp only [h1, Option.bind_eq_bind, Option.bind_some] at he ⊢
  by_cases hbe : b = e
  · subst hbe
    have : (es.take b).drop b = [] := List.drop_of_length_le (by simp; omega)
    rw [this] at he
    simp only [Registry.collect, Option.some.injEq] at he
    simp [← he]
  · rw [if_pos hbe]
    have hb : b < es.length := by omega
    have : (es.take e).drop b = es[b] :: (es.take e).drop (b + 1) := by
      rw [List.drop_eq_getElem_cons (by simp; omega)]
      simp
    rw [this] at he
    simp only [Registry.collect, Option.bind_eq_bind] at he
    rw [List.getElem?_eq_getElem hb]
    simp only [Option.bind_some]
    cases hx : r.formats[es[b].2]? with
    | none => simp [hx] at he
    | some f =>
      simp only [hx, Option.bind_some] at he ⊢
      cases hc : r.collect ((es.take e).drop (b + 1)) with
      | none => simp [hc] at he
      | some l =>
        simp only [hc, Option.bind_some, Option.some.injEq] at he
        rw [← he]
        rfl

/-! ## Loading -/

theorem prog_run_spec {R : Reader α σ} {rest : σ → List α} {ok : σ → Prop} {mayFail : Bool} (hR : Conforms R rest ok)
    (hN : mayFail = false → NeverFails R ok) (p : Prog α β) : ∀ (s : σ), ok s →
    ∃ b s', p.run R s = some (b, s') ∧ ok s' ∧ Possible mayFail p (rest s) b := by
  induction p with
  | done b => intro s h; exact ⟨b, s, rfl, h, .done b _⟩
  | read size next ih =>
    intro s h
    obtain ⟨r, s', e, h', h1, h2⟩ := hR s size h
    obtain ⟨b, s'', e', h'', hp⟩ := ih r s' h'
    refine ⟨b, s'', by simp [Prog.run, e, e'], h'', ?_⟩
    rw [h1]
    cases r with
    | none =>
      have hm : mayFail = true := by
        cases mayFail with
        | true => rfl
        | false => exact absurd rfl (hN rfl s size none s' h e)
      exact .failure _ hm (by simpa using hp)
    | some l =>
      obtain ⟨i1, i2⟩ := h2 l rfl
      refine .piece l (rest s') i1 (fun hl => (i2 hl).imp id (fun h => ?_)) hp
      rw [h1] at h
      exact (List.append_eq_nil_iff.1 h).2

theorem rewindable_never_fails {R : Reader α σ} {rest : σ → List α} {ok : σ → Prop} (grow : ℕ → ℕ) (hN : NeverFails R ok) (all : List α)
    (released : Bool) : NeverFails (rewindable R grow) (fun s => ∃ pos, s.Is rest ok ⟨all, pos, released⟩) := by
  rintro s size r s' ⟨pos, h⟩ e
  unfold rewindable at e
  by_cases ho : s.offset = s.data.length
  · rw [if_pos ho] at e
    by_cases hr : s.released = true
    · rw [if_pos hr] at e
      cases hq : R s.sub size with
      | none => simp [hq] at e
      | some q =>
        simp only [hq, Option.map_some, Option.some.injEq, Prod.mk.injEq] at e
        rw [← e.1]
        exact hN s.sub size q.1 q.2 h.sub hq
    · rw [if_neg hr] at e
      cases hq : R s.sub (grow s.data.length - s.data.length) with
      | none => simp [hq] at e
      | some q =>
        have := hN s.sub _ q.1 q.2 h.sub hq
        obtain ⟨q1, q2⟩ := q
        cases q1 with
        | none => exact absurd rfl this
        | some l =>
          simp only [hq, Option.map_some, Option.some.injEq] at e
          split at e
          · simp only [Rewindable.fromBuffer, Prod.mk.injEq] at e
            rw [← e.1]; simp
          · simp only [Prod.mk.injEq] at e
            rw [← e.1]; simp
  · rw [if_neg ho] at e
    simp only [Rewindable.fromBuffer, Option.some.injEq, Prod.mk.injEq] at e
    rw [← e.1]; simp

theorem tryAll_spec [DecidableEq F] {R : Reader α σ} {rest : σ → List α} {ok : σ → Prop} {grow : ℕ → ℕ} {mayFail : Bool}
    (hR : Conforms R rest ok) (hN : mayFail = false → NeverFails R ok) (hg : ∀ n, n < grow n) (S : Skills F α β) (checked : List F) (input : List α) : ∀ (fs : List F) (s : Rewindable α σ),
    s.Is rest ok ⟨input, 0, false⟩ → ∃ found s', tryAll R grow S checked fs s = some (found, s') ∧ s'.Is rest ok ⟨input, 0, false⟩ ∧
      match found with
      | some f => ∃ pre post, fs.filter (fun f => decide (f ∉ checked)) = pre ++ f :: post ∧
          (∀ g ∈ pre, Possible mayFail (S.recognize g) input false) ∧ Possible mayFail (S.recognize f) input true
      | none => ∀ g ∈ fs.filter (fun f => decide (f ∉ checked)), Possible mayFail (S.recognize g) input false
  | [], s, h => ⟨none, s, rfl, h, by simp⟩
  | f :: fs, s, h => by
    unfold tryAll
    by_cases hc : f ∈ checked
    · rw [if_pos hc, List.filter_cons_of_neg (by simpa using hc)]
      exact tryAll_spec hR hN hg S checked input fs s h
    · rw [if_neg hc, List.filter_cons_of_pos (by simpa using hc)]
      obtain ⟨b, s', e, ⟨pos, h'⟩, hp⟩ := prog_run_spec (rewindable_conforms hR hg input false)
        (fun hm => rewindable_never_fails grow (hN hm) input false) (S.recognize f) s ⟨0, h⟩
      have hin : Rewindable.rest rest s = input := by simpa using h.drop
      rw [hin] at hp
      obtain ⟨o, s'', t, e', h'', a⟩ := run_spec hR hg h' .rewind (fun _ => rfl)
      have hrel : s'.released = false := h'.released
      have hrw : s'.rewind = some s'' := by
        simp only [Rewindable.run] at e'
        cases hr : s'.rewind with
        | none => simp [hr] at e'
        | some x => simp only [hr, Option.map_some, Option.some.injEq, Prod.mk.injEq] at e'; rw [e'.2]
      have ht : t = ⟨input, 0, false⟩ := by
        cases o with
        | none => exact a.2
        | some o => exact a.elim
      subst ht
      simp only [e, Option.bind_eq_bind, Option.bind_some, hrw]
      cases b with
      | true => exact ⟨some f, s'', by simp, h'', [], _, rfl, by simp, hp⟩
      | false =>
        obtain ⟨found, s3, e3, h3, hm⟩ := tryAll_spec hR hN hg S checked input fs s'' h''
        refine ⟨found, s3, by simpa using e3, h3, ?_⟩
        cases found with
        | none =>
          intro g hgm
          rcases List.mem_cons.1 hgm with rfl | hgm
          · exact hp
          · exact hm g hgm
        | some f' =>
          obtain ⟨pre, post, h1, h2, h3⟩ := hm
          refine ⟨f :: pre, post, by rw [h1]; rfl, ?_, h3⟩
          intro g hgm
          rcases List.mem_cons.1 hgm with rfl | hgm
          · exact hp
          · exact h2 g hgm

theorem readAll_possible {next : Bool → List α → Prog α β} : ∀ (fuel : ℕ) (sofar : List α) (size : ℕ) (input : List α) (b : β), size < fuel →
    Possible false (Prog.readAll next fuel sofar size) input b → Possible false (next true (sofar ++ input.take size)) (input.drop size) b := by
  intro fuel
  induction fuel with
  | zero => intro _ _ _ _ h; omega
  | succ k ih =>
    intro sofar size input b hf h
    unfold Prog.readAll at h
    cases h with
    | failure _ hm => cases hm
    | piece l rest hs hl h =>
      dsimp only at h
      by_cases hc : l.length ≠ 0 ∧ l.length < size
      · rw [if_pos hc] at h
        have := ih (sofar ++ l) (size - l.length) rest b (by omega) h
        rw [List.take_append, List.take_of_length_le (by omega), List.drop_append, List.drop_of_length_le (l := l) (by omega),
          List.nil_append, ← List.append_assoc]
        exact this
      · rw [if_neg hc] at h
        by_cases h0 : l = []
        · subst h0
          rcases hl rfl with rfl | rfl
          · simpa using h
          · simpa using h
        · have : l.length ≠ 0 := by simpa using h0
          obtain rfl : l.length = size := by omega
          simpa using h

theorem readAll_possible_fail {next : Bool → List α → Prog α β} {mayFail : Bool} : ∀ (fuel : ℕ) (sofar : List α) (size : ℕ) (input : List α)
    (b : β), size < fuel → Possible mayFail (Prog.readAll next fuel sofar size) input b →
    Possible mayFail (next true (sofar ++ input.take size)) (input.drop size) b ∨
    ∃ n, Possible mayFail (next false (sofar ++ input.take n)) (input.drop n) b := by
  intro fuel
  induction fuel with
  | zero => intro _ _ _ _ h; omega
  | succ k ih =>
    intro sofar size input b hf h
    unfold Prog.readAll at h
    cases h with
    | failure _ hm h => exact Or.inr ⟨0, by simpa using h⟩
    | piece l rest hs hl h =>
      dsimp only at h
      by_cases hc : l.length ≠ 0 ∧ l.length < size
      · rw [if_pos hc] at h
        rcases ih (sofar ++ l) (size - l.length) rest b (by omega) h with this | ⟨n, this⟩
        · left
          rw [List.take_append, List.take_of_length_le (by omega), List.drop_append, List.drop_of_length_le (l := l) (by omega),
            List.nil_append, ← List.append_assoc]
          exact this
        · right
          refine ⟨l.length + n, ?_⟩
          rw [List.take_append, List.take_of_length_le (by omega), List.drop_append, List.drop_of_length_le (l := l) (by omega),
            List.nil_append, ← List.append_assoc, Nat.add_sub_cancel_left]
          exact this
      · rw [if_neg hc] at h
        left
        by_cases h0 : l = []
        · subst h0
          rcases hl rfl with rfl | rfl
          · simpa using h
          · simpa using h
        · have : l.length ≠ 0 := by simpa using h0
          obtain rfl : l.length = size := by omega
          simpa using h

theorem take_length_eq_iff [DecidableEq α] (sig input : List α) : input.take sig.length = sig ↔ sig <+: input :=
  ⟨fun h => ⟨input.drop sig.length, by conv => lhs; lhs; rw [← h]
                                       exact List.take_append_drop _ _⟩, fun ⟨t, h⟩ => by rw [← h]; simp⟩

theorem bySignature_possible [DecidableEq α] (sig input : List α) (b : Bool) (h : Possible false (bySignature sig) input b) :
    b = decide (sig <+: input) := by
  have := readAll_possible _ _ _ _ _ (by omega) h
  rw [List.nil_append] at this
  cases this
  simp [take_length_eq_iff]

theorem bySignature_possible_true [DecidableEq α] {mayFail : Bool} (sig input : List α) (h : Possible mayFail (bySignature sig) input true) :
    sig <+: input := by
  rcases readAll_possible_fail _ _ _ _ _ (by omega) h with this | ⟨n, this⟩
  · rw [List.nil_append] at this
    generalize hx : (true && decide (input.take sig.length = sig)) = x at this
    generalize ht : true = y at this
    cases this
    subst ht
    simpa [take_length_eq_iff] using hx
  · simp only [Bool.false_and] at this
    generalize hx : false = x at this
    generalize ht : true = y at this
    cases this
    rw [← hx] at ht
    cases ht

end Verif.ImageFormat
