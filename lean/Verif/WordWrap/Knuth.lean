import Verif.WordWrap.Arg
import Verif.WordWrap.Heap
/-!
Knuth's algorithm: the facts that hold all the time.
-/
namespace Verif.WordWrap
open Spec

variable {env : Env}

/-- One point in the execution follows after another one. -/
def Reaches (env : Env) (a b : Label × St) : Prop := ∃ n, ∀ fuel, run env (fuel + n) a.1 a.2 = run env fuel b.1 b.2

theorem Reaches.refl (a : Label × St) : Reaches env a a := ⟨0, fun _ => rfl⟩

theorem Reaches.trans {a b c : Label × St} (h1 : Reaches env a b) (h2 : Reaches env b c) : Reaches env a c := by
  obtain ⟨n, hn⟩ := h1
  obtain ⟨m, hm⟩ := h2
  exact ⟨m + n, fun fuel => by rw [← Nat.add_assoc, hn, hm]⟩

theorem Reaches.step {lab : Label} {st : St} {b : Label × St} (h : step env lab st = some b) : Reaches env (lab, st) b := by
  refine ⟨1, fun fuel => ?_⟩
  cases lab with
  | done => simp [WordWrap.step] at h
  | _ => simp [run, h]

/-- What a final result means. -/
def ResOk (env : Env) (bps : List Bp) (l i : Nat) (res : Result) : Prop :=
  Lb (text env) l i res.badness ∧
    ∀ p, res.bp = some p → ∃ cells ws, Chain bps p cells ws ∧ (text env).Valid l i ws ∧ (text env).badness l i ws = res.badness

theorem resOk_shift {bps : List Bp} {l l' i : Nat} {res : Result} (hg : geomAt env l = geomAt env l') (h : ResOk env bps l i res) : ResOk env bps l' i res := by
  have hs := line_shift hg
  refine ⟨fun bs hv => ?_, fun p hp => ?_⟩
  · rw [← badness_shift hs]; exact h.1 bs ((valid_shift hs i bs).2 hv)
  · obtain ⟨cells, ws, h1, h2, h3⟩ := h.2 p hp
    exact ⟨cells, ws, h1, (valid_shift hs i ws).1 h2, by rw [← badness_shift hs]; exact h3⟩

/-- Place in the cache. -/
def key (env : Env) (l w : Nat) : Nat := geomAt env l * env.words.length + w

theorem key_div {l w : Nat} (h : w < env.words.length) : key env l w / env.words.length = geomAt env l := by
  rw [key, Nat.mul_comm, Nat.mul_add_div (by omega), Nat.div_eq_of_lt h, Nat.add_zero]

theorem key_mod {l w : Nat} (h : w < env.words.length) : key env l w % env.words.length = w := by
  rw [key, Nat.mul_comm, Nat.mul_add_mod, Nat.mod_eq_of_lt h]

/-- The facts that hold all the time. The list has those results that are not yet final, and their places in the cache. -/
structure Inv (env : Env) (S : List (Nat × Nat)) (st : St) : Prop where
  wlen : st.wordSlots.length = env.words.length
  wsize : ∀ (i : Nat) (slot : WordSlot) (word : Word), st.wordSlots[i]? = some slot → env.words[i]? = some word → slot.size = adjusted env i word
  llen : st.lineSlots.length = env.words.length
  lsize : ∀ (i : Nat) (slot : LineSlot), st.lineSlots[i]? = some slot → slot.size = (text env).line i ∧ slot.geom = geomAt env i
  clen : ∀ l w, 0 < l → l < env.words.length → w < env.words.length → key env l w < st.cache.length
  heap : Heap st.bps st.unused st.results (fun r => r ∈ S.map Prod.fst)
  nodup : (S.map Prod.fst).Nodup
  slen : ∀ r ∈ S.map Prod.fst, r < st.results.length
  bad : ∀ (r : Nat) (res : Result), st.results[r]? = some res → res.badness ≤ env.badMax ∧ (res.bp = none → 0 < res.badness) ∧
    (res.bp ≠ none → res.badness < env.badMax)
  ident : ∀ x k : Nat, st.cache[x]? = some (k + 1) → k < st.results.length ∧ (∀ y, (k, y) ∈ S → x = y) ∧
    (k ∉ S.map Prod.fst → ∀ (l : Nat) (res : Result), geomAt env l = x / env.words.length → st.results[k]? = some res →
      ResOk env st.bps l (x % env.words.length) res)
  inj : ∀ x y k : Nat, st.cache[x]? = some (k + 1) → st.cache[y]? = some (k + 1) → x = y

/-- Results that are not affected. -/
structure Keeps (r l w : Nat) (S : List (Nat × Nat)) (st st' : St) : Prop where
  lines : ∀ t, t < l → st'.lineSlots[t]? = st.lineSlots[t]?
  slots : ∀ i, i < w → st'.wordSlots[i]? = st.wordSlots[i]?
  results : ∀ (k : Nat) (res : Result), k ≠ r → st.results[k]? = some res → (k ∈ S.map Prod.fst ∨ res.bp ≠ none) → st'.results[k]? = some res
  chains : ∀ (k : Nat) (res : Result) (p : Option Nat) (cells ws : List Nat), k ≠ r → st.results[k]? = some res → res.bp = some p →
    Chain st.bps p cells ws → Chain st'.bps p cells ws

theorem Keeps.refl (r l w : Nat) (S : List (Nat × Nat)) (st : St) : Keeps r l w S st st :=
  ⟨fun _ _ => rfl, fun _ _ => rfl, fun _ _ _ h _ => h, fun _ _ _ _ _ _ _ _ h => h⟩

theorem Keeps.trans {r l w : Nat} {S : List (Nat × Nat)} {st st' st'' : St} (h1 : Keeps r l w S st st') (h2 : Keeps r l w S st' st'') : Keeps r l w S st st'' := by
  refine ⟨fun t h => by rw [h2.lines t h, h1.lines t h], fun i h => by rw [h2.slots i h, h1.slots i h], ?_, ?_⟩
  · intro k res hk hr hS
    exact h2.results k res hk (h1.results k res hk hr hS) hS
  · intro k res p cells ws hk hr hp hc
    exact h2.chains k res p cells ws hk (h1.results k res hk hr (.inr (by rw [hp]; simp))) hp (h1.chains k res p cells ws hk hr hp hc)

/-- Facts that only depend on the parts that have to do with results. -/
theorem Inv.other {S : List (Nat × Nat)} {st st' : St} (h : Inv env S st) (e1 : st'.wordSlots = st.wordSlots) (e2 : st'.lineSlots = st.lineSlots)
    (e3 : st'.cache = st.cache) (e4 : st'.results = st.results) (e5 : st'.bps = st.bps) (e6 : st'.unused = st.unused) : Inv env S st' := by
  obtain ⟨h1, h2, h3, h4, h5, h6, h7, h8, h9, h10, h11⟩ := h
  exact ⟨by rwa [e1], by rwa [e1], by rwa [e2], by rwa [e2], by rwa [e3], by rwa [e4, e5, e6], h7, by rwa [e4], by rwa [e4],
    by rw [e3, e4, e5]; exact h10, by rwa [e3]⟩

/-- Change of a slot for a word, when its size is unchanged. -/
theorem Inv.setWord {S : List (Nat × Nat)} {st : St} (h : Inv env S st) {i : Nat} {slot : WordSlot} (hs : st.wordSlots[i]? = some slot) (c : Nat) :
    Inv env S { st with wordSlots := st.wordSlots.set i { slot with cursor := c } } := by
  obtain ⟨h1, h2, h3, h4, h5, h6, h7, h8, h9, h10, h11⟩ := h
  refine ⟨by simpa using h1, ?_, h3, h4, h5, h6, h7, h8, h9, h10, h11⟩
  intro j slot' word hj hw
  rcases get_set hj with ⟨rfl, rfl⟩ | ⟨_, hj⟩
  · exact h2 _ slot word hs hw
  · exact h2 j slot' word hj hw

/-- Change of a slot for a line, when its size and geometry are unchanged. -/
theorem Inv.setLine {S : List (Nat × Nat)} {st : St} (h : Inv env S st) {i : Nat} {slot : LineSlot} (hs : st.lineSlots[i]? = some slot) (a b c : Nat) :
    Inv env S { st with lineSlots := st.lineSlots.set i { slot with word := a, badness := b, result := c } } := by
  obtain ⟨h1, h2, h3, h4, h5, h6, h7, h8, h9, h10, h11⟩ := h
  refine ⟨h1, h2, by simpa using h3, ?_, h5, h6, h7, h8, h9, h10, h11⟩
  intro j slot' hj
  rcases get_set hj with ⟨rfl, rfl⟩ | ⟨_, hj⟩
  · exact h4 _ slot hs
  · exact h4 j slot' hj

/-- The result of a place becomes final. -/
theorem Inv.pop {S : List (Nat × Nat)} {st : St} {r l w : Nat} (hw : w < env.words.length) (h : Inv env ((r, key env l w) :: S) st) {res : Result}
    (hr : st.results[r]? = some res) (hok : ResOk env st.bps l w res) : Inv env S st := by
  obtain ⟨h1, h2, h3, h4, h5, h6, h7, h8, h9, h10, h11⟩ := h
  simp only [List.map_cons, List.nodup_cons] at h7
  refine ⟨h1, h2, h3, h4, h5, heap_weaken h6 (fun r' _ _ hq => .inl (List.mem_cons_of_mem _ hq)), h7.2,
    fun r' h => h8 r' (List.mem_cons_of_mem _ h), h9, ?_, h11⟩
  intro x k hx
  obtain ⟨a1, a2, a3⟩ := h10 x k hx
  refine ⟨a1, fun y hy => a2 y (List.mem_cons_of_mem _ hy), fun hk l' res' hl' hres' => ?_⟩
  by_cases hkr : k = r
  · subst hkr
    have hxy := a2 _ List.mem_cons_self
    subst hxy
    rw [hr] at hres'; injection hres' with hres'; subst hres'
    rw [key_div hw] at hl'
    rw [key_mod hw]
    exact resOk_shift hl'.symm hok
  · exact a3 (by simp only [List.map_cons, List.mem_cons, not_or]; exact ⟨hkr, hk⟩) l' res' hl' hres'

/-- Evaluation of a place begins anew. -/
theorem Inv.reuse {S : List (Nat × Nat)} {st : St} {r x : Nat} (h : Inv env S st) (hx : st.cache[x]? = some (r + 1)) (hS : r ∉ S.map Prod.fst) {res : Result}
    (hr : st.results[r]? = some res) (hn : res.bp = none) (hbad : 0 < env.badMax) :
    Inv env ((r, x) :: S) { st with results := st.results.set r ⟨env.badMax, none⟩ } := by
  obtain ⟨h1, h2, h3, h4, h5, h6, h7, h8, h9, h10, h11⟩ := h
  have hlen := (List.getElem?_eq_some_iff.1 hr).1
  refine ⟨h1, h2, h3, h4, h5, ?_, List.nodup_cons.2 ⟨hS, h7⟩, ?_, ?_, ?_, h11⟩
  · refine heap_weaken (heap_clear h6 r ⟨env.badMax, none⟩ (by simp)) (fun r' res' hr' hq => ?_)
    rcases get_set hr' with ⟨_, rfl⟩ | ⟨hne, _⟩
    · right; simp
    · left
      rcases List.mem_cons.1 hq with h | h
      · exact absurd h hne
      · exact h
  · intro r' h'
    simp only [List.length_set]
    rcases List.mem_cons.1 h' with h' | h'
    · rw [h']; exact hlen
    · exact h8 r' h'
  · intro r' res' hr'
    rcases get_set hr' with ⟨_, rfl⟩ | ⟨_, hr'⟩
    · exact ⟨le_refl _, fun _ => hbad, fun hh => absurd rfl hh⟩
    · exact h9 r' res' hr'
  · intro y k hy
    obtain ⟨a1, a2, a3⟩ := h10 y k hy
    refine ⟨by simpa using a1, fun z hz => ?_, fun hk l res' hl hres' => ?_⟩
    · rcases List.mem_cons.1 hz with hz | hz
      · injection hz with e1 e2
        subst e1 e2
        exact h11 _ _ _ hy hx
      · exact a2 z hz
    · simp only [List.map_cons, List.mem_cons, not_or] at hk
      rcases get_set hres' with ⟨e, _⟩ | ⟨_, hres'⟩
      · exact absurd e hk.1
      · exact a3 hk.2 l res' hl hres'

/-- Evaluation of a place for the first time. -/
theorem Inv.fresh {S : List (Nat × Nat)} {st : St} {x : Nat} (h : Inv env S st) (hx : st.cache[x]? = some 0) (hbad : 0 < env.badMax) :
    Inv env ((st.results.length, x) :: S) { st with results := st.results ++ [⟨env.badMax, none⟩], cache := st.cache.set x (st.results.length + 1) } := by
  obtain ⟨h1, h2, h3, h4, h5, h6, h7, h8, h9, h10, h11⟩ := h
  have hget : ∀ (r : Nat) (res : Result), (st.results ++ [⟨env.badMax, none⟩])[r]? = some res → (st.results[r]? = some res) ∨ (r = st.results.length ∧ res = ⟨env.badMax, none⟩) := by
    intro r res hr
    rw [List.getElem?_append] at hr
    split at hr
    · exact .inl hr
    · obtain ⟨g1, g2⟩ := List.getElem?_eq_some_iff.1 hr
      simp only [List.getElem_singleton, List.length_singleton] at g1 g2
      exact .inr ⟨by omega, g2.symm⟩
  have hS : st.results.length ∉ S.map Prod.fst := fun h => absurd (h8 _ h) (by omega)
  refine ⟨h1, h2, h3, h4, by simpa using h5, ?_, List.nodup_cons.2 ⟨hS, h7⟩, ?_, ?_, ?_, ?_⟩
  · refine heap_weaken (heap_push h6 env.badMax) (fun r' res' hr' hq => ?_)
    rcases List.mem_cons.1 hq with h | h
    · right
      rcases hget r' res' hr' with h' | ⟨_, rfl⟩
      · have := (List.getElem?_eq_some_iff.1 h').1; simp only at h; omega
      · simp
    · exact .inl h
  · intro r' h'
    simp only [List.length_append, List.length_singleton]
    rcases List.mem_cons.1 h' with h' | h'
    · simp only at h'; omega
    · have := h8 r' h'; omega
  · intro r' res' hr'
    rcases hget r' res' hr' with h' | ⟨_, rfl⟩
    · exact h9 r' res' h'
    · exact ⟨le_refl _, fun _ => hbad, fun hh => absurd rfl hh⟩
  · intro y k hy
    simp only [List.length_append, List.length_singleton]
    rcases get_set hy with ⟨rfl, hk⟩ | ⟨hne, hy⟩
    · have hk : k = st.results.length := by omega
      subst hk
      refine ⟨by omega, fun z hz => ?_, fun hk => ?_⟩
      · rcases List.mem_cons.1 hz with hz | hz
        · injection hz with _ e; exact e.symm
        · exact absurd (List.mem_map_of_mem (f := Prod.fst) hz) hS
      · exact absurd List.mem_cons_self hk
    · obtain ⟨a1, a2, a3⟩ := h10 y k hy
      refine ⟨by omega, fun z hz => ?_, fun hk l res' hl hres' => ?_⟩
      · rcases List.mem_cons.1 hz with hz | hz
        · injection hz with e1 _; omega
        · exact a2 z hz
      · simp only [List.map_cons, List.mem_cons, not_or] at hk
        rcases hget k res' hres' with h' | ⟨h', _⟩
        · exact a3 hk.2 l res' hl h'
        · exact absurd h' hk.1
  · intro y z k hy hz
    rcases get_set hy with ⟨d1, e1⟩ | ⟨_, hy'⟩ <;> rcases get_set hz with ⟨d2, e2⟩ | ⟨_, hz'⟩
    · rw [d1, d2]
    · have := (h10 z k hz').1; omega
    · have := (h10 y k hy').1; omega
    · exact h11 y z k hy' hz'

/-- Replacement of a result that is not final. -/
theorem Inv.update {S : List (Nat × Nat)} {st : St} {r x : Nat} (h : Inv env ((r, x) :: S) st) {bps : List Bp} {unused : Option Nat} {new : Result}
    (hheap : Heap bps unused (st.results.set r new) (fun k => k ∈ ((r, x) :: S).map Prod.fst)) (hsame : Same st.bps bps st.results r)
    (hbad : new.badness ≤ env.badMax ∧ (new.bp = none → 0 < new.badness) ∧ (new.bp ≠ none → new.badness < env.badMax)) :
    Inv env ((r, x) :: S) { st with bps := bps, unused := unused, results := st.results.set r new } := by
  obtain ⟨h1, h2, h3, h4, h5, h6, h7, h8, h9, h10, h11⟩ := h
  refine ⟨h1, h2, h3, h4, h5, hheap, h7, by simpa using h8, ?_, ?_, h11⟩
  · intro r' res' hr'
    rcases get_set hr' with ⟨_, rfl⟩ | ⟨_, hr'⟩
    · exact hbad
    · exact h9 r' res' hr'
  · intro y k hy
    obtain ⟨a1, a2, a3⟩ := h10 y k hy
    refine ⟨by simpa using a1, a2, fun hk l res' hl hres' => ?_⟩
    have hkr : k ≠ r := fun h => hk (h ▸ List.mem_cons_self)
    rcases get_set hres' with ⟨e, _⟩ | ⟨_, hres'⟩
    · exact absurd e hkr
    · obtain ⟨b1, b2⟩ := a3 hk l res' hl hres'
      refine ⟨b1, fun p hp => ?_⟩
      obtain ⟨cells, ws, c1, c2⟩ := b2 p hp
      exact ⟨cells, ws, hsame k res' p cells ws hkr hres' hp c1, c2⟩

end Verif.WordWrap
