import Verif.CliPattern.MatcherMain
/-!
When the construction of the pattern matcher succeeds.
-/
namespace Verif.CliPattern

/-- Two patterns match the same sequence. -/
def OverlapAt (ps : List Pat) (i j : Nat) : Prop :=
  i < j ∧ ∃ p q w, ps[i]? = some p ∧ ps[j]? = some q ∧ Lang p w ∧ Lang q w

/-- A sequence whose first matching pattern is the pattern at index `k`, and which is a proper prefix of a match. -/
def PrefixAt (ps : List Pat) (k : Nat) : Prop :=
  ∃ p w, ps[k]? = some p ∧ Lang p w ∧ (∀ j q, j < k → ps[j]? = some q → ¬ Lang q w) ∧ ∃ q ∈ ps, ∃ a v, Lang q (w ++ a :: v)

section
variable {nfa : Nfa} {ps : List Pat} (hn : NfaOf nfa ps) (hwf : ∀ p ∈ ps, Wf p .seq)
include hn

theorem viable_iff (hwf : ∀ p ∈ ps, Wf p .seq) (v : List PatternSymbol) : (∃ q, Reach nfa v q) ↔ ∃ p ∈ ps, ∃ u, Lang p (v ++ u) := by
  constructor
  · rintro ⟨q, hq⟩
    obtain ⟨k, p, hk, h1, h2⟩ := cover hn (reach_range hn hq)
    have hp := List.mem_of_getElem? hk
    obtain ⟨u, hu⟩ := (reach_prefix hn hk (hwf p hp) v).1 ⟨q, h1, h2, hq⟩
    exact ⟨p, hp, u, hu⟩
  · rintro ⟨p, hp, hu⟩
    obtain ⟨k, hk⟩ := List.getElem?_of_mem hp
    obtain ⟨q, _, _, h⟩ := (reach_prefix hn hk (hwf p hp) v).2 hu
    exact ⟨q, h⟩

include hwf

theorem nfa_of_final {w : List PatternSymbol} {f : Nat} (h : Reach nfa w f) (hf : nfa.fol f = []) : ∃ p, ps[nfa.pat f]? = some p ∧ Lang p w ∧
    f = base ps (nfa.pat f) + size p := by
  obtain ⟨p, h1, h2⟩ := final_pos hn hwf (reach_range hn h) hf
  refine ⟨p, h1, ?_, h2⟩
  rw [h2] at h
  exact (reach_final hn h1 w).1 h

theorem nfa_final_of {w : List PatternSymbol} {k : Nat} {p : Pat} (hk : ps[k]? = some p) (h : Lang p w) :
    Reach nfa w (base ps k + size p) ∧ nfa.fol (base ps k + size p) = [] ∧ nfa.pat (base ps k + size p) = k :=
  ⟨(reach_final hn hk w).2 h, (final_iff hn hk (hwf p (List.mem_of_getElem? hk)) (by omega) (by omega)).2 rfl,
    pat_eq hn hk (by omega) (by omega)⟩

theorem crossErr {config : Config} {e : Stop} (h : CrossErr config nfa e) :
    config.allowCross = false ∧ ∃ i j, OverlapAt ps i j ∧ e = .cross (1 + i) (1 + j) := by
  obtain ⟨w, x, y, hx, hy, hxy, hfx, hfy, hc, he⟩ := h
  obtain ⟨p, h1, h2, _⟩ := nfa_of_final hn hwf hx hfx
  obtain ⟨q, h3, h4, _⟩ := nfa_of_final hn hwf hy hfy
  exact ⟨hc, _, _, ⟨pat_lt hn hwf (reach_range hn hx) (reach_range hn hy) hfx hfy hxy, p, q, w, h1, h3, h2, h4⟩, he⟩

theorem delegErr {patterns : List PatternSpec} {e : Stop} (h : DelegErr patterns nfa e) :
    ∃ k s, patterns[k]? = some s ∧ s.isDeleg = true ∧ PrefixAt ps k ∧ e = .prefixDeleg (1 + k) := by
  obtain ⟨w, f, a, q, s, hf, hff, hmin, hq, hs, hd, he⟩ := h
  obtain ⟨p, h1, h2, h3⟩ := nfa_of_final hn hwf hf hff
  refine ⟨nfa.pat f, s, hs, hd, ⟨p, w, h1, h2, ?_, ?_⟩, he⟩
  · intro j r hj hr hl
    obtain ⟨h4, h5, _⟩ := nfa_final_of hn hwf hr hl
    have := hmin _ h4 h5
    have := base_mono ps j (nfa.pat f) r hr hj (Nat.le_of_lt (List.getElem?_eq_some_iff.1 h1).1)
    omega
  · rw [← reach_snoc] at hq
    obtain ⟨r, hr, u, hu⟩ := (viable_iff hn hwf _).1 ⟨q, hq⟩
    exact ⟨r, hr, a, u, by simpa using hu⟩

omit hwf in
/-- A path in terms of traces. -/
theorem path_visits {k : Nat} {p : Pat} (hk : ps[k]? = some p) {w : List PatternSymbol} {xs : List Nat}
    (h : Trace nfa xs (base ps k + size p)) (hw : xs.map nfa.sym = w.map some) :
    ∃ is, xs = is.map (base ps k + ·) ∧ Path p 0 is ∧ Visits p is w := by
  obtain ⟨is, rfl, h2⟩ := path_unshift p 0 (base ps k) xs ((trace_final hn hk xs).1 h)
  refine ⟨is, rfl, h2, ?_⟩
  unfold Visits
  rw [← hw, List.map_map]
  refine List.map_congr_left ?_
  intro i hi
  have := Path_range p 0 is h2 i hi
  simp only [Function.comp]
  rw [sym_eq hn hk (by omega) (by omega), symAt, if_pos (by omega), Nat.add_sub_cancel_left]

theorem posErr {config : Config} {e : Stop} (h : PosErr config nfa e) : config.allowPositional = false ∧
    ∃ k p i j, ps[k]? = some p ∧ PositionallyAmbiguous p ∧ i < size p ∧ j < size p ∧ i ≠ j ∧
      (∃ (w : List PatternSymbol) (xs ys : List Nat) (n : Nat), xs ≠ ys ∧ Path p 0 xs ∧ Path p 0 ys ∧ Visits p xs w ∧ Visits p ys w ∧ xs[n]? = some i ∧ ys[n]? = some j) ∧
      e = .positional (1 + k) (1 + (base ps k + i)) (1 + (base ps k + j)) := by
  obtain ⟨hc, w, x, y, q, hx, hy, hne, hs, hqx, hqy, he⟩ := h
  obtain ⟨k, p, hk, h1, h2⟩ := cover hn (fol_range hn hqx)
  have hex := Edge_range ((edge_iff' hn hk h1 h2).1 hqx)
  have hey := Edge_range ((edge_iff' hn hk h1 h2).1 hqy)
  obtain ⟨us, hu1, hu2⟩ := (reach_trace nfa w x).1 hx
  obtain ⟨vs, hv1, hv2⟩ := (reach_trace nfa w y).1 hy
  have hp := hwf p (List.mem_of_getElem? hk)
  have hsx : ∃ a, nfa.sym x = some a := by
    obtain ⟨P, _, _, _, h⟩ := get_pos (nfa := nfa) (reach_range hn hx)
    exact ⟨_, h⟩
  obtain ⟨a, ha⟩ := hsx
  -- The common rest
  have hrest : ∃ l : List Nat, ∃ v : List PatternSymbol, l.map nfa.sym = v.map some ∧ Trace nfa (us ++ x :: l) (base ps k + size p) ∧
      Trace nfa (vs ++ y :: l) (base ps k + size p) := by
    by_cases hq : q = base ps k + size p
    · subst hq
      exact ⟨[], [], rfl, trace_snoc.2 ⟨hu1, hqx⟩, trace_snoc.2 ⟨hv1, hqy⟩⟩
    · obtain ⟨l, hl⟩ := walk_exists p (base ps k) _ hp q h1 (by omega)
      have hl' : Walk (fun a b => b ∈ nfa.fol a) (fun z => (base ps k + size p) ∈ nfa.fol z) q l :=
        Walk.mono (fun a b h => (hn.edges a b).2 ⟨k, p, hk, Or.inl h⟩) (fun a h => (hn.edges _ _).2 ⟨k, p, hk, Or.inr ⟨h, rfl⟩⟩) l q hl
      have hjoin : ∀ us : List Nat, ∀ x, Trace nfa us x → q ∈ nfa.fol x → Trace nfa (us ++ x :: q :: l) (base ps k + size p) := by
        intro us x h hx
        have : us ++ x :: q :: l = (us ++ [x]) ++ q :: l := by simp
        rw [this]
        have ht := trace_snoc.2 ⟨h, hx⟩
        cases hus : us ++ [x] with
        | nil => simp at hus
        | cons z zs =>
          rw [hus] at ht
          exact ⟨ht.1, walk_join ht.2 hl'⟩
      have htx := hjoin us x hu1 hqx
      have hin := trace_in hn hk (by omega) (by omega) htx
      have : ∀ l : List Nat, (∀ x ∈ l, base ps k ≤ x ∧ x < base ps k + size p) → ∃ v : List PatternSymbol, l.map nfa.sym = v.map some := by
        intro l
        induction l with
        | nil => intro _; exact ⟨[], rfl⟩
        | cons x l ih =>
          intro h
          obtain ⟨v, hv⟩ := ih (fun y hy => h y (by simp [hy]))
          have hx := h x (by simp)
          have hs := sym_eq hn hk hx.1 hx.2
          rw [symAt, if_pos hx.1, List.getElem?_eq_getElem (by rw [symbols_length]; omega)] at hs
          exact ⟨_ :: v, by rw [List.map_cons, List.map_cons, hv, hs]⟩
      obtain ⟨v, hv⟩ := this (q :: l) (fun z hz => hin z (by simp only [List.mem_append, List.mem_cons] at hz ⊢; tauto))
      exact ⟨q :: l, v, hv, htx, hjoin vs y hv1 hqy⟩
  obtain ⟨l, v, hlv, htx, hty⟩ := hrest
  obtain ⟨is, h3, h4, h5⟩ := path_visits hn hk (w := w ++ a :: v) htx (by simp [hu2, hlv, ha])
  obtain ⟨js, h6, h7, h8⟩ := path_visits hn hk (w := w ++ a :: v) hty (by simp [hv2, hlv, ← hs, ha])
  have hlu : us.length = w.length := by simpa using congrArg List.length hu2
  have hlv' : vs.length = w.length := by simpa using congrArg List.length hv2
  have hix : is[w.length]? = some (x - base ps k) := by
    have := congrArg (·[w.length]?) h3
    simp only [List.getElem?_map, List.getElem?_append_right (Nat.le_of_eq hlu), hlu, Nat.sub_self, List.getElem?_cons_zero] at this
    rw [eq_comm, Option.map_eq_some_iff] at this
    obtain ⟨i, hi, hix⟩ := this
    rw [hi, ← hix, Nat.add_sub_cancel_left]
  have hjy : js[w.length]? = some (y - base ps k) := by
    have := congrArg (·[w.length]?) h6
    simp only [List.getElem?_map, List.getElem?_append_right (Nat.le_of_eq hlv'), hlv', Nat.sub_self, List.getElem?_cons_zero] at this
    rw [eq_comm, Option.map_eq_some_iff] at this
    obtain ⟨i, hi, hix⟩ := this
    rw [hi, ← hix, Nat.add_sub_cancel_left]
  have hij : is ≠ js := by
    intro h
    rw [h, hjy] at hix
    simp only [Option.some.injEq] at hix
    omega
  refine ⟨hc, k, p, x - base ps k, y - base ps k, hk, ⟨_, is, js, hij, h4, h7, h5, h8⟩, by omega, by omega, by omega,
    ⟨_, is, js, _, hij, h4, h7, h5, h8, hix, hjy⟩, ?_⟩
  rw [he, pat_eq hn hk (x := y) (by omega) (by omega)]
  congr 1 <;> omega

omit hn hwf in
/-- Two ways to visit the symbols of a match meet at some point. -/
theorem conflict_of_traces : ∀ (w : List PatternSymbol) (xs ys : List Nat) (q : Nat), xs ≠ ys → Trace nfa xs q → Trace nfa ys q →
    xs.map nfa.sym = w.map some → ys.map nfa.sym = w.map some →
    ∃ v x y r, Reach nfa v x ∧ Reach nfa v y ∧ x ≠ y ∧ nfa.sym x = nfa.sym y ∧ r ∈ nfa.fol x ∧ r ∈ nfa.fol y := by
  intro w
  induction w using List.reverseRecOn with
  | nil =>
    intro xs ys q hne _ _ h1 h2
    simp only [List.map_nil, List.map_eq_nil_iff] at h1 h2
    subst h1 h2
    exact absurd rfl hne
  | append_singleton w a ih =>
    intro xs ys q hne hx hy h1 h2
    rw [List.map_append] at h1 h2
    obtain ⟨xs, x1, rfl, h3, h4⟩ := List.map_eq_append_iff.1 h1
    obtain ⟨ys, y1, rfl, h5, h6⟩ := List.map_eq_append_iff.1 h2
    match x1, y1, h4, h6 with
    | [x], [y], h4, h6 =>
      simp only [List.map_cons, List.map_nil, List.cons.injEq, and_true] at h4 h6
      rw [trace_snoc] at hx hy
      by_cases hxy : x = y
      · subst hxy
        refine ih xs ys x ?_ hx.1 hy.1 h3 h5
        intro h; subst h; exact hne rfl
      · exact ⟨w, x, y, q, (reach_trace nfa w x).2 ⟨xs, hx.1, h3⟩, (reach_trace nfa w y).2 ⟨ys, hy.1, h5⟩, hxy, by rw [h4, h6], hx.2, hy.2⟩
    | _ :: _ :: _, _, h4, _ => simp at h4
    | _, _ :: _ :: _, _, h6 => simp at h6
    | [], _, h4, _ => simp at h4
    | _, [], _, h6 => simp at h6

end

section
variable {config : Config} {ps : List Pat} {m : Matcher} {w : List PatternSymbol} (hm : MatcherOf config ps m w)
include hm

/-- Every viable sequence leads to a state. -/
theorem MatcherOf.state_of (v : List PatternSymbol) : ∀ q, Reach m.nfa v q → ∃ (i : Nat) (st : DState), m.states[i]? = some st ∧
    (∀ q, q ∈ st.positions ↔ Reach m.nfa v q) := by
  induction v using List.reverseRecOn with
  | nil =>
    intro q _
    have := hm.inv.start
    unfold posOf at this
    rw [Option.map_eq_some_iff] at this
    obtain ⟨st, h1, h2⟩ := this
    exact ⟨0, st, h1, fun q => by rw [h2]; rfl⟩
  | append_singleton v a ih =>
    intro q hq
    have hq' := hq
    rw [reach_snoc] at hq'
    obtain ⟨x, hx, _, _⟩ := id hq'
    obtain ⟨i, st, h1, h2⟩ := ih x hx
    have hd := hm.inv.done i st h1 (List.getElem?_eq_some_iff.1 h1).1
    have hnext : ∀ q, Next m.nfa (· ∈ st.positions) a q ↔ Reach m.nfa (v ++ [a]) q := by
      intro q
      rw [reach_snoc]
      simp only [Next, h2]
    obtain ⟨j, hj⟩ := hd.all a q ((hnext q).2 hq)
    obtain ⟨P, h3, _, h4⟩ := hd.trans a j hj
    unfold posOf at h3
    rw [Option.map_eq_some_iff] at h3
    obtain ⟨st', h5, rfl⟩ := h3
    exact ⟨j, st', h5, fun q => (h4 q).trans (hnext q)⟩

theorem MatcherOf.no_cross (h : config.allowCross = false) (i j : Nat) : ¬ OverlapAt ps i j := by
  rintro ⟨hij, p, q, v, h1, h2, h3, h4⟩
  obtain ⟨h5, h6, _⟩ := nfa_final_of hm.nfaOf hm.wf h1 h3
  obtain ⟨h7, h8, _⟩ := nfa_final_of hm.nfaOf hm.wf h2 h4
  obtain ⟨k, st, h9, h10⟩ := hm.state_of v _ h5
  have := (hm.inv.invA.ok st (List.mem_of_getElem? h9)).cross h _ ((h10 _).2 h5) _ ((h10 _).2 h7) h6 h8
  have := base_mono ps i j p h1 hij (Nat.le_of_lt (List.getElem?_eq_some_iff.1 h2).1)
  omega

theorem MatcherOf.no_positional (h : config.allowPositional = false) (p : Pat) (hp : p ∈ ps) : ¬ PositionallyAmbiguous p := by
  rintro ⟨v, is, js, hne, h1, h2, h3, h4⟩
  obtain ⟨k, hk⟩ := List.getElem?_of_mem hp
  have htr : ∀ is, Path p 0 is → Visits p is v → Trace m.nfa (is.map (base ps k + ·)) (base ps k + size p) ∧
      (is.map (base ps k + ·)).map m.nfa.sym = v.map some := by
    intro is h1 h3
    refine ⟨(trace_final hm.nfaOf hk _).2 (path_shift p 0 (base ps k) is h1), ?_⟩
    rw [← h3, List.map_map]
    refine List.map_congr_left ?_
    intro i hi
    have := Path_range p 0 is h1 i hi
    simp only [Function.comp]
    rw [sym_eq hm.nfaOf hk (by omega) (by omega), symAt, if_pos (by omega), Nat.add_sub_cancel_left]
  obtain ⟨u, x, y, r, h5, h6, h7, h8, h9, h10⟩ := conflict_of_traces v _ _ _ (by
    intro h
    exact hne (List.map_injective_iff.2 (fun a b h => by omega) h)) (htr is h1 h3).1 (htr js h2 h4).1 (htr is h1 h3).2 (htr js h2 h4).2
  obtain ⟨i, st, h11, h12⟩ := hm.state_of u _ h5
  exact (hm.inv.done i st h11 (List.getElem?_eq_some_iff.1 h11).1).pos h x y ⟨(h12 x).2 h5, (h12 y).2 h6, h7, h8, r, h9, h10⟩

theorem MatcherOf.no_deleg {k : Nat} {s : PatternSpec} (hs : m.patterns[k]? = some s) (hd : s.isDeleg = true) : ¬ PrefixAt ps k := by
  rintro ⟨p, v, h1, h2, h3, q, hq, a, u, h4⟩
  obtain ⟨h5, h6, h7⟩ := nfa_final_of hm.nfaOf hm.wf h1 h2
  obtain ⟨i, st, h8, h9⟩ := hm.state_of v _ h5
  have hok := hm.inv.invA.ok st (List.mem_of_getElem? h8)
  have hdone := hm.inv.done i st h8 (List.getElem?_eq_some_iff.1 h8).1
  have hne : st.transitions ≠ [] := by
    obtain ⟨r, hr⟩ := (viable_iff hm.nfaOf hm.wf (v ++ [a])).2 ⟨q, hq, u, by simpa using h4⟩
    rw [reach_snoc] at hr
    obtain ⟨j, hj⟩ := hdone.all a r (by simpa only [Next, h9] using hr)
    intro h
    rw [h] at hj
    simp at hj
  have hfin : st.finalpos = some (base ps k + size p) := by
    cases hf : st.finalpos with
    | none =>
      have := hok.final
      rw [hf] at this
      have := List.find?_eq_none.1 this.symm _ ((h9 _).2 h5)
      simp [h6] at this
    | some f =>
      have := hok.final
      rw [hf] at this
      obtain ⟨h10, h11, h12⟩ := find_sorted hok.sorted this.symm
      have hf' := (h9 f).1 h10
      obtain ⟨r, h13, h14, h15⟩ := nfa_of_final hm.nfaOf hm.wf hf' (by simpa using h11)
      have hle := h12 _ ((h9 _).2 h5) (by simpa using h6)
      rcases Nat.lt_trichotomy (m.nfa.pat f) k with h | h | h
      · exact absurd h14 (h3 _ r h h13)
      · rw [h] at h13 h15
        rw [h1] at h13
        cases h13
        rw [h15]
      · have := base_mono ps k (m.nfa.pat f) p h1 h (Nat.le_of_lt (List.getElem?_eq_some_iff.1 h13).1)
        omega
  have := hdone.deleg hne _ hfin s (by rw [h7]; exact hs)
  rw [hd] at this
  simp at this

end

end Verif.CliPattern
