import Verif.WordWrap.Eval
/-!
Knuth's algorithm: from start to end.
-/
namespace Verif.WordWrap
open Spec

variable {env : Env}

theorem unpack_spec (ok : Ok env) : ∀ (m l : Nat), ∃ slots, unpack env m (geomAt env l) = some slots ∧ slots.length = m ∧
    ∀ (i : Nat) (slot : LineSlot), slots[i]? = some slot → slot.size = (text env).line (l + i) ∧ slot.geom = geomAt env (l + i) ∧ slot.word = 0 := by
  intro m
  induction m with
  | zero => intro l; exact ⟨[], rfl, rfl, fun i slot h => by simp at h⟩
  | succ m ih =>
    intro l
    obtain ⟨slots, h1, h2, h3⟩ := ih (l + 1)
    obtain ⟨g, g1, g2, g3, _⟩ := geom_get ok l
    refine ⟨⟨g.line, geomAt env l, 0, 0, 0⟩ :: slots, ?_, by simp [h2], ?_⟩
    · rw [unpack, g1]
      simp only [Option.bind_eq_bind, Option.bind_some]
      rw [g3, h1]; rfl
    · intro i slot hs
      cases i with
      | zero =>
        simp only [List.getElem?_cons_zero, Option.some.injEq] at hs
        subst hs; exact ⟨g2, rfl, rfl⟩
      | succ i =>
        rw [List.getElem?_cons_succ] at hs
        have := h3 i slot hs
        rw [show l + (i + 1) = l + 1 + i by omega]; exact this

theorem foldl_max (slots : List LineSlot) (m : Nat) :
    m ≤ slots.foldl (fun m slot => if slot.geom > m then slot.geom else m) m ∧
      ∀ slot ∈ slots, slot.geom ≤ slots.foldl (fun m slot => if slot.geom > m then slot.geom else m) m := by
  induction slots generalizing m with
  | nil => exact ⟨le_refl _, fun _ h => by simp at h⟩
  | cons s slots ih =>
    obtain ⟨h1, h2⟩ := ih (if s.geom > m then s.geom else m)
    rw [List.foldl_cons]
    have h3 : m ≤ (if s.geom > m then s.geom else m) ∧ s.geom ≤ (if s.geom > m then s.geom else m) := by split <;> omega
    refine ⟨le_trans h3.1 h1, fun slot hs => ?_⟩
    rcases List.mem_cons.1 hs with rfl | hs
    · exact le_trans h3.2 h1
    · exact h2 slot hs

theorem start_spec (ok : Ok env) (hbad : 0 < env.badMax) (hn : 0 < env.words.length) :
    ∃ st, start env = some st ∧ Inv env [(0, key env 0 0)] st ∧ st.word = 0 ∧ st.line = 0 ∧ st.result = 0 ∧
      (∃ slot, st.lineSlots[0]? = some slot ∧ slot.word = 0) ∧ st.results[0]? = some ⟨env.badMax, none⟩ ∧ st.bound = env.badMax := by
  obtain ⟨slots, u1, u2, u3⟩ := unpack_spec ok env.words.length 0
  have u1' : unpack env env.words.length env.first = some slots := u1
  unfold start
  rw [u1']
  refine ⟨_, rfl, ?_, rfl, rfl, rfl, ?_, rfl, rfl⟩
  · refine ⟨by simp, ?_, u2, fun i slot h => by have := u3 i slot h; rw [Nat.zero_add] at this; exact ⟨this.1, this.2.1⟩, ?_, ?_, by simp, by simp, ?_, ?_, ?_⟩
    · intro i slot word hs hw
      simp only [List.getElem?_mapIdx, hw, Option.map_some, Option.some.injEq] at hs
      rw [← hs]
    · intro l w hl hln hwn
      simp only [List.length_replicate]
      have hlt : l < slots.length := by omega
      have hg := u3 l slots[l] (List.getElem?_eq_getElem hlt)
      rw [Nat.zero_add] at hg
      have hmem : slots[l] ∈ slots.drop 1 := by
        rw [List.mem_drop_iff_getElem]
        exact ⟨l - 1, by omega, by congr 1; omega⟩
      have hle := (foldl_max (slots.drop 1) 0).2 _ hmem
      have : geomAt env l < numGeometries slots := by
        unfold numGeometries
        rw [← hg.2.1]; omega
      unfold key
      calc geomAt env l * env.words.length + w < geomAt env l * env.words.length + env.words.length := by omega
        _ = (geomAt env l + 1) * env.words.length := by ring
        _ ≤ numGeometries slots * env.words.length := Nat.mul_le_mul_right _ this
        _ = env.words.length * numGeometries slots := Nat.mul_comm _ _
    · refine ⟨[], [], .nil, List.nodup_nil, fun r res p hr hp => ?_⟩
      cases r with
      | zero =>
        simp only [List.getElem?_cons_zero, Option.some.injEq] at hr
        subst hr; cases hp
      | succ r => simp at hr
    · intro r res hr
      cases r with
      | zero =>
        simp only [List.getElem?_cons_zero, Option.some.injEq] at hr
        subst hr; exact ⟨le_refl _, fun _ => hbad, fun hh => absurd rfl hh⟩
      | succ r => simp at hr
    · intro x k hx
      simp only [List.getElem?_replicate] at hx
      split at hx
      · simp at hx
      · cases hx
    · intro x y k hx
      simp only [List.getElem?_replicate] at hx
      split at hx
      · simp at hx
      · cases hx
  · have hlt : 0 < slots.length := by omega
    exact ⟨_, List.getElem?_eq_getElem hlt, (u3 0 _ (List.getElem?_eq_getElem hlt)).2.2⟩

theorem valid_length {t : Text} {l i : Nat} {bs : List Nat} (h : t.Valid l i bs) : i + bs.length < t.n := by
  induction bs generalizing l i with
  | nil => exact h.1
  | cons j js ih => have := ih h.2.2; have := h.1; simp only [List.length_cons]; omega

theorem run_done (fuel : Nat) (st : St) : run env fuel .done st = some st := by
  cases fuel <;> rfl

theorem knuth_spec (ok : Ok env) (hbad : 0 < env.badMax) (hn : 2 ≤ env.words.length) :
    ∃ N, (∃ bs, (text env).Valid 0 0 bs ∧ (text env).badness 0 0 bs < env.badMax ∧ Lb (text env) 0 0 ((text env).badness 0 0 bs) ∧
        ∀ fuel b, N ≤ fuel → knuth env fuel b = some (.ok bs ((text env).badness 0 0 bs))) ∨
      (Lb (text env) 0 0 env.badMax ∧ ∀ fuel b, N ≤ fuel → knuth env fuel b = some .overflow) := by
  obtain ⟨st0, s1, s2, s3, s4, s5, s6, s7, s8⟩ := start_spec ok hbad (by omega)
  obtain ⟨st, e1, e2, _⟩ := evals_all ok hbad _ 0 rfl 0 0 [] st0 (le_refl _) (by omega) (by simp) s2 s3 s4 s5 s6 s7 (by omega)
  have hlast : Reaches env (.up, st) (.done, st) := by
    refine .step ?_
    show stepUp env st = _
    unfold stepUp
    rw [if_pos e2.line]
  obtain ⟨N, hN⟩ := e1.trans hlast
  obtain ⟨res, r1, r2, r3⟩ := e2.res
  have hrun : ∀ fuel, N ≤ fuel → run env fuel .right1 st0 = some st := by
    intro fuel hf
    have := hN (fuel - N)
    rw [Nat.sub_add_cancel hf, run_done] at this
    exact this
  have hk : ∀ fuel b, N ≤ fuel → knuth env fuel b = (match res.bp with
      | none => some .overflow
      | some bp => (gather st.bps env.words.length bp).bind fun bs => some (.ok bs res.badness)) := by
    intro fuel b hf
    unfold knuth
    rw [if_neg (by omega), s1]
    simp only [Option.bind_eq_bind, Option.bind_some, hrun fuel hf, e2.result, r1]
    cases res.bp <;> rfl
  refine ⟨N, ?_⟩
  cases hbp : res.bp with
  | none =>
    right
    refine ⟨?_, fun fuel b hf => by rw [hk fuel b hf, hbp]⟩
    have hle := (e2.inv.bad _ _ r1).1
    have : res.badness = env.badMax := by
      rcases r3.indefinite hbp with h | h
      · rcases r3.why with h' | ⟨h', _⟩ | ⟨_, h'⟩ | ⟨h', _⟩
        · omega
        · exact absurd hbp h'
        · omega
        · exact absurd hbp h'
      · exact h
    rw [← this]; exact r2.1
  | some p =>
    left
    obtain ⟨cells, ws, c1, c2, c3⟩ := r2.2 p hbp
    refine ⟨ws, c2, ?_, ?_, fun fuel b hf => ?_⟩
    · rw [c3]; exact (e2.inv.bad _ _ r1).2.2 (by rw [hbp]; simp)
    · rw [c3]; exact r2.1
    · rw [hk fuel b hf, hbp]
      simp only
      rw [gather_spec c1 _ (by have := valid_length c2; have hnn : (text env).n = env.words.length := rfl; omega)]
      rw [c3]; rfl

theorem run_mono {fuel fuel' : Nat} {lab : Label} {st x : St} (h : run env fuel lab st = some x) (hle : fuel ≤ fuel') : run env fuel' lab st = some x := by
  induction fuel generalizing fuel' lab st with
  | zero =>
    cases lab with
    | done => rw [run_done] at h ⊢; exact h
    | _ => simp [run] at h
  | succ fuel ih =>
    obtain ⟨m, rfl⟩ : ∃ m, fuel' = m + 1 := ⟨fuel' - 1, by omega⟩
    cases lab with
    | done => rw [run_done] at h ⊢; exact h
    | _ =>
      simp only [run, Option.bind_eq_bind] at h ⊢
      obtain ⟨⟨lab', st'⟩, h1, h2⟩ := Option.bind_eq_some_iff.1 h
      rw [h1]
      exact ih h2 (by omega)

theorem knuth_mono {fuel fuel' b : Nat} {o : Outcome} (h : knuth env fuel b = some o) (hle : fuel ≤ fuel') : knuth env fuel' b = some o := by
  unfold knuth at *
  split
  · rw [if_pos ‹_›] at h; exact h
  · rw [if_neg ‹_›] at h
    simp only [Option.bind_eq_bind] at h ⊢
    obtain ⟨st0, h1, h2⟩ := Option.bind_eq_some_iff.1 h
    obtain ⟨st, h3, h4⟩ := Option.bind_eq_some_iff.1 h2
    rw [h1, Option.bind_some, run_mono h3 hle, Option.bind_some]
    exact h4

end Verif.WordWrap
