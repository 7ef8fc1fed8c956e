import Verif.WordWrap.Search
/-!
Knuth's algorithm: from a place to the next line.
-/
namespace Verif.WordWrap
open Spec

variable {env : Env}

theorem keeps_update {r l w : Nat} {S : List (Nat × Nat)} {st : St} {bps : List Bp} {unused : Option Nat} {new : Result} (hsame : Same st.bps bps st.results r) :
    Keeps r l w S st { st with bps := bps, unused := unused, results := st.results.set r new } :=
  ⟨fun _ _ => rfl, fun _ _ => rfl, fun _ _ hk h _ => by rw [← h]; exact set_ne hk, fun k res p cells ws hk hr hp hc => hsame k res p cells ws hk hr hp hc⟩

theorem stack_not_mem {S : List (Nat × Nat)} {st : St} {r l w k rc x : Nat} (hw : w < k) (hkn : k < env.words.length) (hS : ∀ p ∈ S, p.2 % env.words.length < w)
    (hx : x % env.words.length = k) (hinv : Inv env ((r, key env l w) :: S) st) (hc : st.cache[x]? = some (rc + 1)) : rc ∉ ((r, key env l w) :: S).map Prod.fst := by
  intro hm
  obtain ⟨⟨a, y⟩, h1, h2⟩ := List.mem_map.1 hm
  simp only at h2
  subst h2
  have hxy := (hinv.ident x a hc).2.1 y h1
  subst hxy
  rcases List.mem_cons.1 h1 with h | h
  · injection h with _ e
    rw [e, key_mod (by omega)] at hx
    omega
  · have := hS _ h
    simp only at this
    omega

theorem down_step {B0 r l w k : Nat} {S : List (Nat × Nat)} {st : St} (hbad : 0 < env.badMax) (hlw : l ≤ w) (hw : w < k) (hkn : k < env.words.length)
    (h : Node env B0 r l w k (k + 1) S st) (hword : st.word = k) (hc : CurOk env l w k st.cursor)
    (hn : ¬ (text env).fits l w (text env).n) (hS : ∀ p ∈ S, p.2 % env.words.length < w) (hB : B0 ≤ env.badMax) :
    (∃ st', step env .down st = some (.up, st') ∧ Exit env B0 r l w S st' ∧ Keeps r l w S st st') ∨
    (∃ st' rc, ((step env .down st = some (.right1, st') ∧ Inv env ((rc, key env (l + 1) k) :: (r, key env l w) :: S) st' ∧
          st'.results[rc]? = some ⟨env.badMax, none⟩ ∧ st'.word = k ∧ st'.line = l + 1 ∧ st'.result = rc ∧
          (∃ slot, st'.lineSlots[l + 1]? = some slot ∧ slot.word = k)) ∨
        (step env .down st = some (.up, st') ∧ Exit env (st.bound - ((text env).line l - (text env).width w k) ^ 2) rc (l + 1) k ((r, key env l w) :: S) st')) ∧
      Wait env B0 st.bound r l w k st' ∧ rc ∉ ((r, key env l w) :: S).map Prod.fst ∧ ((text env).line l - (text env).width w k) ^ 2 ≤ st.bound ∧
      st'.bound = st.bound - ((text env).line l - (text env).width w k) ^ 2 ∧ Keeps r l w S st st') := by
  have hstep : step env .down st = stepDown env st := rfl
  obtain ⟨res, r1, r2⟩ := h.res
  unfold stepDown at hstep
  simp only [h.lineSize, run_sub hc, ← Nat.pow_two] at hstep
  generalize hg : (text env).line l - (text env).width w k = gap at *
  by_cases hov : gap > env.badMax ∨ gap ^ 2 > env.badMax
  · left
    rw [if_pos hov] at hstep
    refine ⟨st, hstep, h.exit (by omega) (fun res' hres' => ?_), Keeps.refl _ _ _ _ _⟩
    rw [r1] at hres'; injection hres' with hres'; subst hres'
    refine lb_of_explored hn (explored_all (show k ≤ (text env).n from by show k ≤ env.words.length; omega) r2.explored ?_)
    have := (h.inv.bad r res r1).1
    have : gap ≤ gap ^ 2 := by rw [Nat.pow_two]; exact Nat.le_mul_self gap
    rw [hg]; omega
  · rw [if_neg hov] at hstep
    by_cases hbd : gap ^ 2 > st.bound
    · left
      rw [if_pos hbd, h.result, r1] at hstep
      simp only [Option.bind_eq_bind, Option.bind_some] at hstep
      by_cases hlt : gap ^ 2 < res.badness
      · rw [if_pos hlt] at hstep
        obtain ⟨bps, unused, e1, e2, e3⟩ := recycle_spec h.inv.heap r1 (by simp)
        rw [e1] at hstep
        simp only [Option.bind_some, h.result] at hstep
        have kk : Keeps r l w S st { st with bps := bps, unused := unused, results := st.results.set r ⟨gap ^ 2, none⟩ } := keeps_update e3
        refine ⟨_, hstep, ?_, ⟨kk.lines, kk.slots, kk.results, kk.chains⟩⟩
        have hres : (st.results.set r ⟨gap ^ 2, none⟩)[r]? = some ⟨gap ^ 2, none⟩ := set_eq (List.getElem?_eq_some_iff.1 r1).1
        have hnode : Node env B0 r l w k (w + 1) S { st with bps := bps, unused := unused, results := st.results.set r ⟨gap ^ 2, none⟩ } := by
          refine ⟨h.inv.update (e2 _) e3 ⟨by simp only; omega, fun _ => by simp only; omega, fun hh => absurd rfl hh⟩, h.line, h.result, h.lineSize, h.lw, h.slots, _, hres, ?_⟩
          refine ⟨?_, fun p hp => (by cases hp), fun hp => absurd rfl hp, fun _ => .inl hbd, r2.le, ?_⟩
          · exact explored_all (show k ≤ (text env).n from by show k ≤ env.words.length; omega) (explored_le r2.explored (by simp only; omega)) (by rw [hg])
          · rcases r2.why with h' | ⟨_, h'⟩ | h'
            · exact .inl h'
            · exfalso; omega
            · exact .inr (.inr h')
        have hlb : ∀ res', (st.results.set r ⟨gap ^ 2, none⟩)[r]? = some res' → Lb (text env) l w res'.badness := by
          intro res' hres'
          rw [hres] at hres'; injection hres' with hres'; subst hres'
          obtain ⟨res'', a1, a2⟩ := hnode.res
          rw [hres] at a1; injection a1 with a1; subst a1
          exact lb_of_explored hn a2.explored
        have := hnode.exit (by omega) hlb
        exact ⟨this.inv.other rfl rfl rfl rfl rfl rfl, this.line, rfl, this.lw, this.res⟩
      · rw [if_neg hlt] at hstep
        refine ⟨_, hstep, ?_, ?_⟩
        · have := h.exit (by omega) (fun res' hres' => ?_)
          · exact this
          rw [r1] at hres'; injection hres' with hres'; subst hres'
          exact lb_of_explored hn (explored_all (show k ≤ (text env).n from by show k ≤ env.words.length; omega) r2.explored (by rw [hg]; omega))
        · exact Keeps.refl _ _ _ _ _
    · right
      rw [if_neg hbd] at hstep
      obtain ⟨slot, s1, s2⟩ := h.lw
      have hl1 : l + 1 < st.lineSlots.length := by rw [h.inv.llen]; omega
      have hl0 : l < st.lineSlots.length := by omega
      obtain ⟨slot1, t1⟩ : ∃ slot1, st.lineSlots[l + 1]? = some slot1 := ⟨_, List.getElem?_eq_getElem hl1⟩
      have hgeom := (h.inv.lsize _ _ t1).2
      have hk1 := h.inv.clen (l + 1) k (by omega) (by rw [← h.inv.llen]; exact hl1) hkn
      obtain ⟨ident, hident⟩ : ∃ ident, st.cache[key env (l + 1) k]? = some ident := ⟨_, List.getElem?_eq_getElem hk1⟩
      have hset1 : (st.lineSlots.set l { slot with badness := gap ^ 2, result := r })[l + 1]? = some slot1 := by
        rw [set_ne (by omega)]; exact t1
      have hkey : slot1.geom * env.words.length + k = key env (l + 1) k := by rw [hgeom]; rfl
      simp only [h.line, h.result, s1, hset1, hword, hkey, hident, Option.bind_eq_bind, Option.bind_some] at hstep
      -- the state after the slots have been changed
      have hinv1 : Inv env ((r, key env l w) :: S) { st with lineSlots := (st.lineSlots.set l { slot with badness := gap ^ 2, result := r }).set (l + 1) { slot1 with word := k } } := by
        have i1 := h.inv.setLine s1 slot.word (gap ^ 2) r
        exact i1.setLine hset1 k slot1.badness slot1.result
      have hslotl : ((st.lineSlots.set l { slot with badness := gap ^ 2, result := r }).set (l + 1) { slot1 with word := k })[l]? = some { slot with badness := gap ^ 2, result := r } := by
        rw [set_ne (by omega)]; exact set_eq hl0
      have hslotl1 : ((st.lineSlots.set l { slot with badness := gap ^ 2, result := r }).set (l + 1) { slot1 with word := k })[l + 1]? = some { slot1 with word := k } := by
        exact set_eq (by simpa using hl1)
      have hlines : ∀ t, t < l → ((st.lineSlots.set l { slot with badness := gap ^ 2, result := r }).set (l + 1) { slot1 with word := k })[t]? = st.lineSlots[t]? := by
        intro t ht
        rw [set_ne (by omega), set_ne (by omega)]
      generalize (st.lineSlots.set l { slot with badness := gap ^ 2, result := r }).set (l + 1) { slot1 with word := k } = lines at *
      have hrlen := (List.getElem?_eq_some_iff.1 r1).1
      cases ident with
      | succ rc =>
        rw [if_pos (by omega)] at hstep
        have hmem := stack_not_mem hw hkn hS (key_mod hkn) h.inv hident
        obtain ⟨b1, b2, b3⟩ := h.inv.ident _ _ hident
        obtain ⟨resc, c1⟩ : ∃ resc, st.results[rc]? = some resc := ⟨_, List.getElem?_eq_getElem b1⟩
        have hok := b3 hmem (l + 1) resc (key_div hkn).symm c1
        rw [key_mod hkn] at hok
        have hrc : rc ≠ r := fun e => hmem (by rw [e]; exact List.mem_cons_self)
        have hpos := (h.inv.bad _ _ c1).2.1
        simp only [Nat.add_sub_cancel, c1, Option.bind_some] at hstep
        rw [if_pos (by
          by_cases hb : resc.bp = none
          · left; have := hpos hb; omega
          · right; exact hb)] at hstep
        by_cases hre : resc.bp = none ∧ resc.badness ≤ st.bound - gap ^ 2
        · rw [if_pos hre] at hstep
          refine ⟨_, rc, .inl ⟨hstep, ?_, ?_, rfl, rfl, rfl, _, hslotl1, rfl⟩, ?_, hmem, by omega, rfl, ?_⟩
          · have i2 := hinv1.reuse hident hmem c1 hre.1 hbad
            rw [← hre.1] at i2
            exact i2.other rfl rfl rfl rfl rfl rfl
          · simp only [hre.1]
            exact set_eq b1
          · exact ⟨⟨_, hslotl, s2, by rw [hg], rfl⟩, h.slots, res, by simp only; rw [set_ne (Ne.symm hrc)]; exact r1, r2⟩
          · refine ⟨hlines, fun _ _ => rfl, fun k' res' hk' hr' hd => ?_, fun _ _ _ _ _ _ _ _ a => a⟩
            by_cases e : k' = rc
            · subst e
              rw [c1] at hr'; injection hr' with hr'; subst hr'
              rcases hd with hd | hd
              · exact absurd (List.mem_cons_of_mem _ hd) hmem
              · exact absurd hre.1 hd
            · simp only; rw [set_ne e]; exact hr'
        · rw [if_neg hre] at hstep
          refine ⟨_, rc, .inr ⟨hstep, ?_⟩, ?_, hmem, by omega, rfl, ?_⟩
          · refine ⟨hinv1.other rfl rfl rfl rfl rfl rfl, rfl, rfl, ⟨_, hslotl1, rfl⟩, resc, c1, hok, ?_⟩
            refine ⟨fun hb => .inl ?_, le_refl _, .inl rfl⟩
            simp only
            by_contra hcon
            exact hre ⟨hb, by omega⟩
          · exact ⟨⟨_, hslotl, s2, by rw [hg], rfl⟩, h.slots, res, r1, r2⟩
          · exact ⟨hlines, fun _ _ => rfl, fun _ _ _ a _ => a, fun _ _ _ _ _ _ _ _ a => a⟩
      | zero =>
        rw [if_neg (by omega)] at hstep
        have hmem : st.results.length ∉ ((r, key env l w) :: S).map Prod.fst := fun hm => absurd (h.inv.slen _ hm) (by omega)
        refine ⟨_, st.results.length, .inl ⟨hstep, ?_, ?_, rfl, rfl, rfl, _, hslotl1, rfl⟩, ?_, hmem, by omega, rfl, ?_⟩
        · exact (hinv1.fresh hident hbad).other rfl rfl rfl rfl rfl rfl
        · simp
        · exact ⟨⟨_, hslotl, s2, by rw [hg], rfl⟩, h.slots, res, by simp only; rw [List.getElem?_append_left hrlen]; exact r1, r2⟩
        · refine ⟨hlines, fun _ _ => rfl, fun k' res' _ hr' _ => ?_, fun _ _ _ _ _ _ _ _ a => a⟩
          simp only; rw [List.getElem?_append_left (List.getElem?_eq_some_iff.1 hr').1]; exact hr'

end Verif.WordWrap
