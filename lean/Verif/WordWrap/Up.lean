import Verif.WordWrap.Down
/-!
Knuth's algorithm: back from the next line.
-/
namespace Verif.WordWrap
open Spec

variable {env : Env}

theorem up_step {B0 B r rc l w k : Nat} {S : List (Nat × Nat)} {st : St} (hw : w < k) (hkn : k < env.words.length)
    (hfit : (text env).fits l w k) (hwait : Wait env B0 B r l w k st)
    (h : Exit env (B - ((text env).line l - (text env).width w k) ^ 2) rc (l + 1) k ((r, key env l w) :: S) st)
    (hmem : rc ∉ ((r, key env l w) :: S).map Prod.fst) (hb : ((text env).line l - (text env).width w k) ^ 2 ≤ B)
    (hB : B0 ≤ env.badMax) :
    (∃ st', step env .up st = some (.up, st') ∧ Exit env B0 r l w S st' ∧ Keeps r l w S st st') ∨
    (∃ st', step env .up st = some (.left, st') ∧ st'.word = k ∧ Node env B0 r l w k k S st' ∧ Keeps r l w S st st') := by
  have hstep : step env .up st = stepUp env st := rfl
  obtain ⟨slot, s1, s2, s3, s4⟩ := hwait.slot
  obtain ⟨slot1, t1, t2⟩ := h.lw
  obtain ⟨res, r1, r2⟩ := hwait.res
  obtain ⟨resc, c1, c2, c3⟩ := h.res
  have hrc : rc ≠ r := fun e => hmem (by rw [e]; exact List.mem_cons_self)
  have hsize := (h.inv.lsize _ _ s1).1
  have hle := (h.inv.bad _ _ r1).1
  have hlec := (h.inv.bad _ _ c1).1
  have hposc := (h.inv.bad _ _ c1).2.1
  have hrlen := (List.getElem?_eq_some_iff.1 r1).1
  unfold stepUp at hstep
  rw [if_neg (by rw [h.line]; omega)] at hstep
  simp only [h.line, h.result, Nat.add_sub_cancel, s1, t1, c1, s4, r1, hsize, s3, t2, Option.bind_eq_bind, Option.bind_some] at hstep
  generalize hgap : ((text env).line l - (text env).width w k) ^ 2 = b at *
  have hBle := r2.le
  have hc3le := c3.le
  have hmod : (st.bound + b) % (env.badMax + 1) = st.bound + b := Nat.mod_eq_of_lt (by omega)
  simp only [hmod] at hstep
  -- the best way with a break at this word
  have hexp : ∀ x, x ≤ res.badness → x ≤ b + resc.badness → Explored (text env) l w k x := by
    intro x h1 h2
    exact explored_step (explored_le r2.explored h1) c2.1 (by rw [hgap]; exact h2)
  by_cases hif : b + resc.badness ≤ env.badMax ∧ b + resc.badness < res.badness
  · rw [if_pos hif] at hstep
    obtain ⟨bps, unused, e1, e2, e3⟩ := recycle_spec (st := { st with word := k, line := l, result := r, lineSize := (text env).line l, bound := st.bound + b })
      h.inv.heap (r := r) r1 (by simp)
    have e1' := e1
    simp only at e1'
    rw [e1'] at hstep
    simp only [Option.bind_some] at hstep
    cases hbp : resc.bp with
    | some p =>
      obtain ⟨cells, ws, f1, f2, f3⟩ := c2.2 p hbp
      have f1' := e3 rc resc p cells ws hrc c1 hbp f1
      have hcset : ∀ x : Result, (st.results.set r x)[rc]? = some resc := fun x => by rw [set_ne hrc]; exact c1
      obtain ⟨bps2, unused2, i, g1, g2, g3, g4⟩ := alloc_spec (st := { st with word := k, line := l, result := r, lineSize := (text env).line l, bound := st.bound + b, bps := bps, unused := unused })
        (e2 0) hrc hmem (hcset _) hbp f1' k (b + resc.badness)
      have g1' := g1
      simp only at g1'
      simp only [hbp, g1', Option.bind_some] at hstep
      rw [List.set_set] at g2
      have hsame : Same st.bps bps2 st.results r := by
        intro k' res' p' cells' ws' hk' hr' hp' hc'
        exact g3 k' res' p' cells' ws' hk' (by rw [set_ne hk']; exact hr') hp' (e3 k' res' p' cells' ws' hk' hr' hp' hc')
      have hnew : (st.results.set r ⟨b + resc.badness, some (some i)⟩)[r]? = some ⟨b + resc.badness, some (some i)⟩ := set_eq hrlen
      have hinv := h.inv.update g2 hsame ⟨hif.1, fun hh => (by cases hh), fun _ => by simp only; omega⟩
      have hkeep : Keeps r l w S st { st with bps := bps2, unused := unused2, results := st.results.set r ⟨b + resc.badness, some (some i)⟩ } := keeps_update hsame
      have hvalid : (text env).Valid l w (k :: ws) := ⟨hw, hfit, f2⟩
      have hbadness : (text env).badness l w (k :: ws) = b + resc.badness := by rw [Text.badness, f3, hgap]
      by_cases hbd : b + resc.badness ≤ st.bound + b
      · rw [if_pos hbd] at hstep
        by_cases hz : b + resc.badness = 0
        · left
          rw [if_pos hz] at hstep
          refine ⟨_, hstep, ?_, ⟨hkeep.lines, hkeep.slots, hkeep.results, hkeep.chains⟩⟩
          have hok : ResOk env bps2 l w ⟨b + resc.badness, some (some i)⟩ := by
            refine ⟨fun bs _ => by simp only; omega, fun p' hp' => ?_⟩
            simp only [Option.some.injEq] at hp'
            subst hp'
            exact ⟨_, _, g4, hvalid, hbadness⟩
          refine ⟨(hinv.pop (by omega) hnew hok).other rfl rfl rfl rfl rfl rfl, rfl, rfl, ⟨slot, s1, s2⟩, _, hnew, hok, ?_⟩
          exact ⟨fun hh => (by cases hh), by simp only; omega, .inr (.inr (.inr ⟨by simp, hz⟩))⟩
        · right
          rw [if_neg hz] at hstep
          refine ⟨_, hstep, rfl, ?_, ⟨hkeep.lines, hkeep.slots, hkeep.results, hkeep.chains⟩⟩
          refine ⟨hinv.other rfl rfl rfl rfl rfl rfl, rfl, rfl, rfl, ⟨slot, s1, s2⟩, hwait.slots, _, hnew, ?_⟩
          refine ⟨hexp _ (by simp only; omega) (le_refl _), fun p' hp' => ?_, fun _ => by simp only; omega, fun hh => (by cases hh), by simp only; omega, .inr (.inl ⟨by simp, by simp only; omega⟩)⟩
          simp only [Option.some.injEq] at hp'
          subst hp'
          exact ⟨_, _, g4, hvalid, hbadness⟩
      · right
        rw [if_neg hbd] at hstep
        refine ⟨_, hstep, rfl, ?_, ⟨hkeep.lines, hkeep.slots, hkeep.results, hkeep.chains⟩⟩
        refine ⟨hinv.other rfl rfl rfl rfl rfl rfl, rfl, rfl, rfl, ⟨slot, s1, s2⟩, hwait.slots, _, hnew, ?_⟩
        refine ⟨hexp _ (by simp only; omega) (le_refl _), fun p' hp' => ?_, fun _ => by simp only; omega, fun hh => (by cases hh), by simp only; omega, ?_⟩
        · simp only [Option.some.injEq] at hp'
          subst hp'
          exact ⟨_, _, g4, hvalid, hbadness⟩
        · simp only
          rcases c3.why with h1 | ⟨_, h1⟩ | ⟨h1, h2⟩ | ⟨_, h1⟩
          · rcases r2.why with h3 | ⟨_, h3⟩ | h3
            · left; omega
            · right; left; exact ⟨by simp, by omega⟩
            · right; right; omega
          · right; left; exact ⟨by simp, by omega⟩
          · right; right; omega
          · omega
    | none =>
      right
      have hind := c3.indefinite hbp
      have hgt : b + resc.badness > st.bound + b := by
        rcases hind with h1 | h1
        · omega
        · omega
      simp only [hbp] at hstep
      rw [if_pos hgt] at hstep
      have hsame : Same st.bps bps st.results r := e3
      have hinv := h.inv.update (e2 (b + resc.badness)) hsame ⟨hif.1, fun _ => (by have := hposc hbp; simp only; omega), fun hh => absurd rfl hh⟩
      have hkeep : Keeps r l w S st { st with bps := bps, unused := unused, results := st.results.set r ⟨b + resc.badness, none⟩ } := keeps_update hsame
      have hnew : (st.results.set r ⟨b + resc.badness, none⟩)[r]? = some ⟨b + resc.badness, none⟩ := set_eq hrlen
      refine ⟨_, hstep, rfl, ?_, ⟨hkeep.lines, hkeep.slots, hkeep.results, hkeep.chains⟩⟩
      refine ⟨hinv.other rfl rfl rfl rfl rfl rfl, rfl, rfl, rfl, ⟨slot, s1, s2⟩, hwait.slots, _, hnew, ?_⟩
      refine ⟨hexp _ (by simp only; omega) (le_refl _), fun p' hp' => (by cases hp'), fun hh => absurd rfl hh, fun _ => .inl hgt, by simp only; omega, ?_⟩
      simp only
      rcases c3.why with h1 | ⟨h1, _⟩ | ⟨h1, h2⟩ | ⟨h1, _⟩
      · rcases r2.why with h3 | ⟨_, h3⟩ | h3
        · left; omega
        · omega
        · right; right; omega
      · exact absurd hbp h1
      · right; right; omega
      · exact absurd hbp h1
  · right
    rw [if_neg hif] at hstep
    refine ⟨_, hstep, rfl, ?_, ⟨fun _ _ => rfl, fun _ _ => rfl, fun _ _ _ a _ => a, fun _ _ _ _ _ _ _ _ a => a⟩⟩
    refine ⟨h.inv.other rfl rfl rfl rfl rfl rfl, rfl, rfl, rfl, ⟨slot, s1, s2⟩, hwait.slots, res, r1, ?_⟩
    refine ⟨hexp _ (le_refl _) (by omega), r2.chain, fun hh => ?_, fun hh => ?_, by simp only; omega, ?_⟩
    · have := r2.definite hh; simp only; omega
    · simp only
      rcases r2.indefinite hh with h1 | h1
      · left; omega
      · right; exact h1
    · simp only
      have hgt : B < res.badness ∨ res.badness = env.badMax := by
        by_cases hh : res.bp = none
        · exact r2.indefinite hh
        · exact .inl (r2.definite hh)
      rcases c3.why with h1 | ⟨_, h1⟩ | ⟨h1, h2⟩ | ⟨_, h1⟩
      · have e : st.bound + b = B := by omega
        rw [e]; exact r2.why
      · rcases hgt with h2 | h2
        · have e : st.bound + b = B := by omega
          rw [e]; exact r2.why
        · rcases Nat.lt_or_ge (st.bound + b) B0 with h3 | h3
          · right; right; omega
          · left; omega
      · right; right; omega
      · left; omega

end Verif.WordWrap
