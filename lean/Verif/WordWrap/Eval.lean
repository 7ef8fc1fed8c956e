import Verif.WordWrap.Up
/-!
Knuth's algorithm: evaluation of a place.
-/
namespace Verif.WordWrap
open Spec

variable {env : Env}

theorem adjusted_spec {j : Nat} (hj : j < env.words.length) (word : Word) :
    adjusted env j word = word.size + (if j = 0 then word.space else 0) + (if j + 1 = env.words.length then env.trailing else 0) ∨
      (env.sizeMax ≤ adjusted env j word ∧
        env.sizeMax ≤ word.size + (if j = 0 then word.space else 0) + (if j + 1 = env.words.length then env.trailing else 0)) := by
  unfold adjusted satAdd
  by_cases h1 : j = 0
  · by_cases h2 : j = env.words.length - 1
    · simp only [if_pos h1, if_pos h2, if_pos (show j + 1 = env.words.length by omega)]
      split <;> split <;> omega
    · simp only [if_pos h1, if_neg h2, if_neg (show ¬ j + 1 = env.words.length by omega)]
      split <;> omega
  · by_cases h2 : j = env.words.length - 1
    · simp only [if_neg h1, if_pos h2, if_pos (show j + 1 = env.words.length by omega)]
      split <;> omega
    · simp only [if_neg h1, if_neg h2, if_neg (show ¬ j + 1 = env.words.length by omega)]
      omega

theorem right_loop (ok : Ok env) (hbad : 0 < env.badMax) {B0 r l w : Nat} {S : List (Nat × Nat)} : ∀ (m k : Nat) (st : St), env.words.length - k = m → w ≤ k → k < env.words.length →
    Node env B0 r l w (k + 1) env.words.length S st → st.word = k → CurOk env l w (k + 1) st.cursor → (text env).fits l w (k + 1) → st.bound = B0 →
    st.results[r]? = some ⟨env.badMax, none⟩ →
    (∃ st', Reaches env (.right2, st) (.up, st') ∧ Exit env B0 r l w S st' ∧ Keeps r l w S st st') ∨
    (∃ st' k', Reaches env (.right2, st) (.down, st') ∧ w < k' ∧ k' < env.words.length ∧ Node env B0 r l w k' (k' + 1) S st' ∧ st'.word = k' ∧
      CurOk env l w k' st'.cursor ∧ (text env).fits l w k' ∧ ¬ (text env).fits l w (text env).n ∧ Keeps r l w S st st') := by
  intro m
  induction m with
  | zero => intro k st h1 _ h3; omega
  | succ m ih =>
    intro k st hm hwk hkn h hword hc hfit hbound hres
    have hstep : step env .right2 st = stepRight2 env st := rfl
    unfold stepRight2 at hstep
    simp only [hword] at hstep
    have hrlen := (List.getElem?_eq_some_iff.1 hres).1
    by_cases hlast : k + 1 = env.words.length
    · left
      rw [if_pos hlast, h.result] at hstep
      refine ⟨_, .step hstep, ?_, ?_⟩
      · have hnew : (st.results.set r ⟨0, some none⟩)[r]? = some ⟨0, some none⟩ := set_eq hrlen
        have hheap := heap_clear h.inv.heap r ⟨0, some none⟩ (by simp)
        have hinv := h.inv.update hheap (fun _ _ _ _ _ _ _ _ a => a) ⟨Nat.zero_le _, fun hh => (by cases hh), fun _ => hbad⟩
        have hok : ResOk env st.bps l w ⟨0, some none⟩ := by
          refine ⟨fun _ _ => Nat.zero_le _, fun p hp => ?_⟩
          simp only [Option.some.injEq] at hp
          subst hp
          refine ⟨[], [], .nil, ⟨?_, ?_⟩, rfl⟩
          · show w < env.words.length; omega
          · show (text env).fits l w env.words.length; rw [← hlast]; exact hfit
        refine ⟨(hinv.pop (by omega) hnew hok).other rfl rfl rfl rfl rfl rfl, h.line, rfl, h.lw, _, hnew, hok, ?_⟩
        exact ⟨fun hh => (by cases hh), by simp only [hbound]; exact le_refl _, .inl hbound⟩
      · have kk : Keeps r l w S st { st with results := st.results.set r ⟨0, some none⟩ } := keeps_update (bps := st.bps) (unused := st.unused) (fun _ _ _ _ _ _ _ _ a => a)
        exact ⟨kk.lines, kk.slots, kk.results, kk.chains⟩
    · have hk1 : k + 1 < env.words.length := by omega
      have hwl : k + 1 < st.wordSlots.length := by rw [h.inv.wlen]; exact hk1
      obtain ⟨slot, s1⟩ : ∃ slot, st.wordSlots[k + 1]? = some slot := ⟨_, List.getElem?_eq_getElem hwl⟩
      obtain ⟨word, w1, w2, w3⟩ := word_get hk1
      have hsz := h.inv.wsize _ _ _ s1 w1
      have hadj := adjusted_spec hk1 word
      rw [← hsz] at hadj
      have hws := width_succ (text env) (show w < k + 1 by omega) (show k + 1 < (text env).n from hk1)
      have hnn : (text env).n = env.words.length := rfl
      have htt : (text env).trailing = env.trailing := rfl
      rw [hnn, htt, ← w2, ← w3] at hws
      have hll := line_lt ok l
      rw [if_neg (show ¬ k + 1 = 0 by omega)] at hadj
      rw [if_neg hlast, s1, h.lineSize] at hstep
      simp only [w1, Option.bind_eq_bind, Option.bind_some] at hstep
      have hcontains : ∀ (nf : ¬ (text env).width w (k + 1 + 1) ≤ (text env).line l), step env .right2 st = some (.down, { st with lineSize := (text env).line l, word := k + 1 }) →
          (∃ st' k', Reaches env (.right2, st) (.down, st') ∧ w < k' ∧ k' < env.words.length ∧ Node env B0 r l w k' (k' + 1) S st' ∧ st'.word = k' ∧
            CurOk env l w k' st'.cursor ∧ (text env).fits l w k' ∧ ¬ (text env).fits l w (text env).n ∧ Keeps r l w S st st') := by
        intro nf hst
        have nfit : ¬ (text env).fits l w (k + 1 + 1) := by
          rintro (e | e)
          · omega
          · exact nf e
        refine ⟨_, k + 1, .step hst, by omega, hk1, ?_, rfl, hc, hfit, fun hf => nfit (fits_mono (by omega) (show k + 1 + 1 ≤ (text env).n from hk1) (le_refl _) hf),
          ⟨fun _ _ => rfl, fun _ _ => rfl, fun _ _ _ a _ => a, fun _ _ _ _ _ _ _ _ a => a⟩⟩
        refine ⟨h.inv.other rfl rfl rfl rfl rfl rfl, h.line, h.result, rfl, h.lw, h.slots, _, hres, ?_⟩
        exact ⟨explored_none (by omega) nfit, fun p hp => (by cases hp), fun hh => absurd rfl hh, fun _ => .inr rfl, by simp only; omega, .inl hbound⟩
      by_cases d1 : (text env).line l ≥ st.cursor
      · have hcur := curOk_fit hc d1
        rw [if_pos d1] at hstep
        by_cases d2 : (text env).line l - st.cursor ≥ slot.size
        · rw [if_pos d2] at hstep
          by_cases d3 : (text env).line l - st.cursor - slot.size ≥ word.space
          · rw [if_pos d3] at hstep
            have hnewcur : (text env).line l - ((text env).line l - st.cursor - slot.size - word.space) = (text env).width w (k + 1 + 1) := by
              rcases hadj with e | ⟨e, _⟩
              · omega
              · omega
            have hfit2 : (text env).fits l w (k + 1 + 1) := by right; omega
            rw [hnewcur] at hstep
            have hi := h.inv.setWord s1 st.cursor
            have hslots : ∀ (i : Nat) (slot' : WordSlot), w < i → i < k + 1 + 1 → (st.wordSlots.set (k + 1) { slot with cursor := st.cursor })[i]? = some slot' → CurOk env l w i slot'.cursor := by
              intro i slot' i1 i2 hs
              rcases get_set hs with ⟨rfl, rfl⟩ | ⟨hne, hs⟩
              · exact hc
              · exact h.slots i slot' i1 (by omega) hs
            rcases ih (k + 1) { st with lineSize := (text env).line l, word := k + 1, wordSlots := st.wordSlots.set (k + 1) { slot with cursor := st.cursor }, cursor := (text env).width w (k + 1 + 1) }
              (by omega) (by omega) hk1 ⟨hi.other rfl rfl rfl rfl rfl rfl, h.line, h.result, rfl, h.lw, hslots, h.res⟩ rfl (.inl rfl) hfit2 hbound hres with ⟨st', e1, e2, e3⟩ | ⟨st', k', e1, e2⟩
            · left
              refine ⟨st', (Reaches.step hstep).trans e1, e2, ?_⟩
              exact ⟨e3.lines, fun i hi' => by rw [e3.slots i hi']; exact set_ne (by omega), e3.results, e3.chains⟩
            · right
              obtain ⟨a1, a2, a3, a4, a5, a6, a7, e3⟩ := e2
              exact ⟨st', k', (Reaches.step hstep).trans e1, a1, a2, a3, a4, a5, a6, a7,
                ⟨e3.lines, fun i hi' => by rw [e3.slots i hi']; exact set_ne (by omega), e3.results, e3.chains⟩⟩
          · right
            rw [if_neg d3] at hstep
            refine hcontains ?_ hstep
            rcases hadj with e | ⟨_, e⟩ <;> omega
        · right
          rw [if_neg d2] at hstep
          refine hcontains ?_ hstep
          rcases hadj with e | ⟨_, e⟩ <;> omega
      · right
        rw [if_neg d1] at hstep
        refine hcontains ?_ hstep
        have := curOk_not_fit hc (by omega)
        omega

/-- Evaluation of a place, assuming that places at later words are evaluated correctly. -/
def Evals (env : Env) (w : Nat) : Prop :=
  ∀ (r l : Nat) (S : List (Nat × Nat)) (st : St), l ≤ w → w < env.words.length → (∀ p ∈ S, p.2 % env.words.length < w) → Inv env ((r, key env l w) :: S) st →
    st.word = w → st.line = l → st.result = r → (∃ slot, st.lineSlots[l]? = some slot ∧ slot.word = w) → st.results[r]? = some ⟨env.badMax, none⟩ →
    st.bound ≤ env.badMax → ∃ st', Reaches env (.right1, st) (.up, st') ∧ Exit env st.bound r l w S st' ∧ Keeps r l w S st st'

theorem explore (hbad : 0 < env.badMax) {B0 r l w : Nat} {S : List (Nat × Nat)} (hlw : l ≤ w)
    (hn : ¬ (text env).fits l w (text env).n) (hS : ∀ p ∈ S, p.2 % env.words.length < w) (hB : B0 ≤ env.badMax) (ih : ∀ w', w < w' → Evals env w') :
    ∀ (k : Nat) (st : St), w < k → k < env.words.length → Node env B0 r l w k (k + 1) S st → st.word = k → CurOk env l w k st.cursor → (text env).fits l w k →
    ∃ st', Reaches env (.down, st) (.up, st') ∧ Exit env B0 r l w S st' ∧ Keeps r l w S st st' := by
  intro k
  induction k with
  | zero => intro st h; omega
  | succ k ihk =>
    intro st hw hkn h hword hc hfit
    have hn1 : w < env.words.length := by omega
    rcases down_step hbad hlw hw hkn h hword hc hn hS hB with ⟨st1, e1, e2, e3⟩ | ⟨st1, rc, hcase, hwait, hmem, hb, hbound, hkeep⟩
    · exact ⟨st1, .step e1, e2, e3⟩
    · have hrc : rc ≠ r := fun e => hmem (by rw [e]; exact List.mem_cons_self)
      have hBle := (h.res.choose_spec.2).le
      -- the state after evaluation of the other place
      have hchild : ∃ st2, Reaches env (.down, st) (.up, st2) ∧
          Exit env (st.bound - ((text env).line l - (text env).width w (k + 1)) ^ 2) rc (l + 1) (k + 1) ((r, key env l w) :: S) st2 ∧
          Wait env B0 st.bound r l w (k + 1) st2 ∧ Keeps r l w S st st2 := by
        rcases hcase with ⟨d1, d2, d3, d4, d5, d6, d7⟩ | ⟨d1, d2⟩
        · have hS' : ∀ p ∈ (r, key env l w) :: S, p.2 % env.words.length < k + 1 := by
            intro p hp
            rcases List.mem_cons.1 hp with rfl | hp
            · simp only; rw [key_mod hn1]; omega
            · have := hS p hp; omega
          obtain ⟨st2, f1, f2, f3⟩ := ih (k + 1) (by omega) rc (l + 1) _ st1 (by omega) hkn hS' d2 d4 d5 d6 d7 d3 (by omega)
          rw [hbound] at f2
          refine ⟨st2, (Reaches.step d1).trans f1, f2, hwait.keep f3 (Ne.symm hrc), hkeep.trans ?_⟩
          refine ⟨fun t ht => f3.lines t (by omega), fun i hi => f3.slots i (by omega), fun k' res' hk' hr' hd => ?_, fun k' res' p cells ws hk' hr' hp hc' => ?_⟩
          · by_cases e : k' = rc
            · subst e
              rw [d3] at hr'; injection hr' with hr'; subst hr'
              rcases hd with hd | hd
              · exact absurd (List.mem_cons_of_mem _ hd) hmem
              · exact absurd rfl hd
            · exact f3.results k' res' e hr' (hd.imp (fun a => List.mem_cons_of_mem _ a) id)
          · by_cases e : k' = rc
            · subst e
              rw [d3] at hr'; injection hr' with hr'; subst hr'
              cases hp
            · exact f3.chains k' res' p cells ws e hr' hp hc'
        · exact ⟨st1, .step d1, d2, hwait, hkeep⟩
      obtain ⟨st2, f1, f2, f3, f4⟩ := hchild
      rcases up_step hw hkn hfit f3 f2 hmem hb hB with ⟨st3, g1, g2, g3⟩ | ⟨st3, g1, g2, g3, g4⟩
      · exact ⟨st3, f1.trans (.step g1), g2, f4.trans g3⟩
      · rcases left_step hw hkn g3 g2 hn with ⟨st4, i1, i2, i3⟩ | ⟨st4, i1, i2, i3, i4, i5, i6⟩
        · exact ⟨st4, f1.trans ((Reaches.step g1).trans (.step i1)), i2, (f4.trans g4).trans i3⟩
        · simp only [Nat.add_sub_cancel] at i2 i3 i4 i5
          obtain ⟨st5, j1, j2, j3⟩ := ihk st4 i2 (by omega) i4 i3 i5
            (fits_mono i2 (by omega) (show k + 1 ≤ (text env).n from by show k + 1 ≤ env.words.length; omega) hfit)
          exact ⟨st5, f1.trans ((Reaches.step g1).trans ((Reaches.step i1).trans j1)), j2, ((f4.trans g4).trans i6).trans j3⟩

theorem evals_all (ok : Ok env) (hbad : 0 < env.badMax) : ∀ (m w : Nat), env.words.length - w = m → Evals env w := by
  intro m
  induction m using Nat.strong_induction_on with
  | _ m ihm =>
    intro w hm r l S st hlw hwn hS hinv hword hline hresult hlwd hres hB
    have ih : ∀ w', w < w' → Evals env w' := by
      intro w' hw'
      by_cases h : w' < env.words.length
      · exact ihm (env.words.length - w') (by omega) w' rfl
      · intro _ _ _ _ _ h' ; exact absurd h' h
    have hstep : step env .right1 st = stepRight1 env st := rfl
    unfold stepRight1 at hstep
    obtain ⟨slot, s1, s2⟩ := hlwd
    have hwl : w < st.wordSlots.length := by rw [hinv.wlen]; exact hwn
    obtain ⟨wslot, t1⟩ : ∃ wslot, st.wordSlots[w]? = some wslot := ⟨_, List.getElem?_eq_getElem hwl⟩
    simp only [hresult, hres, hline, s1, hword, t1, Option.bind_eq_bind, Option.bind_some] at hstep
    rw [if_pos (by simp)] at hstep
    obtain ⟨word, w1, w2, w3⟩ := word_get hwn
    have hsz := hinv.wsize _ _ _ t1 w1
    have hadj := adjusted_spec hwn word
    rw [← hsz] at hadj
    have hll := line_lt ok l
    have hcur : CurOk env l w (w + 1) wslot.size := by
      have hw1 := width_one (text env) w
      have hnn : (text env).n = env.words.length := rfl
      have htt : (text env).trailing = env.trailing := rfl
      have hsp : (if w = 0 then (text env).space 0 else 0) = (if w = 0 then word.space else 0) := by
        by_cases h : w = 0
        · rw [if_pos h, if_pos h, w3, h]
        · rw [if_neg h, if_neg h]
      rw [hnn, htt, ← w2, hsp] at hw1
      unfold CurOk
      rw [hw1]
      rcases hadj with h | h
      · left; exact h
      · right; omega
    have hinv2 := (hinv.setWord t1 0)
    have hnode : Node env st.bound r l w (w + 1) env.words.length S
        { st with lineSize := slot.size, wordSlots := st.wordSlots.set w { wslot with cursor := 0 }, cursor := wslot.size, word := w, line := l, result := r } := by
      refine ⟨hinv2.other rfl rfl rfl rfl rfl rfl, rfl, rfl, (hinv.lsize _ _ s1).1, ⟨slot, s1, s2⟩, fun i _ h1 h2 => by omega, _, hres, ?_⟩
      refine ⟨fun j js hj hv => ?_, fun p hp => (by cases hp), fun hh => absurd rfl hh, fun _ => .inr rfl, le_refl _, .inl rfl⟩
      have hb : j < env.words.length := valid_bound hv.2.2
      omega
    have hk0 : ∀ st', Keeps r l w S { st with lineSize := slot.size, wordSlots := st.wordSlots.set w { wslot with cursor := 0 }, cursor := wslot.size, word := w, line := l, result := r } st' →
        Keeps r l w S st st' := by
      intro st' h
      exact ⟨h.lines, fun i hi => by rw [h.slots i hi]; exact set_ne (by omega), h.results, h.chains⟩
    rcases right_loop ok hbad _ w _ rfl (le_refl _) hwn hnode rfl hcur (.inl rfl) rfl hres with ⟨st', e1, e2, e3⟩ | ⟨st', k', e1, a1, a2, a3, a4, a5, a6, a7, e3⟩
    · exact ⟨st', (Reaches.step hstep).trans e1, e2, hk0 _ e3⟩
    · obtain ⟨st'', f1, f2, f3⟩ := explore hbad hlw a7 hS hB ih k' st' a1 a2 a3 a4 a5 a6
      exact ⟨st'', (Reaches.step hstep).trans (e1.trans f1), f2, hk0 _ (e3.trans f3)⟩

end Verif.WordWrap
