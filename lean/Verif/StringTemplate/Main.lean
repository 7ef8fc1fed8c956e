import Verif.StringTemplate.Lemmas

namespace Verif.StringTemplate

open Spec

variable {α β F R E A : Type} [DecidableEq α] [DecidableEq β]

/-- The error that represents a fault. -/
def errOf : Fault α → Err α
  | .atEnd => .atEnd
  | .unterminated off => .unterminated off
  | .undefined name ref => .undefined name ref

/-- Passing a sequence of errors to an error handler. -/
def feed (h : Handler α) (calls : List (Err α)) : List (Err α) → List (Err α) × Outcome
  | [] => (calls, .returns true)
  | e :: es =>
    match h calls e with
    | .goOn => feed h (e :: calls) es
    | .stop => (e :: calls, .returns false)
    | .throws => (e :: calls, .throws)

/-- Meaning of names according to parameter map. -/
def meaning (C : Chars α β) (params : Params α β F R A E) (name : List α) :
    Option (Entry α β F R A E) :=
  find? params (name.map C.narrow)

/-- What the main loop of the parser is expected to produce. -/
def LoopOk (C : Chars α β) (s : List α) (h : Handler α) (curr : Nat) (calls : List (Err α))
    (substs : List (Subst α β F R A E)) (ps : List (Piece α (Entry α β F R A E)))
    (fs : List (Fault α)) (r : LoopResult α β F R A E) : Prop :=
  (r.calls, r.outcome) = feed h calls (fs.map errOf) ∧
    (r.outcome = .returns true →
      ∃ xs, r.substs = xs.reverse ++ substs ∧ Ordered s curr xs ∧ piecesOf C s curr xs = ps)

theorem LoopOk.skip {C : Chars α β} {s : List α} {h : Handler α} {curr j : Nat}
    {calls : List (Err α)} {substs : List (Subst α β F R A E)}
    {ps : List (Piece α (Entry α β F R A E))} {fs : List (Fault α)} {r : LoopResult α β F R A E}
    (hj : curr ≤ j) (hr : LoopOk C s h j calls substs ps fs r) :
    LoopOk C s h curr calls substs (((s.drop curr).take (j - curr)).map .char ++ ps) fs r := by
  refine ⟨hr.1, fun ho => ?_⟩
  obtain ⟨xs, h1, h2, h3⟩ := hr.2 ho
  obtain ⟨h4, h5⟩ := piecesOf_skip C hj h2
  exact ⟨xs, h1, h4, by rw [h5, h3]⟩

theorem LoopOk.fault {C : Chars α β} {s : List α} {h : Handler α} {curr j : Nat}
    {calls : List (Err α)} {substs : List (Subst α β F R A E)}
    {ps : List (Piece α (Entry α β F R A E))} {f : Fault α} {fs : List (Fault α)}
    {r : LoopResult α β F R A E}
    (hj : curr ≤ j) (hr : LoopOk C s h j (errOf f :: calls) substs ps fs r) :
    LoopOk C s h curr calls substs (((s.drop curr).take (j - curr)).map .char ++ ps) (f :: fs)
      (match h calls (errOf f) with
        | .goOn => r
        | .stop => ⟨errOf f :: calls, .returns false, substs⟩
        | .throws => ⟨errOf f :: calls, .throws, substs⟩) := by
  cases hh : h calls (errOf f) with
  | goOn =>
    have := hr.skip hj
    refine ⟨?_, this.2⟩
    simp only [List.map_cons, feed, hh]
    exact this.1
  | stop =>
    refine ⟨?_, fun ho => by simp at ho⟩
    simp only [List.map_cons, feed, hh]
  | throws =>
    refine ⟨?_, fun ho => by simp at ho⟩
    simp only [List.map_cons, feed, hh]

theorem LoopOk.subst {C : Chars α β} {s : List α} {h : Handler α} {curr i : Nat}
    {calls : List (Err α)} {substs : List (Subst α β F R A E)} {x : Subst α β F R A E}
    {ps : List (Piece α (Entry α β F R A E))} {fs : List (Fault α)} {r : LoopResult α β F R A E}
    (hi : curr ≤ i) (hl : i ≤ s.length) (hx : x.begin = i)
    (hr : LoopOk C s h x.end calls (x :: substs) ps fs r) :
    LoopOk C s h curr calls substs (((s.drop curr).take (i - curr)).map .char ++ pieceOf C x :: ps)
      fs r := by
  refine ⟨hr.1, fun ho => ?_⟩
  obtain ⟨xs, h1, h2, h3⟩ := hr.2 ho
  refine ⟨x :: xs, by rw [h1]; simp, ⟨by omega, by omega, h2⟩, ?_⟩
  simp only [piecesOf, h3, hx]

theorem parseLoop_ok (C : Chars α β) (hC : C.lead ≠ C.open) (s : List α)
    (params : Params α β F R A E) (h : Handler α) (fuel : Nat) :
    ∀ (curr : Nat) (calls : List (Err α)) (substs : List (Subst α β F R A E))
      (ps : List (Piece α (Entry α β F R A E))) (fs : List (Fault α)),
      curr ≤ s.length → s.length - curr < fuel →
      Reads C.lead C.open C.close (meaning C params) curr (s.drop curr) ps fs →
      LoopOk C s h curr calls substs ps fs (parseLoop C s params h fuel curr calls substs) := by
  induction fuel with
  | zero => intro curr calls substs ps fs _ hf; omega
  | succ fuel ih =>
    intro curr calls substs ps fs hc hf hR
    unfold parseLoop
    split
    · rename_i hn
      obtain ⟨h1, h2⟩ := hR.noLead (findChar_none hc hn)
      subst h1; subst h2
      refine ⟨rfl, fun _ => ⟨[], by simp, hc, rfl⟩⟩
    · rename_i i hi
      obtain ⟨pre, post, h1, h2, h3⟩ := findChar_some hc hi
      have hlen := length_of_drop h1 hc
      simp only [List.length_append, List.length_cons] at hlen
      obtain ⟨ps', h4, hR'⟩ := Reads.split pre (C.lead :: post) hR h1 h3
      have hpre : (s.drop curr).take (i - curr) = pre := by
        rw [h1, ← h2, Nat.add_sub_cancel_left, List.take_left]
      have hdi : s.drop i = C.lead :: post := by
        rw [← h2]; exact drop_add_of_eq h1
      rw [h4, ← hpre]
      rw [h2] at hR'
      have hdi1 : s.drop (i + 1) = post := drop_add_of_eq (pre := [C.lead]) hdi
      clear hR h4
      -- continue from position i
      have hgoal : ∀ r, LoopOk C s h i calls substs ps' fs r →
          LoopOk C s h curr calls substs (((s.drop curr).take (i - curr)).map .char ++ ps') fs r :=
        fun r hr => hr.skip (by omega)
      have hsub : ∀ (x : Subst α β F R A E) ps'' r, x.begin = i → ps' = pieceOf C x :: ps'' →
          LoopOk C s h x.end calls (x :: substs) ps'' fs r →
          LoopOk C s h curr calls substs (((s.drop curr).take (i - curr)).map .char ++ ps') fs r :=
        fun x ps'' r hx hp hr => by rw [hp]; exact hr.subst (by omega) (by omega) hx
      have hget : s[i + 1]? = post.head? := by
        rw [← hdi1, List.head?_drop]
      rw [hget]
      cases post with
      | nil =>
        apply hgoal
        simp only [List.head?_nil]
        cases hR' with
        | char hne => exact absurd rfl hne
        | atEnd =>
          have := LoopOk.fault (C := C) (s := s) (h := h) (curr := i) (j := i + 1) (calls := calls)
            (substs := substs) (ps := []) (f := .atEnd) (fs := []) (by omega)
            (ih (i + 1) (.atEnd :: calls) substs [] [] (by simp at hlen; omega)
              (by simp at hlen; omega) (by rw [hdi1]; exact .nil))
          rw [hdi, Nat.add_sub_cancel_left] at this
          exact this
      | cons ch t =>
        simp only [List.length_cons] at hlen
        have hdi2 : s.drop (i + 2) = t := drop_add_of_eq (pre := [C.lead, ch]) hdi
        simp only [List.head?_cons]
        by_cases ho : ch = C.open
        · subst ho
          rw [if_pos rfl]
          split
          · rename_i hn
            have hcl := findChar_none (by omega) hn
            rw [hdi2] at hcl
            apply hgoal
            rcases hR'.inv_long hC with ⟨_, ps'', fs', rfl, rfl, hR2⟩ | ⟨_, _, _, _, rfl, _⟩ |
              ⟨_, _, _, _, rfl, _⟩
            · have := LoopOk.fault (C := C) (s := s) (h := h) (curr := i) (j := i + 2)
                (calls := calls) (substs := substs) (ps := ps'') (f := .unterminated i) (fs := fs')
                (by omega)
                (ih (i + 2) (.unterminated i :: calls) substs ps'' fs' (by omega)
                  (by omega) (by rw [hdi2]; exact hR2))
              rw [hdi, Nat.add_sub_cancel_left] at this
              exact this
            · simp at hcl
            · simp at hcl
          · rename_i j hj
            obtain ⟨name, t', g1, g2, g3⟩ := findChar_some (by omega) hj
            have g1' := g1
            rw [hdi2] at g1
            subst g1
            have hname : (s.drop (i + 2)).take (j - (i + 2)) = name := by
              rw [g1', show j - (i + 2) = name.length by omega, List.take_left]
            have href : (s.drop i).take (j + 1 - i) = [C.lead, C.open] ++ name ++ [C.close] := by
              rw [hdi, show j + 1 - i = ([C.lead, C.open] ++ name ++ [C.close]).length by
                simp; omega]
              rw [show C.lead :: C.open :: (name ++ C.close :: t') =
                ([C.lead, C.open] ++ name ++ [C.close]) ++ t' by simp]
              rw [List.take_left]
            have hdj : s.drop (j + 1) = t' := by
              have := drop_add_of_eq (pre := name ++ [C.close]) (post := t') (s := s) (i := i + 2)
                (by rw [g1']; simp)
              rw [← this]
              congr 1
              simp; omega
            have hj1 : j + 1 ≤ s.length := by
              simp only [List.length_append, List.length_cons] at hlen; omega
            have huniq : ∀ name' t'', name ++ C.close :: t' = name' ++ C.close :: t'' →
                C.close ∉ name' → name' = name ∧ t'' = t' := by
              clear hname href hdj g2 g1' hR' hgoal hsub hget hdi hdi1 hdi2 hlen h1
              induction name with
              | nil =>
                intro name' t'' he hn
                cases name' with
                | nil => simpa using he.symm
                | cons y name' => simp at he hn; exact absurd he.1 hn.1
              | cons x name ih =>
                intro name' t'' he hn
                simp only [List.mem_cons, not_or] at g3
                cases name' with
                | nil => simp at he; exact absurd he.1.symm g3.1
                | cons y name' =>
                  simp at he hn
                  obtain ⟨k1, k2⟩ := ih g3.2 name' t'' he.2 hn.2
                  exact ⟨by rw [k1, he.1], k2⟩
            simp only [hname]
            rw [if_pos (fun e => hC e.symm)]
            rcases hR'.inv_long hC with ⟨hn, _⟩ | ⟨name', t'', p, ps'', hT, hn, hp, rfl, hR2⟩ |
              ⟨name', t'', ps'', fs', hT, hn, hp, rfl, rfl, hR2⟩
            · simp at hn
            · obtain ⟨rfl, rfl⟩ := huniq name' t'' hT hn
              have hp' : find? params (name'.map C.narrow) = some p := hp
              rw [hp']
              refine hsub ⟨i, j + 1, some p⟩ ps'' _ rfl rfl ?_
              exact ih (j + 1) calls _ ps'' fs hj1 (by omega) (by
                rw [hdj]
                rw [show j + 1 = i + (name'.length + 3) by omega]
                exact hR2)
            · obtain ⟨rfl, rfl⟩ := huniq name' t'' hT hn
              have hp' : find? params (name'.map C.narrow) = none := hp
              rw [hp']
              apply hgoal
              have := LoopOk.fault (C := C) (s := s) (h := h) (curr := i) (j := j + 1)
                (calls := calls) (substs := substs) (ps := ps'')
                (f := .undefined name' ([C.lead, C.open] ++ name' ++ [C.close])) (fs := fs')
                (by omega)
                (ih (j + 1) (.undefined name' ([C.lead, C.open] ++ name' ++ [C.close]) :: calls)
                  substs ps'' fs' hj1 (by omega) (by
                    rw [hdj]
                    rw [show j + 1 = i + (name'.length + 3) by omega]
                    exact hR2))
              rw [href] at this
              simp only [href]
              exact this
        · rw [if_neg ho]
          have hname : (s.drop (i + 1)).take 1 = [ch] := by rw [hdi1]; rfl
          have href : (s.drop i).take (i + 2 - i) = [C.lead, ch] := by
            rw [hdi, Nat.add_sub_cancel_left]; rfl
          simp only [hname]
          rcases hR'.inv_short ho with ⟨rfl, ps'', rfl, hR2⟩ | ⟨hne, p, ps'', hp, rfl, hR2⟩ |
            ⟨hne, ps'', fs', hp, rfl, rfl, hR2⟩
          · rw [if_neg (by simp)]
            refine hsub ⟨i, i + 2, none⟩ _ _ rfl rfl ?_
            exact ih (i + 2) calls _ _ fs (by omega) (by omega) (by rw [hdi2]; exact hR2)
          · rw [if_pos hne]
            have hp' : find? params ([ch].map C.narrow) = some p := hp
            rw [hp']
            refine hsub ⟨i, i + 2, some p⟩ ps'' _ rfl rfl ?_
            exact ih (i + 2) calls _ ps'' fs (by omega) (by omega) (by rw [hdi2]; exact hR2)
          · rw [if_pos hne]
            have hp' : find? params ([ch].map C.narrow) = none := hp
            rw [hp']
            apply hgoal
            have := LoopOk.fault (C := C) (s := s) (h := h) (curr := i) (j := i + 2)
              (calls := calls) (substs := substs) (ps := ps'')
              (f := .undefined [ch] [C.lead, ch]) (fs := fs') (by omega)
              (ih (i + 2) (.undefined [ch] [C.lead, ch] :: calls) substs ps'' fs' (by omega)
                (by omega) (by rw [hdi2]; exact hR2))
            rw [href] at this
            simp only [href]
            exact this

end Verif.StringTemplate
