import Verif.RectPacker.Place
/-!
Lemmas about placement of all rectangles.
-/
namespace Verif.RectPacker
open Spec

variable {env : Env} {root : Root} {sizes : List (Int × Int)}

theorem getElem?_concat {α : Type} {l : List α} {a : α} {j : Nat} {x : α} (h : (l ++ [a])[j]? = some x) :
    (j < l.length ∧ l[j]? = some x) ∨ (j = l.length ∧ x = a) := by
  rw [List.getElem?_append] at h
  split at h
  · rename_i h'; exact .inl ⟨h', h⟩
  · right
    obtain ⟨h1, h2⟩ := List.getElem?_eq_some_iff.1 h
    simp only [List.length_singleton] at h1
    simp only [List.getElem_singleton] at h2
    exact ⟨by omega, h2.symm⟩

/-- Every bin contains a rectangle. -/
def Filled (done : List Nat) (st : State) : Prop :=
  ∀ b, b < st.bins.length → ∃ (k : Nat) (r : Rect), k ∈ done ∧ st.rects[k]? = some r ∧ r.bin = b

/-- The state after addition of a bin. -/
def addBin (root : Root) (st : State) : State := { st with
  nodes := st.nodes ++ [⟨false, root.x, root.y, root.w, root.h, none, none⟩]
  bins := st.bins ++ [⟨st.nodes.length, root.x, root.y⟩] }

theorem addBin_spec {g : Nat → Nat} {done : List Nat} {st : State} (hf : Fits env root st.spacing) (inv : Inv root sizes g done st) :
    Inv root sizes (fun j => if j < st.nodes.length then g j else st.bins.length) done (addBin root st) := by
  have ok := inv.nodes
  have hlen : (addBin root st).nodes.length = st.nodes.length + 1 := by simp [addBin]
  have hblen : (addBin root st).bins.length = st.bins.length + 1 := by simp [addBin]
  have hpos : ∀ (k : Nat) (r : Rect), k ∈ done → st.rects[k]? = some r → r.bin = st.bins.length → False := fun k r h1 h2 h3 => by
    have := inv.bin k r h1 h2; omega
  refine ⟨⟨?_, ?_, ?_, ?_, ?_, ?_⟩, inv.sizes, ?_, ?_, inv.inside, inv.apart, ?_, ?_, ?_⟩
  · intro i n h
    rw [hblen]
    rcases getElem?_concat h with ⟨h1, h2⟩ | ⟨rfl, rfl⟩
    · simp only [if_pos h1]; have := ok.bin i n h2; omega
    · simp only [Nat.lt_irrefl, if_false]; omega
  · intro i n h
    rcases getElem?_concat h with ⟨h1, h2⟩ | ⟨rfl, rfl⟩
    · exact ok.size i n h2
    · exact ⟨hf.w, hf.h⟩
  · intro i n h
    rcases getElem?_concat h with ⟨h1, h2⟩ | ⟨rfl, rfl⟩
    · exact ok.inside i n h2
    · exact inside_refl
  · intro i n h r hr
    rw [hlen]
    rcases getElem?_concat h with ⟨h1, h2⟩ | ⟨rfl, rfl⟩
    · obtain ⟨e1, e2, e3⟩ := ok.right i n h2 r hr
      simp only [if_pos h1, if_pos e2]
      exact ⟨e1, by omega, e3⟩
    · cases hr
  · intro i n h r hr
    rw [hlen]
    rcases getElem?_concat h with ⟨h1, h2⟩ | ⟨rfl, rfl⟩
    · obtain ⟨e1, e2, e3⟩ := ok.down i n h2 r hr
      simp only [if_pos h1, if_pos e2]
      exact ⟨e1, by omega, e3⟩
    · cases hr
  · intro i j n m hi hj hne hg hn hm
    rcases getElem?_concat hi with ⟨h1, h2⟩ | ⟨rfl, rfl⟩
    · rcases getElem?_concat hj with ⟨h3, h4⟩ | ⟨rfl, rfl⟩
      · simp only [if_pos h1, if_pos h3] at hg
        exact ok.apart i j n m h2 h4 hne hg hn hm
      · simp only [if_pos h1, Nat.lt_irrefl, if_false] at hg
        have := ok.bin i n h2; omega
    · rcases getElem?_concat hj with ⟨h3, h4⟩ | ⟨rfl, rfl⟩
      · simp only [if_pos h3, Nat.lt_irrefl, if_false] at hg
        have := ok.bin j m h4; omega
      · exact absurd rfl hne
  · intro b bin h
    rw [hlen]
    rcases getElem?_concat h with ⟨h1, h2⟩ | ⟨rfl, rfl⟩
    · obtain ⟨e1, e2⟩ := inv.start b bin h2
      simp only [if_pos e1]
      exact ⟨by omega, e2⟩
    · simp only [Nat.lt_irrefl, if_false]
      exact ⟨by omega, trivial⟩
  · intro k r hk h
    rw [hblen]
    have := inv.bin k r hk h; omega
  · intro k i r n hk h hi hn hg
    rcases getElem?_concat hi with ⟨h1, h2⟩ | ⟨rfl, rfl⟩
    · simp only [if_pos h1] at hg
      exact inv.free k i r n hk h h2 hn hg
    · simp only [Nat.lt_irrefl, if_false] at hg
      exact (hpos k r hk h hg).elim
  · intro b bin h
    rcases getElem?_concat h with ⟨h1, h2⟩ | ⟨rfl, rfl⟩
    · exact inv.maxX b bin h2
    · exact ⟨le_refl _, by have := hf.w; simp only; omega, fun k r hk h hb => (hpos k r hk h hb).elim, .inl rfl⟩
  · intro b bin h
    rcases getElem?_concat h with ⟨h1, h2⟩ | ⟨rfl, rfl⟩
    · exact inv.maxY b bin h2
    · exact ⟨le_refl _, by have := hf.h; simp only; omega, fun k r hk h hb => (hpos k r hk h hb).elim, .inl rfl⟩

/-- What is known after a rectangle has been inserted. -/
structure Inserted (root : Root) (sizes : List (Int × Int)) (maxBins k : Nat) (done : List Nat) (st st' : State) : Prop where
  inv : ∃ g, Inv root sizes g (k :: done) st'
  filled : Filled (k :: done) st'
  spacing : st'.spacing = st.spacing
  margin : st'.margin = st.margin
  bins : st'.bins.length ≤ maxBins ∧ st'.bins.length ≤ st.bins.length + 1

theorem insertRect_spec {maxBins k : Nat} {rect : Rect} (hw : 0 ≤ rect.w) (hh : 0 ≤ rect.h) {g : Nat → Nat} {done : List Nat} {st : State}
    (hf : Fits env root st.spacing) (inv : Inv root sizes g done st) (hfill : Filled done st) (hmax : st.bins.length ≤ maxBins)
    (hk : st.rects[k]? = some rect) (hkd : k ∉ done) (fuel : Nat) :
    ∀ b, b ≤ st.bins.length → st.bins.length < fuel + b →
    ∃ res, insertRect env root maxBins k rect fuel b st = some res ∧
      (∀ st', res = some st' → rect.w ≤ root.w ∧ rect.h ≤ root.h ∧ Inserted root sizes maxBins k done st st') ∧
      (res = none → st.bins.length = maxBins ∨ rect.w > root.w ∨ rect.h > root.h) := by
  induction fuel with
  | zero => intro b h1 h2; omega
  | succ fuel ih =>
    intro b hb hfuel
    rw [insertRect]
    by_cases hbe : b = st.bins.length
    · rw [if_pos hbe]
      by_cases hc : b = maxBins ∨ rect.w > root.w ∨ rect.h > root.h
      · rw [if_pos hc]
        exact ⟨none, rfl, (fun st' h => by cases h), fun _ => by rw [← hbe]; exact hc⟩
      · rw [if_neg hc]
        simp only
        have hadd := addBin_spec hf inv
        have hbin : (addBin root st).bins[b]? = some ⟨st.nodes.length, root.x, root.y⟩ := by simp [addBin, hbe]
        have hnode : (addBin root st).nodes[st.nodes.length]? = some ⟨false, root.x, root.y, root.w, root.h, none, none⟩ := by simp [addBin]
        change ∃ res, (((addBin root st).bins[b]?).bind fun bin =>
          (search (addBin root st).nodes rect.w rect.h (2 ^ (addBin root st).nodes.length) bin.root []).bind fun x => _) = some res ∧ _
        rw [hbin]
        simp only [Option.bind_some]
        have hpow : ∃ f, 2 ^ (addBin root st).nodes.length = f + 1 := ⟨2 ^ (addBin root st).nodes.length - 1, by
          have := Nat.two_pow_pos (addBin root st).nodes.length; omega⟩
        obtain ⟨f, hf2⟩ := hpow
        rw [hf2, search, hnode]
        simp only [Option.bind_eq_bind, Option.bind_some, Bool.false_eq_true, not_false_eq_true, if_true]
        rw [if_pos ⟨by omega, by omega⟩]
        simp only [Option.bind_some]
        obtain ⟨st', g', p1, p2, p3, p4, p5, p6, r, p7, p8⟩ := place_spec (b := b) (i := st.nodes.length) (k := k) (rect := rect) (st := addBin root st)
          hf hadd hk hkd hw hh hnode rfl (by simp only; omega) (by simp only; omega) (by simp [hbe]) hbin
        have hbl : (addBin root st).bins.length = st.bins.length + 1 := by simp [addBin]
        change ∃ res, ((place env (addBin root st) b st.nodes.length k rect).bind fun a => some (some a)) = some res ∧ _
        rw [p1]
        refine ⟨_, rfl, fun st'' h => ?_, fun h => by cases h⟩
        injection h with h
        subst h
        refine ⟨by omega, by omega, ⟨g', p2⟩, fun b' hb' => ?_, p3, p4, by omega, by omega⟩
        rw [p5, hbl] at hb'
        by_cases he : b' = b
        · exact ⟨k, r, List.mem_cons_self, p7, by rw [p8, he]⟩
        · obtain ⟨l, s, a1, a2, a3⟩ := hfill b' (by omega)
          exact ⟨l, s, List.mem_cons_of_mem _ a1, p6 l s a1 a2, a3⟩
    · rw [if_neg hbe]
      have hbl : b < st.bins.length := by omega
      have hbin : st.bins[b]? = some st.bins[b] := List.getElem?_eq_getElem hbl
      generalize st.bins[b] = bin at hbin
      rw [hbin]
      simp only [Option.bind_eq_bind, Option.bind_some]
      obtain ⟨s1, s2⟩ := inv.start b bin hbin
      obtain ⟨res, e1, e2⟩ := search_spec inv.nodes rect.w rect.h b (2 ^ st.nodes.length) bin.root [] s1 s2 (fun j hj => by simp at hj) (by
        rw [weight, weight]
        have : 2 ^ (st.nodes.length - bin.root) ≤ 2 ^ st.nodes.length := Nat.pow_le_pow_right (by omega) (by omega)
        have := Nat.two_pow_pos (st.nodes.length - bin.root)
        omega)
      rw [e1]
      cases res with
      | none =>
        simp only [Option.bind_some]
        exact ih (b + 1) (by omega) (by omega)
      | some i =>
        obtain ⟨node, n1, n2, n3, n4, n5⟩ := e2 i rfl
        obtain ⟨st', g', p1, p2, p3, p4, p5, p6, r, p7, p8⟩ := place_spec (k := k) hf inv hk hkd hw hh n1 n2 n3 n4 n5 hbin
        simp only [Option.bind_some]
        rw [p1]
        refine ⟨_, rfl, fun st'' h => ?_, fun h => by cases h⟩
        injection h with h
        subst h
        have hin := inv.nodes.inside i node n1
        have hsz := inv.nodes.size i node n1
        obtain ⟨i1, i2, i3, i4⟩ := hin
        simp only [Node.area, Root.area] at i1 i2 i3 i4
        refine ⟨by omega, by omega, ⟨g', p2⟩, fun b' hb' => ?_, p3, p4, by omega, by omega⟩
        rw [p5] at hb'
        obtain ⟨l, s, a1, a2, a3⟩ := hfill b' hb'
        exact ⟨l, s, List.mem_cons_of_mem _ a1, p6 l s a1 a2, a3⟩

theorem packLoop_spec {maxBins : Nat} (hsz : ∀ s ∈ sizes, 0 ≤ s.1 ∧ 0 ≤ s.2) (ks : List Nat) :
    ∀ (g : Nat → Nat) (done : List Nat) (st : State), Fits env root st.spacing → Inv root sizes g done st → Filled done st →
    st.bins.length ≤ maxBins → st.bins.length ≤ done.length → (∀ k ∈ ks, k < sizes.length) → ks.Nodup → (∀ k ∈ ks, k ∉ done) →
    (∃ st' g', packLoop env root maxBins ks st = some (true, st') ∧ Inv root sizes g' (ks.reverse ++ done) st' ∧ Filled (ks.reverse ++ done) st' ∧
      st'.bins.length ≤ maxBins ∧ st'.spacing = st.spacing ∧ st'.margin = st.margin ∧
      ∀ k ∈ ks, ∀ s : Int × Int, sizes[k]? = some s → s.1 ≤ root.w ∧ s.2 ≤ root.h) ∨
    (∃ st', packLoop env root maxBins ks st = some (false, st') ∧
      (maxBins < done.length + ks.length ∨ ∃ k ∈ ks, ∃ s : Int × Int, sizes[k]? = some s ∧ ¬ (s.1 ≤ root.w ∧ s.2 ≤ root.h))) := by
  induction ks with
  | nil =>
    intro g done st hf inv hfill hb1 hb2 _ _ _
    exact .inl ⟨st, g, rfl, inv, hfill, hb1, rfl, rfl, fun k hk => by simp at hk⟩
  | cons k ks ih =>
    intro g done st hf inv hfill hb1 hb2 hlt hnd hdis
    rw [packLoop]
    have hkl : k < st.rects.length := by
      have := hlt k List.mem_cons_self
      rw [← inv.sizes, List.length_map] at this; exact this
    have hk : st.rects[k]? = some st.rects[k] := List.getElem?_eq_getElem hkl
    generalize st.rects[k] = rect at hk
    have hsize : sizes[k]? = some (rect.w, rect.h) := by rw [← inv.sizes, List.getElem?_map, hk]; rfl
    obtain ⟨w1, h1⟩ := hsz _ (List.mem_of_getElem? hsize)
    rw [hk]
    simp only [Option.bind_eq_bind, Option.bind_some]
    obtain ⟨res, e1, e2, e3⟩ := insertRect_spec (env := env) w1 h1 hf inv hfill hb1 hk (hdis k List.mem_cons_self) (st.bins.length + 2) 0 (by omega) (by omega)
    rw [e1]
    cases res with
    | none =>
      simp only [Option.bind_some]
      refine .inr ⟨st, rfl, ?_⟩
      rcases e3 rfl with h | h
      · left; rw [List.length_cons]; omega
      · right; exact ⟨k, List.mem_cons_self, _, hsize, by simp only; omega⟩
    | some st1 =>
      simp only [Option.bind_some]
      obtain ⟨f1, f2, ⟨g1, i1⟩, i2, i3, i4, i5, i6⟩ := e2 st1 rfl
      rw [List.nodup_cons] at hnd
      rcases ih g1 (k :: done) st1 (by rw [i3]; exact hf) i1 i2 i5 (by rw [List.length_cons]; omega) (fun l hl => hlt l (List.mem_cons_of_mem _ hl)) hnd.2
        (fun l hl h => by
          rcases List.mem_cons.1 h with rfl | h
          · exact hnd.1 hl
          · exact hdis l (List.mem_cons_of_mem _ hl) h) with ⟨st', g', q1, q2, q3, q4, q5, q6, q7⟩ | ⟨st', q1, q2⟩
      · refine .inl ⟨st', g', q1, ?_, ?_, q4, q5.trans i3, q6.trans i4, ?_⟩
        · rw [List.reverse_cons, List.append_assoc]; exact q2
        · rw [List.reverse_cons, List.append_assoc]; exact q3
        · intro l hl s hs
          rcases List.mem_cons.1 hl with rfl | hl
          · rw [hsize] at hs; injection hs with hs; subst hs; exact ⟨f1, f2⟩
          · exact q7 l hl s hs
      · refine .inr ⟨st', q1, ?_⟩
        rcases q2 with h | ⟨l, hl, h⟩
        · left; rw [List.length_cons] at *; omega
        · right; exact ⟨l, List.mem_cons_of_mem _ hl, h⟩

end Verif.RectPacker
