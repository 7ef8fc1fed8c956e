import Verif.RectPacker.Lemmas
/-!
Lemmas about placement of a rectangle.
-/
namespace Verif.RectPacker
open Spec

theorem chk_some {env : Env} {v : Int} (h1 : env.lo ≤ v) (h2 : v ≤ env.hi) : chk env v = some v := if_pos ⟨h1, h2⟩

/-- What is known about a part of a node that is left when a rectangle is placed. -/
structure Part (spacing : Int) (node : Node) (rect : Area) (p : Node) : Prop where
  occupied : p.occupied = false
  right : p.right = none
  down : p.down = none
  size : 0 ≤ p.w ∧ 0 ≤ p.h
  inside : p.area.inside node.area
  apart : rect.apart spacing p.area

theorem parts_spec {env : Env} {spacing : Int} {node : Node} {w h : Int} (hlo : env.lo ≤ 0) (hs : 0 ≤ spacing) (hx : 0 ≤ node.x) (hy : 0 ≤ node.y)
    (hx2 : node.x + node.w ≤ env.hi) (hy2 : node.y + node.h ≤ env.hi) (hw : 0 ≤ w) (hh : 0 ≤ h) (hw2 : w ≤ node.w) (hh2 : h ≤ node.h) :
    ∃ r d, rightPart env spacing node w (node.w - w) (if node.h - h ≥ node.w - w then h else node.h) = some r ∧
      downPart env spacing node h (if node.h - h ≥ node.w - w then node.w else w) (node.h - h) = some d ∧
      r.length = (if node.w - w ≥ spacing then 1 else 0) ∧ d.length = (if node.h - h ≥ spacing then 1 else 0) ∧
      (∀ p ∈ r ++ d, Part spacing node ⟨node.x, node.y, w, h⟩ p) ∧ (r ++ d).Pairwise (fun p q => p.area.apart spacing q.area) := by
  have hr : ∃ r, rightPart env spacing node w (node.w - w) (if node.h - h ≥ node.w - w then h else node.h) = some r ∧
      r.length = (if node.w - w ≥ spacing then 1 else 0) ∧
      ∀ p ∈ r, spacing ≤ node.w - w ∧ p = ⟨false, node.x + w + spacing, node.y, node.w - w - spacing, if node.h - h ≥ node.w - w then h else node.h, none, none⟩ := by
    unfold rightPart
    by_cases h1 : node.w - w ≥ spacing
    · rw [if_pos h1, if_pos h1, chk_some (by omega) (by omega), chk_some (v := node.x + w) (by omega) (by omega)]
      simp only [Option.bind_eq_bind, Option.bind_some]
      rw [chk_some (by omega) (by omega)]
      exact ⟨_, rfl, rfl, fun p hp => ⟨h1, List.mem_singleton.1 hp⟩⟩
    · rw [if_neg h1, if_neg h1]
      exact ⟨[], rfl, rfl, fun p hp => by simp at hp⟩
  have hd : ∃ d, downPart env spacing node h (if node.h - h ≥ node.w - w then node.w else w) (node.h - h) = some d ∧
      d.length = (if node.h - h ≥ spacing then 1 else 0) ∧
      ∀ p ∈ d, spacing ≤ node.h - h ∧ p = ⟨false, node.x, node.y + h + spacing, if node.h - h ≥ node.w - w then node.w else w, node.h - h - spacing, none, none⟩ := by
    unfold downPart
    by_cases h1 : node.h - h ≥ spacing
    · rw [if_pos h1, if_pos h1, chk_some (by omega) (by omega), chk_some (v := node.y + h) (by omega) (by omega)]
      simp only [Option.bind_eq_bind, Option.bind_some]
      rw [chk_some (by omega) (by omega)]
      exact ⟨_, rfl, rfl, fun p hp => ⟨h1, List.mem_singleton.1 hp⟩⟩
    · rw [if_neg h1, if_neg h1]
      exact ⟨[], rfl, rfl, fun p hp => by simp at hp⟩
  obtain ⟨r, r1, r2, r3⟩ := hr
  obtain ⟨d, d1, d2, d3⟩ := hd
  refine ⟨r, d, r1, d1, r2, d2, fun p hp => ?_, ?_⟩
  · rcases List.mem_append.1 hp with hp | hp
    · obtain ⟨h1, rfl⟩ := r3 p hp
      refine ⟨rfl, rfl, rfl, ?_, ?_, ?_⟩ <;> simp only [Node.area, Area.inside, Area.apart] <;> split <;> omega
    · obtain ⟨h1, rfl⟩ := d3 p hp
      refine ⟨rfl, rfl, rfl, ?_, ?_, ?_⟩ <;> simp only [Node.area, Area.inside, Area.apart] <;> split <;> omega
  · have hshort : ∀ l : List Node, l.length ≤ 1 → l.Pairwise (fun p q => p.area.apart spacing q.area) := fun l hl => by
      match l, hl with
      | [], _ => exact .nil
      | [a], _ => exact List.pairwise_singleton _ _
    rw [List.pairwise_append]
    refine ⟨hshort r (by rw [r2]; split <;> omega), hshort d (by rw [d2]; split <;> omega), fun p hp q hq => ?_⟩
    obtain ⟨h1, rfl⟩ := r3 p hp
    obtain ⟨h2, rfl⟩ := d3 q hq
    simp only [Node.area, Area.apart]
    split <;> omega

theorem nodes_after {nodes parts : List Node} {i : Nat} {node' : Node} (hi : i < nodes.length) {j : Nat} {n : Node}
    (h : (nodes.set i node' ++ parts)[j]? = some n) :
    (j < nodes.length ∧ j ≠ i ∧ nodes[j]? = some n) ∨ (j = i ∧ n = node') ∨ (nodes.length ≤ j ∧ parts[j - nodes.length]? = some n) := by
  rw [List.getElem?_append, List.length_set] at h
  split at h
  · rw [List.getElem?_set] at h
    split at h
    · rename_i h2
      injection h with h; exact .inr (.inl ⟨h2.symm, h.symm⟩)
    · rename_i h1 h2
      exact .inl ⟨h1, fun h' => h2 h'.symm, h⟩
  · exact .inr (.inr ⟨by omega, h⟩)

theorem nodesOk_place {root : Root} {spacing : Int} {g : Nat → Nat} {numBins : Nat} {nodes parts : List Node} {i b : Nat} {node node' : Node} {rect : Area}
    (ok : NodesOk root spacing g numBins nodes) (hn : nodes[i]? = some node) (hg : g i = b) (hfree : node.occupied = false)
    (ho : node'.occupied = true) (hsize : node'.w = node.w ∧ node'.h = node.h) (harea : node'.area = node.area)
    (hr : ∀ r, node'.right = some r → nodes.length ≤ r ∧ r < nodes.length + parts.length)
    (hd : ∀ r, node'.down = some r → nodes.length ≤ r ∧ r < nodes.length + parts.length)
    (hp : ∀ p ∈ parts, Part spacing node rect p) (hpp : parts.Pairwise (fun p q => p.area.apart spacing q.area)) :
    NodesOk root spacing (fun j => if j < nodes.length then g j else b) numBins (nodes.set i node' ++ parts) := by
  have hi := (List.getElem?_eq_some_iff.1 hn).1
  have hlen : (nodes.set i node' ++ parts).length = nodes.length + parts.length := by rw [List.length_append, List.length_set]
  have hbin := ok.bin i node hn
  refine ⟨?_, ?_, ?_, ?_, ?_, ?_⟩
  · intro j n hj
    rcases nodes_after hi hj with ⟨h1, h2, h3⟩ | ⟨rfl, rfl⟩ | ⟨h1, h2⟩
    · rw [if_pos h1]; exact ok.bin j n h3
    · rw [if_pos hi]; exact hbin
    · rw [if_neg (by omega), ← hg]; exact hbin
  · intro j n hj
    rcases nodes_after hi hj with ⟨h1, h2, h3⟩ | ⟨rfl, rfl⟩ | ⟨h1, h2⟩
    · exact ok.size j n h3
    · rw [hsize.1, hsize.2]; exact ok.size _ node hn
    · exact (hp n (List.mem_of_getElem? h2)).size
  · intro j n hj
    rcases nodes_after hi hj with ⟨h1, h2, h3⟩ | ⟨rfl, rfl⟩ | ⟨h1, h2⟩
    · exact ok.inside j n h3
    · rw [harea]; exact ok.inside _ node hn
    · exact inside_trans (hp n (List.mem_of_getElem? h2)).inside (ok.inside _ node hn)
  · intro j n hj r hjr
    rw [hlen]
    rcases nodes_after hi hj with ⟨h1, h2, h3⟩ | ⟨rfl, rfl⟩ | ⟨h1, h2⟩
    · obtain ⟨e1, e2, e3⟩ := ok.right j n h3 r hjr
      rw [if_pos e2, if_pos h1]; exact ⟨e1, by omega, e3⟩
    · obtain ⟨e1, e2⟩ := hr r hjr
      rw [if_neg (by omega), if_pos hi]; exact ⟨by omega, by omega, hg.symm⟩
    · rw [(hp n (List.mem_of_getElem? h2)).right] at hjr; cases hjr
  · intro j n hj r hjr
    rw [hlen]
    rcases nodes_after hi hj with ⟨h1, h2, h3⟩ | ⟨rfl, rfl⟩ | ⟨h1, h2⟩
    · obtain ⟨e1, e2, e3⟩ := ok.down j n h3 r hjr
      rw [if_pos e2, if_pos h1]; exact ⟨e1, by omega, e3⟩
    · obtain ⟨e1, e2⟩ := hd r hjr
      rw [if_neg (by omega), if_pos hi]; exact ⟨by omega, by omega, hg.symm⟩
    · rw [(hp n (List.mem_of_getElem? h2)).down] at hjr; cases hjr
  · intro j l n m hj hl hne hgg hn0 hm0
    rcases nodes_after hi hj with ⟨h1, h2, h3⟩ | ⟨rfl, rfl⟩ | ⟨h1, h2⟩
    · rw [if_pos h1] at hgg
      rcases nodes_after hi hl with ⟨k1, k2, k3⟩ | ⟨rfl, rfl⟩ | ⟨k1, k2⟩
      · rw [if_pos k1] at hgg
        exact ok.apart j l n m h3 k3 hne hgg hn0 hm0
      · rw [ho] at hm0; cases hm0
      · rw [if_neg (by omega)] at hgg
        have := ok.apart i j node n hn h3 (fun h => h2 h.symm) (by rw [hg, hgg]) hfree hn0
        exact apart_symm (apart_mono this (hp m (List.mem_of_getElem? k2)).inside)
    · rw [ho] at hn0; cases hn0
    · rw [if_neg (by omega)] at hgg
      rcases nodes_after hi hl with ⟨k1, k2, k3⟩ | ⟨rfl, rfl⟩ | ⟨k1, k2⟩
      · rw [if_pos k1] at hgg
        have := ok.apart i l node m hn k3 (fun h => k2 h.symm) (by rw [hg, hgg]) hfree hm0
        exact apart_mono this (hp n (List.mem_of_getElem? h2)).inside
      · rw [ho] at hm0; cases hm0
      · obtain ⟨a1, a2⟩ := List.getElem?_eq_some_iff.1 h2
        obtain ⟨b1, b2⟩ := List.getElem?_eq_some_iff.1 k2
        rcases Nat.lt_or_gt_of_ne (show j - nodes.length ≠ l - nodes.length by omega) with hlt | hlt
        · have := List.pairwise_iff_getElem.1 hpp _ _ a1 b1 hlt
          rwa [a2, b2] at this
        · have := List.pairwise_iff_getElem.1 hpp _ _ b1 a1 hlt
          rw [a2, b2] at this
          exact apart_symm this

/-- The room that the components need. -/
structure Fits (env : Env) (root : Root) (spacing : Int) : Prop where
  lo : env.lo ≤ 0
  spacing : 0 ≤ spacing
  x : 0 ≤ root.x
  y : 0 ≤ root.y
  w : 0 ≤ root.w
  h : 0 ≤ root.h
  x2 : root.x + root.w ≤ env.hi
  y2 : root.y + root.h ≤ env.hi

theorem place_spec {env : Env} {root : Root} {sizes : List (Int × Int)} {g : Nat → Nat} {done : List Nat} {st : State} {b i k : Nat} {rect : Rect} {node : Node} {bin : Bin}
    (hf : Fits env root st.spacing) (inv : Inv root sizes g done st) (hk : st.rects[k]? = some rect) (hkd : k ∉ done) (hw : 0 ≤ rect.w) (hh : 0 ≤ rect.h)
    (hn : st.nodes[i]? = some node) (hfree : node.occupied = false) (hw2 : rect.w ≤ node.w) (hh2 : rect.h ≤ node.h) (hg : g i = b) (hb : st.bins[b]? = some bin) :
    ∃ st' g', place env st b i k rect = some st' ∧ Inv root sizes g' (k :: done) st' ∧ st'.spacing = st.spacing ∧ st'.margin = st.margin ∧
      st'.bins.length = st.bins.length ∧ (∀ l r, l ∈ done → st.rects[l]? = some r → st'.rects[l]? = some r) ∧
      ∃ r, st'.rects[k]? = some r ∧ r.bin = b := by
  have hin := inv.nodes.inside i node hn
  obtain ⟨h1, h2, h3, h4⟩ := hin
  simp only [Node.area, Root.area] at h1 h2 h3 h4
  obtain ⟨f1, f2, f3, f4, f5, f6, f7, f8⟩ := hf
  obtain ⟨s1, s2⟩ := inv.nodes.size i node hn
  obtain ⟨r, d, p1, p2, p3, p4, p5, p6⟩ := parts_spec (env := env) (spacing := st.spacing) (node := node) (w := rect.w) (h := rect.h) f1 f2
    (by omega) (by omega) (by omega) (by omega) hw hh hw2 hh2
  unfold place
  rw [hn, hb]
  simp only [Option.bind_eq_bind, Option.bind_some]
  rw [chk_some (by omega) (by omega), chk_some (v := node.y + rect.h) (by omega) (by omega), chk_some (v := node.w - rect.w) (by omega) (by omega),
    chk_some (v := node.h - rect.h) (by omega) (by omega)]
  simp only [Option.bind_some]
  rw [p1, p2]
  simp only [Option.bind_some]
  have hbl := (List.getElem?_eq_some_iff.1 hb).1
  have hkl := (List.getElem?_eq_some_iff.1 hk).1
  -- access to the new state
  have hrect : ∀ (l : Nat) (s : Rect), (st.rects.set k { rect with bin := b, x := node.x, y := node.y })[l]? = some s →
      (l = k ∧ s = { rect with bin := b, x := node.x, y := node.y }) ∨ (l ≠ k ∧ st.rects[l]? = some s) := by
    intro l s h
    rw [List.getElem?_set] at h
    split at h
    · rename_i h2; injection h with h; exact .inl ⟨h2.symm, h.symm⟩
    · rename_i h2; exact .inr ⟨fun h' => h2 h'.symm, h⟩
  have hin' : ∀ (l : Nat), l ∈ k :: done → l ≠ k → l ∈ done := fun l h1 h2 => (List.mem_cons.1 h1).resolve_left h2
  have hnew : (st.rects.set k { rect with bin := b, x := node.x, y := node.y })[k]? = some { rect with bin := b, x := node.x, y := node.y } := by
    rw [List.getElem?_set, if_pos rfl, if_pos hkl]
  have hold : ∀ (l : Nat) (s : Rect), l ∈ done → st.rects[l]? = some s →
      (st.rects.set k { rect with bin := b, x := node.x, y := node.y })[l]? = some s := by
    intro l s h1 h2
    rw [List.getElem?_set, if_neg (fun h : k = l => hkd (h ▸ h1))]; exact h2
  have harea : ∀ m : Node, m.area.inside node.area → ∀ l s, l ∈ done → st.rects[l]? = some s → s.bin = b → s.area.apart st.spacing m.area :=
    fun m hm l s a1 a2 a3 => apart_symm (apart_mono (apart_symm (inv.free l i s node a1 a2 hn hfree (by rw [hg]; exact a3))) hm)
  refine ⟨_, fun j => if j < st.nodes.length then g j else b, rfl, ?_, rfl, rfl, List.length_set, hold, _, hnew, rfl⟩
  refine ⟨?_, ?_, ?_, ?_, ?_, ?_, ?_, ?_, ?_⟩
  · simp only [List.length_set]
    rw [List.append_assoc]
    refine nodesOk_place (node := node) inv.nodes hn hg hfree rfl ⟨rfl, rfl⟩ rfl ?_ ?_ p5 p6
    · intro r' h
      simp only at h
      split at h
      · rename_i h'
        injection h with h
        rw [List.length_append, p3, if_pos h']; omega
      · cases h
    · intro r' h
      simp only at h
      split at h
      · rename_i h'
        injection h with h
        rw [List.length_append, p4, if_pos h']; omega
      · cases h
  · rw [← inv.sizes]
    simp only
    apply List.ext_getElem?
    intro l
    rw [List.getElem?_map, List.getElem?_map, List.getElem?_set]
    split
    · rename_i h; subst h; rw [hk]; rfl
    · rfl
  · intro b' bin' h
    simp only at h
    rw [List.getElem?_set] at h
    simp only [List.length_append, List.length_set]
    split at h
    · rename_i h'
      subst h'
      injection h with h
      subst h
      obtain ⟨e1, e2⟩ := inv.start _ _ hb
      simp only
      rw [if_pos e1]
      exact ⟨by omega, e2⟩
    · obtain ⟨e1, e2⟩ := inv.start _ _ h
      rw [if_pos e1]
      exact ⟨by omega, e2⟩
  · intro l s hl h
    simp only [List.length_set]
    rcases hrect l s h with ⟨rfl, rfl⟩ | ⟨e1, e2⟩
    · exact hbl
    · exact inv.bin l s (hin' l hl e1) e2
  · intro l s hl h
    rcases hrect l s h with ⟨rfl, rfl⟩ | ⟨e1, e2⟩
    · simp only [Rect.area, Root.area, Area.inside]; omega
    · exact inv.inside l s (hin' l hl e1) e2
  · intro l m s t hl hm h h' hne hbb
    rcases hrect l s h with ⟨rfl, rfl⟩ | ⟨e1, e2⟩
    · rcases hrect m t h' with ⟨rfl, rfl⟩ | ⟨e3, e4⟩
      · exact absurd rfl hne
      · have := inv.free m i t node (hin' m hm e3) e4 hn hfree (by rw [hg]; exact hbb.symm)
        refine apart_mono (apart_symm this) ?_
        simp only [Rect.area, Node.area, Area.inside]; omega
    · rcases hrect m t h' with ⟨rfl, rfl⟩ | ⟨e3, e4⟩
      · have := inv.free l i s node (hin' l hl e1) e2 hn hfree (by rw [hg]; exact hbb)
        refine apart_symm (apart_mono (apart_symm this) ?_)
        simp only [Rect.area, Node.area, Area.inside]; omega
      · exact inv.apart l m s t (hin' l hl e1) (hin' m hm e3) e2 e4 hne hbb
  · intro l j s n hl h h' hn0 hbb
    simp only at h' hbb
    rw [List.append_assoc] at h'
    have hi := (List.getElem?_eq_some_iff.1 hn).1
    rcases nodes_after hi h' with ⟨a1, a2, a3⟩ | ⟨rfl, rfl⟩ | ⟨a1, a2⟩
    · rw [if_pos a1] at hbb
      rcases hrect l s h with ⟨rfl, rfl⟩ | ⟨e1, e2⟩
      · have := inv.nodes.apart i j node n hn a3 (fun h => a2 h.symm) (by rw [hg]; exact hbb) hfree hn0
        refine apart_mono this ?_
        simp only [Rect.area, Node.area, Area.inside]; omega
      · exact inv.free l j s n (hin' l hl e1) e2 a3 hn0 hbb
    · cases hn0
    · rw [if_neg (by omega)] at hbb
      have hpart := p5 n (List.mem_of_getElem? a2)
      rcases hrect l s h with ⟨rfl, rfl⟩ | ⟨e1, e2⟩
      · exact hpart.apart
      · exact harea n hpart.inside l s (hin' l hl e1) e2 hbb
  · intro b' bin' h
    simp only at h
    rw [List.getElem?_set] at h
    split at h
    · rename_i h'
      subst h'
      injection h with h
      subst h
      obtain ⟨e1, e2, e3, e4⟩ := inv.maxX _ _ hb
      simp only
      refine ⟨by split <;> omega, by split <;> omega, ?_, ?_⟩
      · intro l s hl hs hbb
        rcases hrect l s hs with ⟨rfl, rfl⟩ | ⟨g1, g2⟩
        · simp only; split <;> omega
        · have := e3 l s (hin' l hl g1) g2 hbb
          split <;> omega
      · by_cases hc : node.x + rect.w > bin.maxX
        · rw [if_pos hc]
          exact .inr ⟨k, _, List.mem_cons_self, hnew, rfl, rfl⟩
        · rw [if_neg hc]
          rcases e4 with e4 | ⟨l, s, a1, a2, a3, a4⟩
          · exact .inl e4
          · exact .inr ⟨l, s, List.mem_cons_of_mem _ a1, hold l s a1 a2, a3, a4⟩
    · rename_i h'
      obtain ⟨e1, e2, e3, e4⟩ := inv.maxX _ _ h
      refine ⟨e1, e2, ?_, ?_⟩
      · intro l s hl hs hbb
        rcases hrect l s hs with ⟨rfl, rfl⟩ | ⟨g1, g2⟩
        · exact absurd hbb h'
        · exact e3 l s (hin' l hl g1) g2 hbb
      · rcases e4 with e4 | ⟨l, s, a1, a2, a3, a4⟩
        · exact .inl e4
        · exact .inr ⟨l, s, List.mem_cons_of_mem _ a1, hold l s a1 a2, a3, a4⟩
  · intro b' bin' h
    simp only at h
    rw [List.getElem?_set] at h
    split at h
    · rename_i h'
      subst h'
      injection h with h
      subst h
      obtain ⟨e1, e2, e3, e4⟩ := inv.maxY _ _ hb
      simp only
      refine ⟨by split <;> omega, by split <;> omega, ?_, ?_⟩
      · intro l s hl hs hbb
        rcases hrect l s hs with ⟨rfl, rfl⟩ | ⟨g1, g2⟩
        · simp only; split <;> omega
        · have := e3 l s (hin' l hl g1) g2 hbb
          split <;> omega
      · by_cases hc : node.y + rect.h > bin.maxY
        · rw [if_pos hc]
          exact .inr ⟨k, _, List.mem_cons_self, hnew, rfl, rfl⟩
        · rw [if_neg hc]
          rcases e4 with e4 | ⟨l, s, a1, a2, a3, a4⟩
          · exact .inl e4
          · exact .inr ⟨l, s, List.mem_cons_of_mem _ a1, hold l s a1 a2, a3, a4⟩
    · rename_i h'
      obtain ⟨e1, e2, e3, e4⟩ := inv.maxY _ _ h
      refine ⟨e1, e2, ?_, ?_⟩
      · intro l s hl hs hbb
        rcases hrect l s hs with ⟨rfl, rfl⟩ | ⟨g1, g2⟩
        · exact absurd hbb h'
        · exact e3 l s (hin' l hl g1) g2 hbb
      · rcases e4 with e4 | ⟨l, s, a1, a2, a3, a4⟩
        · exact .inl e4
        · exact .inr ⟨l, s, List.mem_cons_of_mem _ a1, hold l s a1 a2, a3, a4⟩

end Verif.RectPacker
