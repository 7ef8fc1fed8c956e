import Verif.FallbackFont.Spec
/-!
Lemmas about the reading of the font specification.
-/
namespace Verif.FallbackFont
open Verif.PixelBox Verif.Integer

theorem containsAxis_zero {I : Nat} {s p' s' : Int} (h1 : p' ≤ 2 ^ I - 1) (h2 : s - s' ≤ 2 ^ I - 1) :
    containsAxis I 0 s p' s' = some (decide (0 ≤ p' ∧ p' + s' ≤ s)) := by
  have hp := p_pos I
  unfold containsAxis
  by_cases h : p' ≥ 0 ∧ s' ≤ s
  · rw [if_pos h, bind_sub (by omega) (by omega), bind_sub (by omega) (by omega)]
    exact some_decide (by omega)
  · rw [if_neg h]
    have : ¬ (0 ≤ p' ∧ p' + s' ≤ s) := by omega
    simp [this]

theorem containedIn_eq {I : Nat} {b : Box} {w h : Int} (h1 : b.x ≤ 2 ^ I - 1 ∧ b.y ≤ 2 ^ I - 1)
    (h2 : w - b.w ≤ 2 ^ I - 1 ∧ h - b.h ≤ 2 ^ I - 1) :
    ∃ r, b.containedIn I ⟨0, 0, w, h⟩ = some r ∧ (r = true ↔ Spec.Within b w h) := by
  unfold Box.containedIn Box.contains
  rw [containsAxis_zero h1.1 h2.1, containsAxis_zero h1.2 h2.2]
  exact ⟨_, rfl, by simp [Spec.Within]⟩

theorem emplaceAll_ok (i : Nat) : ∀ (cs : List Nat) (map : List (Nat × Nat)),
    (emplaceAll i map cs).2 = true ↔ cs.Nodup ∧ ∀ c ∈ cs, map.lookup c = none
  | [], map => by simp [emplaceAll]
  | c :: cs, map => by
    rw [emplaceAll]
    by_cases h : (map.lookup c).isSome = true
    · rw [if_pos h]
      constructor
      · intro h'; cases h'
      · intro h'
        rw [h'.2 c (by simp)] at h
        cases h
    · rw [if_neg h, emplaceAll_ok i cs]
      have hn : map.lookup c = none := by
        cases hc : map.lookup c with
        | none => rfl
        | some v => simp [hc] at h
      rw [List.nodup_cons]
      have key : ∀ d, ((c, i) :: map).lookup d = none ↔ d ≠ c ∧ map.lookup d = none := by
        intro d
        rw [List.lookup_cons]
        by_cases hd : d = c
        · subst hd; simp
        · have : (d == c) = false := by simp [hd]
          simp only [this]
          simp [hd]
      constructor
      · rintro ⟨h1, h2⟩
        refine ⟨⟨fun hm => ((key c).1 (h2 c hm)).1 rfl, h1⟩, fun d hd => ?_⟩
        rcases List.mem_cons.1 hd with rfl | hd
        · exact hn
        · exact ((key d).1 (h2 d hd)).2
      · rintro ⟨⟨h1, h2⟩, h3⟩
        exact ⟨h2, fun d hd => (key d).2 ⟨fun e => h1 (e ▸ hd), h3 d (by simp [hd])⟩⟩

theorem emplaceAll_lookup (i : Nat) : ∀ (cs : List Nat) (map : List (Nat × Nat)),
    (emplaceAll i map cs).2 = true → ∀ d,
      ((emplaceAll i map cs).1.lookup d = if d ∈ cs then some i else map.lookup d)
  | [], map, _, d => by simp [emplaceAll]
  | c :: cs, map, hok, d => by
    have hk := (emplaceAll_ok i (c :: cs) map).1 hok
    rw [emplaceAll] at hok ⊢
    have h : ¬ (map.lookup c).isSome = true := by
      rw [hk.2 c (by simp)]; simp
    rw [if_neg h] at hok ⊢
    rw [emplaceAll_lookup i cs _ hok d]
    by_cases h1 : d ∈ cs
    · simp [h1]
    · rw [if_neg h1, List.lookup_cons]
      by_cases hd : d = c
      · subst hd; simp
      · have : (d == c) = false := by simp [hd]
        simp only [this]
        simp [hd, h1]

/-- What holds of a glyph box for the check to be defined. -/
def Def (I : Nat) (g : Glyph) (w h : Int) : Prop :=
  (g.box.x ≤ 2 ^ I - 1 ∧ g.box.y ≤ 2 ^ I - 1) ∧ (w - g.box.w ≤ 2 ^ I - 1 ∧ h - g.box.h ≤ 2 ^ I - 1)

theorem addGlyph_eq {I : Nat} {s : State} {g : Glyph} {cps : List Nat} (hd : Def I g s.width s.height) :
    ∃ s', addGlyph I s g cps = some s' ∧
      s'.name = s.name ∧ s'.haveRanges = s.haveRanges ∧ s'.ranges = s.ranges ∧ s'.haveMetrics = s.haveMetrics ∧
      s'.width = s.width ∧ s'.height = s.height ∧ s'.haveFallback = s.haveFallback ∧
      (s'.error = false ↔ s.error = false ∧ Spec.GlyphOk g s.width s.height ∧ cps.Nodup ∧
        ∀ c ∈ cps, s.map.lookup c = none) ∧
      (s'.error = false → s'.glyphs = s.glyphs ++ [g] ∧
        ∀ c, s'.map.lookup c = if c ∈ cps then some s.glyphs.length else s.map.lookup c) := by
  obtain ⟨r, hr, hw⟩ := containedIn_eq hd.1 hd.2
  unfold addGlyph
  rw [hr]
  simp only [Option.bind_eq_bind, Option.bind_some]
  unfold Spec.GlyphOk
  cases r with
  | false =>
    refine ⟨_, rfl, rfl, rfl, rfl, rfl, rfl, rfl, rfl, ?_, ?_⟩
    · have : ¬ Spec.Within g.box s.width s.height := fun h => by cases hw.2 h
      simp [this]
    · intro h; cases h
  | true =>
    simp only [Bool.not_true, Bool.false_eq_true, if_false]
    by_cases ha : g.horzAdvance < 0 ∨ g.vertAdvance < 0
    · rw [if_pos ha]
      refine ⟨_, rfl, rfl, rfl, rfl, rfl, rfl, rfl, rfl, ?_, ?_⟩
      · constructor
        · intro h; cases h
        · intro h; omega
      · intro h; cases h
    · rw [if_neg ha]
      refine ⟨_, rfl, rfl, rfl, rfl, rfl, rfl, rfl, rfl, ?_, ?_⟩
      · simp only [Bool.or_eq_false_iff, Bool.not_eq_false']
        rw [emplaceAll_ok]
        have h1 : 0 ≤ g.horzAdvance ∧ 0 ≤ g.vertAdvance := by omega
        simp [hw.1 rfl, h1]
      · intro h
        simp only [Bool.or_eq_false_iff, Bool.not_eq_false'] at h
        exact ⟨rfl, emplaceAll_lookup _ _ _ h.2⟩

/-- The loop for the lines after the one with the fallback glyph. -/
theorem run_glyphs {I : Nat} : ∀ (rest : List Line) (s : State), s.haveMetrics = true → s.haveFallback = true →
    (∀ l ∈ rest, ∀ g cps, l.glyph = some (g, cps) → Def I g s.width s.height) →
    ∃ s', run I s rest = some s' ∧
      s'.name = s.name ∧ s'.ranges = s.ranges ∧ s'.haveMetrics = true ∧ s'.width = s.width ∧ s'.height = s.height ∧
      (s'.error = false ↔ s.error = false ∧ ∃ gs : List (Glyph × List Nat), rest.map Line.glyph = gs.map some ∧
        (∀ e ∈ gs, Spec.GlyphOk e.1 s.width s.height) ∧ (gs.map Prod.snd).flatten.Nodup ∧
        ∀ c ∈ (gs.map Prod.snd).flatten, s.map.lookup c = none) ∧
      (s'.error = false → ∀ gs : List (Glyph × List Nat), rest.map Line.glyph = gs.map some →
        s'.glyphs = s.glyphs ++ gs.map Prod.fst ∧
        (∀ i e c, gs[i]? = some e → c ∈ e.2 → s'.map.lookup c = some (s.glyphs.length + i)) ∧
        ∀ c, c ∉ (gs.map Prod.snd).flatten → s'.map.lookup c = s.map.lookup c)
  | [], s, h1, h2, hd => by
    refine ⟨s, rfl, rfl, rfl, h1, rfl, rfl, ?_, ?_⟩
    · constructor
      · intro h; exact ⟨h, [], rfl, by simp, by simp, by simp⟩
      · intro h; exact h.1
    · intro _ gs hg
      have : gs = [] := by cases gs with
        | nil => rfl
        | cons a b => cases hg
      subst this
      simp
  | l :: rest, s, h1, h2, hd => by
    rw [run]
    cases hl : l.glyph with
    | none =>
      have hs : step I s l = some { s with error := true } := by
        unfold step; rw [if_pos h1, if_pos h2, hl]
      rw [hs]
      simp only [Option.bind_eq_bind, Option.bind_some]
      obtain ⟨s', hr, e1, e2, e3, e4, e5, e6, e7⟩ := run_glyphs rest { s with error := true } h1 h2
        (fun l' hl' => hd l' (List.mem_cons_of_mem _ hl'))
      have he : ¬ s'.error = false := fun h => by cases (e6.1 h).1
      refine ⟨s', hr, e1, e2, e3, e4, e5, ?_, fun h => (he h).elim⟩
      constructor
      · intro h; exact (he h).elim
      · rintro ⟨-, gs, hg, -⟩
        cases gs with
        | nil => cases hg
        | cons a b => rw [List.map_cons, hl] at hg; cases hg
    | some p =>
      obtain ⟨g, cps⟩ := p
      obtain ⟨s1, ha, n1, n2, n3, n4, n5, n6, n7, n8, n9⟩ := addGlyph_eq (cps := cps) (hd l (by simp) g cps hl)
      have hs : step I s l = some s1 := by
        unfold step; rw [if_pos h1, if_pos h2, hl]; exact ha
      rw [hs]
      simp only [Option.bind_eq_bind, Option.bind_some]
      obtain ⟨s', hr, e1, e2, e3, e4, e5, e6, e7⟩ := run_glyphs rest s1 (n4.trans h1) (n7.trans h2)
        (fun l' hl' => by rw [n5, n6]; exact hd l' (List.mem_cons_of_mem _ hl'))
      rw [n5, n6] at e6
      refine ⟨s', hr, e1.trans n1, e2.trans n3, e3, e4.trans n5, e5.trans n6, ?_, ?_⟩
      · constructor
        · intro h
          obtain ⟨he, gs, hg, hok, hnd, hun⟩ := e6.1 h
          obtain ⟨he0, hgo, hcn, hcu⟩ := n8.1 he
          obtain ⟨-, hlk⟩ := n9 he
          refine ⟨he0, (g, cps) :: gs, by rw [List.map_cons, hl, hg]; rfl, ?_, ?_, ?_⟩
          · intro e hm
            rcases List.mem_cons.1 hm with rfl | hm
            · exact hgo
            · exact hok e hm
          · rw [List.map_cons, List.flatten_cons, List.nodup_append]
            refine ⟨hcn, hnd, fun a ha b hb hab => ?_⟩
            subst hab
            have := hun a hb
            rw [hlk a, if_pos ha] at this
            cases this
          · intro c hc
            rw [List.map_cons, List.flatten_cons, List.mem_append] at hc
            rcases hc with hc | hc
            · exact hcu c hc
            · have := hun c hc
              rw [hlk c] at this
              by_cases hcc : c ∈ cps
              · rw [if_pos hcc] at this; cases this
              · rwa [if_neg hcc] at this
        · rintro ⟨he0, gs, hg, hok, hnd, hun⟩
          cases gs with
          | nil => cases hg
          | cons a gs =>
            rw [List.map_cons, List.map_cons, hl] at hg
            injection hg with hg1 hg2
            injection hg1 with hg1
            subst hg1
            rw [List.map_cons, List.flatten_cons] at hnd hun
            rw [List.nodup_append] at hnd
            have he : s1.error = false := n8.2 ⟨he0, hok (g, cps) (by simp), hnd.1,
              fun c hc => hun c (List.mem_append_left _ hc)⟩
            refine e6.2 ⟨he, gs, hg2, fun e hm => hok e (List.mem_cons_of_mem _ hm), hnd.2.1, fun c hc => ?_⟩
            rw [(n9 he).2 c, if_neg (fun hcc => hnd.2.2 c hcc c hc rfl)]
            exact hun c (List.mem_append_right _ hc)
      · intro h gs hg
        obtain ⟨he, gs', hg', -, -, hun'⟩ := e6.1 h
        obtain ⟨k1, k2⟩ := n9 he
        cases gs with
        | nil => cases hg
        | cons a gs =>
          rw [List.map_cons, List.map_cons, hl] at hg
          injection hg with hg1 hg2
          injection hg1 with hg1
          subst hg1
          obtain ⟨m1, m2, m3⟩ := e7 h gs hg2
          have hgs : gs' = gs := by
            have := hg'.symm.trans hg2
            exact (List.map_inj_right (fun _ _ h => Option.some.inj h)).1 this
          subst hgs
          refine ⟨by rw [m1, k1]; simp, ?_, ?_⟩
          · intro i e c hi hc
            cases i with
            | zero =>
              rw [List.getElem?_cons_zero] at hi
              injection hi with hi
              subst hi
              have hcn : c ∉ (gs'.map Prod.snd).flatten := fun hm => by
                have := hun' c hm
                rw [k2 c, if_pos hc] at this
                cases this
              rw [m3 c hcn, k2 c, if_pos hc]; rfl
            | succ i =>
              rw [List.getElem?_cons_succ] at hi
              rw [m2 i e c hi hc, k1, List.length_append]
              congr 1
              simp only [List.length_cons, List.length_nil]
              omega
          · intro c hc
            rw [List.map_cons, List.flatten_cons, List.mem_append] at hc
            rw [m3 c (fun h => hc (Or.inr h)), k2 c, if_neg (fun h => hc (Or.inl h))]

theorem checkRanges_ok : ∀ (rs : List (Nat × Nat)) (prev : Option Nat), (∀ r ∈ rs, r.1 ≤ r.2) →
    (checkRanges prev rs = true ↔ rs.Pairwise (fun a b => a.2 < b.1) ∧ ∀ p, prev = some p → ∀ r ∈ rs, p < r.1)
  | [], prev, _ => by simp [checkRanges]
  | (a, b) :: rs, prev, hr => by
    have hab : a ≤ b := hr (a, b) (by simp)
    rw [checkRanges, List.pairwise_cons]
    have ih := checkRanges_ok rs (some b) (fun r h => hr r (List.mem_cons_of_mem _ h))
    cases prev with
    | none =>
      simp only [Option.all_none, if_true]
      rw [ih]
      constructor
      · rintro ⟨h1, h2⟩
        exact ⟨⟨fun r hm => h2 b rfl r hm, h1⟩, fun p hp => by cases hp⟩
      · rintro ⟨⟨h1, h2⟩, -⟩
        exact ⟨h2, fun p hp r hm => by cases hp; exact h1 r hm⟩
    | some q =>
      simp only [Option.all_some]
      by_cases hq : a > q
      · have : decide (a > q) = true := by simp [hq]
        rw [if_pos this, ih]
        constructor
        · rintro ⟨h1, h2⟩
          refine ⟨⟨fun r hm => h2 b rfl r hm, h1⟩, fun p hp r hm => ?_⟩
          cases hp
          rcases List.mem_cons.1 hm with rfl | hm
          · exact hq
          · have := h2 b rfl r hm; omega
        · rintro ⟨⟨h1, h2⟩, -⟩
          exact ⟨h2, fun p hp r hm => by cases hp; exact h1 r hm⟩
      · have : ¬ decide (a > q) = true := by simp [hq]
        rw [if_neg this]
        constructor
        · intro h; cases h
        · rintro ⟨-, h2⟩
          exact (hq (h2 q rfl (a, b) (by simp))).elim

end Verif.FallbackFont
