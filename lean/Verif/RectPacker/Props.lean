import Verif.RectPacker.Pack
/-!
Properties of packing of rectangles.
-/
namespace Verif.RectPacker
open Spec

/-- Rectangles that have been added, but not packed: Addition of rectangles to a new packer, or to one that was reset. -/
def addAll (st : State) : List (Int × Int) → Option State
  | [] => some st
  | (w, h) :: rest => do addAll (← addRect st w h) rest

theorem addAll_spec (sizes : List (Int × Int)) : ∀ (st : State), (∀ s ∈ sizes, 0 ≤ s.1 ∧ 0 ≤ s.2) →
    addAll st sizes = some { st with rects := st.rects ++ sizes.map (fun s => ⟨s.1, s.2, 0, 0, 0⟩) } := by
  induction sizes with
  | nil => intro st _; simp [addAll]
  | cons s sizes ih =>
    intro st h
    obtain ⟨h1, h2⟩ := h s List.mem_cons_self
    rw [addAll, addRect, if_pos h1, if_pos h2]
    simp only [Option.bind_eq_bind, Option.bind_some]
    rw [ih _ (fun s hs => h s (List.mem_cons_of_mem _ hs))]
    simp

/-- Where a rectangle was placed: the bin, and the area. -/
def placed (sizes : List (Int × Int)) (st : State) (k : Nat) : Option (Nat × Area) := do
  let s ← sizes[k]?
  let (bin, x, y) ← rectPos st k
  some (bin, ⟨x, y, s.1, s.2⟩)

/-- What must hold after successful packing. -/
structure Packed (env : Env) (spacing margin width height : Int) (maxBins : Nat) (sizes : List (Int × Int)) (st : State) : Prop where
  /-- Every rectangle has a place, which is inside the margins of an existing bin. -/
  inside : ∀ k, k < sizes.length → ∃ b a, placed sizes st k = some (b, a) ∧ b < numBins st ∧ a.inside (interior width height margin)
  /-- Two rectangles in the same bin are as far apart as requested. -/
  apart : ∀ k l b a a', k ≠ l → placed sizes st k = some (b, a) → placed sizes st l = some (b, a') → a.apart spacing a'
  /-- The bin limit is respected. -/
  bins : numBins st ≤ maxBins
  /-- The utilized width of a bin is the position of its rightmost edge plus the margin. -/
  width : ∀ b, b < numBins st → ∃ u, utilizedWidth env st b = some u ∧ u ≤ width ∧
    IsGreatest {v | ∃ k a, placed sizes st k = some (b, a) ∧ v = a.x + a.w + margin} u
  /-- The utilized height of a bin is the position of its lowest edge plus the margin. -/
  height : ∀ b, b < numBins st → ∃ u, utilizedHeight env st b = some u ∧ u ≤ height ∧
    IsGreatest {v | ∃ k a, placed sizes st k = some (b, a) ∧ v = a.y + a.h + margin} u

theorem order_perm (rects : List Rect) : (order rects).Perm (List.range rects.length) := List.perm_insertionSort _ _

theorem pack_spec (env : Env) (spacing margin width height : Int) (maxBins : Nat) (sizes : List (Int × Int)) (st : State)
    (hlo : env.lo ≤ 0) (hs : 0 ≤ spacing) (hm : 0 ≤ margin) (hw : width ≤ env.hi) (hh : height ≤ env.hi) (hw0 : env.lo ≤ width) (hh0 : env.lo ≤ height)
    (hsz : ∀ s ∈ sizes, 0 ≤ s.1 ∧ 0 ≤ s.2)
    (hst : addAll (make spacing margin) sizes = some st) :
    ∃ ok st', pack env st width height maxBins = some (ok, st') ∧
      (ok = true → Packed env spacing margin width height maxBins sizes st') ∧
      (ok = true → 2 * margin ≤ width ∧ 2 * margin ≤ height ∧ ∀ s ∈ sizes, s.1 ≤ width - 2 * margin ∧ s.2 ≤ height - 2 * margin) ∧
      (ok = false → ¬ (2 * margin ≤ width ∧ 2 * margin ≤ height ∧ (∀ s ∈ sizes, s.1 ≤ width - 2 * margin ∧ s.2 ≤ height - 2 * margin) ∧
        sizes.length ≤ maxBins)) := by
  rw [addAll_spec sizes _ hsz] at hst
  simp only [make, List.nil_append, Option.some.injEq] at hst
  subst hst
  unfold pack
  simp only
  have hfalse : ∀ c : Prop, (2 * margin ≤ width ∧ 2 * margin ≤ height → ¬ c) → ∀ st : State, c → ∃ ok st', some (false, st) = some (ok, st') ∧
      (ok = true → Packed env spacing margin width height maxBins sizes st') ∧
      (ok = true → 2 * margin ≤ width ∧ 2 * margin ≤ height ∧ ∀ s ∈ sizes, s.1 ≤ width - 2 * margin ∧ s.2 ≤ height - 2 * margin) ∧
      (ok = false → ¬ (2 * margin ≤ width ∧ 2 * margin ≤ height ∧ (∀ s ∈ sizes, s.1 ≤ width - 2 * margin ∧ s.2 ≤ height - 2 * margin) ∧
        sizes.length ≤ maxBins)) := fun c hc st h =>
    ⟨false, st, rfl, fun h => (by cases h), fun h => (by cases h), fun _ h' => hc ⟨h'.1, h'.2.1⟩ h⟩
  by_cases h1 : margin > width
  · rw [if_pos h1]; exact hfalse _ (fun h => by omega) _ h1
  rw [if_neg h1, chk_some (by omega) (by omega)]
  simp only [Option.pure_def, Option.bind_eq_bind, Option.bind_some]
  by_cases h2 : margin > width - margin
  · rw [if_pos h2]; exact hfalse _ (fun h => by omega) _ h2
  rw [if_neg h2]
  by_cases h3 : margin > height
  · rw [if_pos h3]; exact hfalse _ (fun h => by omega) _ h3
  rw [if_neg h3, chk_some (by omega) (by omega)]
  simp only [Option.bind_some]
  by_cases h4 : margin > height - margin
  · rw [if_pos h4]; exact hfalse _ (fun h => by omega) _ h4
  rw [if_neg h4, chk_some (by omega) (by omega)]
  simp only [Option.bind_some]
  rw [chk_some (by omega) (by omega)]
  simp only [Option.bind_some]
  rw [chk_some (by omega) (by omega)]
  simp only [Option.bind_some, if_true]
  clear hfalse
  generalize hrects : sizes.map (fun s : Int × Int => (⟨s.1, s.2, 0, 0, 0⟩ : Rect)) = rects
  have hlen : rects.length = sizes.length := by rw [← hrects, List.length_map]
  have hperm := order_perm rects
  have hinv : Inv ⟨margin, margin, width - 2 * margin, height - 2 * margin⟩ sizes (fun _ => 0) [] ⟨spacing, margin, rects, [], []⟩ := by
    refine ⟨⟨?_, ?_, ?_, ?_, ?_, ?_⟩, ?_, ?_, ?_, ?_, ?_, ?_, ?_, ?_⟩
    case refine_7 =>
      rw [← hrects]
      simp only [List.map_map]
      exact List.map_id' _
    all_goals intros; simp_all
  have hmem : ∀ k, k ∈ order rects ↔ k < sizes.length := fun k => by rw [hperm.mem_iff, List.mem_range, hlen]
  rcases packLoop_spec (env := env) (maxBins := maxBins) hsz (order rects) (fun _ => 0) [] ⟨spacing, margin, rects, [], []⟩
    ⟨hlo, hs, hm, hm, by simp only; omega, by simp only; omega, by simp only; omega, by simp only; omega⟩ hinv
    (fun b hb => by simp at hb) (by simp) (by simp) (fun k hk => (hmem k).1 hk) (hperm.nodup_iff.2 List.nodup_range) (fun k _ => by simp) with
    ⟨st', g, q1, q2, q3, q4, q5, q6, q7⟩ | ⟨st', q1, q2⟩
  · refine ⟨true, st', q1, fun _ => ?_, fun _ => ⟨by omega, by omega, fun s hs => ?_⟩, fun h => by cases h⟩
    · rw [List.append_nil] at q2 q3
      have hdone : ∀ k, k ∈ (order rects).reverse ↔ k < sizes.length := fun k => by rw [List.mem_reverse, hmem]
      simp only at q5 q6
      have hl : st'.rects.length = sizes.length := by rw [← q2.sizes, List.length_map]
      have hplaced : ∀ k b a, placed sizes st' k = some (b, a) ↔ ∃ r, k ∈ (order rects).reverse ∧ st'.rects[k]? = some r ∧ r.bin = b ∧ r.area = a := by
        intro k b a
        unfold placed rectPos
        rw [← q2.sizes, List.getElem?_map]
        cases hr : st'.rects[k]? with
        | none => simp
        | some r =>
          have : k < sizes.length := by rw [← hl]; exact (List.getElem?_eq_some_iff.1 hr).1
          simp [Rect.area, hmem, this]
      have hbin : ∀ b, b < numBins st' → ∃ bin, st'.bins[b]? = some bin := fun b hb => ⟨_, List.getElem?_eq_getElem hb⟩
      refine ⟨fun k hk => ?_, fun k l b a a' hne h h' => ?_, q4, fun b hb => ?_, fun b hb => ?_⟩
      · have hr : st'.rects[k]? = some (st'.rects[k]'(by omega)) := List.getElem?_eq_getElem (by omega)
        generalize st'.rects[k]'_ = r at hr
        exact ⟨r.bin, r.area, (hplaced k _ _).2 ⟨r, (hdone k).2 hk, hr, rfl, rfl⟩, q2.bin k r ((hdone k).2 hk) hr,
          q2.inside k r ((hdone k).2 hk) hr⟩
      · obtain ⟨r, e1, e2, rfl, rfl⟩ := (hplaced _ _ _).1 h
        obtain ⟨s, e5, e6, e7, rfl⟩ := (hplaced _ _ _).1 h'
        rw [← q5]
        exact q2.apart k l r s e1 e5 e2 e6 hne e7.symm
      · obtain ⟨bin, hbin⟩ := hbin b hb
        obtain ⟨m1, m2, m3, m4⟩ := q2.maxX b bin hbin
        simp only at m1 m2
        unfold utilizedWidth
        rw [hbin, q6]
        simp only [Option.bind_eq_bind, Option.bind_some]
        refine ⟨bin.maxX + margin, chk_some (by omega) (by omega), by omega, ?_, ?_⟩
        · rcases m4 with m4 | ⟨k, r, e1, e2, e3, e4⟩
          · obtain ⟨k, r, e1, e2, e3⟩ := q3 b hb
            refine ⟨k, r.area, (hplaced _ _ _).2 ⟨r, e1, e2, e3, rfl⟩, ?_⟩
            have h5 := m3 k r e1 e2 e3
            have h6 := (q2.inside k r e1 e2).1
            have h7 : 0 ≤ r.w := by
              have : sizes[k]? = some (r.w, r.h) := by rw [← q2.sizes, List.getElem?_map, e2]; rfl
              exact (hsz _ (List.mem_of_getElem? this)).1
            simp only [Rect.area, Root.area] at h6 ⊢
            simp only at m4
            omega
          · exact ⟨k, r.area, (hplaced _ _ _).2 ⟨r, e1, e2, e3, rfl⟩, by simp only [Rect.area]; omega⟩
        · rintro v ⟨k, a, h, rfl⟩
          obtain ⟨r, e1, e2, e3, rfl⟩ := (hplaced _ _ _).1 h
          have := m3 k r e1 e2 e3
          simp only [Rect.area]; omega
      · obtain ⟨bin, hbin⟩ := hbin b hb
        obtain ⟨m1, m2, m3, m4⟩ := q2.maxY b bin hbin
        simp only at m1 m2
        unfold utilizedHeight
        rw [hbin, q6]
        simp only [Option.bind_eq_bind, Option.bind_some]
        refine ⟨bin.maxY + margin, chk_some (by omega) (by omega), by omega, ?_, ?_⟩
        · rcases m4 with m4 | ⟨k, r, e1, e2, e3, e4⟩
          · obtain ⟨k, r, e1, e2, e3⟩ := q3 b hb
            refine ⟨k, r.area, (hplaced _ _ _).2 ⟨r, e1, e2, e3, rfl⟩, ?_⟩
            have h5 := m3 k r e1 e2 e3
            have h6 := (q2.inside k r e1 e2).2.1
            have h7 : 0 ≤ r.h := by
              have : sizes[k]? = some (r.w, r.h) := by rw [← q2.sizes, List.getElem?_map, e2]; rfl
              exact (hsz _ (List.mem_of_getElem? this)).2
            simp only [Rect.area, Root.area] at h6 ⊢
            simp only at m4
            omega
          · exact ⟨k, r.area, (hplaced _ _ _).2 ⟨r, e1, e2, e3, rfl⟩, by simp only [Rect.area]; omega⟩
        · rintro v ⟨k, a, h, rfl⟩
          obtain ⟨r, e1, e2, e3, rfl⟩ := (hplaced _ _ _).1 h
          have := m3 k r e1 e2 e3
          simp only [Rect.area]; omega
    · obtain ⟨k, hk⟩ := List.mem_iff_getElem?.1 hs
      exact q7 k ((hmem k).2 (List.getElem?_eq_some_iff.1 hk).1) s hk
  · refine ⟨false, st', q1, fun h => (by cases h), fun h => (by cases h), fun _ ⟨_, _, h3, h4⟩ => ?_⟩
    rcases q2 with h | ⟨k, _, s, hs, h⟩
    · rw [hperm.length_eq, List.length_range, hlen, List.length_nil] at h; omega
    · exact h (h3 s (List.mem_of_getElem? hs))

/-- C46: After addition of rectangles to a new packer, packing is without undefined behavior. When it succeeds, all rectangles are
placed inside the margins of the bins, they are sufficiently far apart, the limit on the number of bins is respected, and the reported
utilized sizes are exact. -/
theorem C46_valid (env : Env) (spacing margin width height : Int) (maxBins : Nat) (sizes : List (Int × Int))
    (hlo : env.lo ≤ 0) (hs : 0 ≤ spacing) (hm : 0 ≤ margin) (hw : width ≤ env.hi) (hh : height ≤ env.hi) (hw0 : env.lo ≤ width) (hh0 : env.lo ≤ height)
    (hsz : ∀ s ∈ sizes, 0 ≤ s.1 ∧ 0 ≤ s.2) :
    ∃ st ok st', addAll (make spacing margin) sizes = some st ∧ pack env st width height maxBins = some (ok, st') ∧
      (ok = true → Packed env spacing margin width height maxBins sizes st') := by
  obtain ⟨ok, st', h1, h2, _⟩ := pack_spec env spacing margin width height maxBins sizes _ hlo hs hm hw hh hw0 hh0 hsz (addAll_spec sizes _ hsz)
  exact ⟨_, ok, st', addAll_spec sizes _ hsz, h1, h2⟩

/-- C46: Two rectangles in the same bin do not overlap. -/
theorem C46_disjoint {env : Env} {spacing margin width height : Int} {maxBins : Nat} {sizes : List (Int × Int)} {st : State} (hs : 0 ≤ spacing)
    (h : Packed env spacing margin width height maxBins sizes st) {k l b : Nat} {a a' : Area} (hne : k ≠ l)
    (h1 : placed sizes st k = some (b, a)) (h2 : placed sizes st l = some (b, a')) (x y : Int) : ¬ (a.covers x y ∧ a'.covers x y) := by
  have := h.apart k l b a a' hne h1 h2
  unfold Area.apart Area.covers at *
  omega

/-- C46: Packing fails if a rectangle is too large for a bin. It succeeds if no rectangle is too large, and there are as many bins as
rectangles. -/
theorem C46_success (env : Env) (spacing margin width height : Int) (maxBins : Nat) (sizes : List (Int × Int)) (st : State)
    (hlo : env.lo ≤ 0) (hs : 0 ≤ spacing) (hm : 0 ≤ margin) (hw : width ≤ env.hi) (hh : height ≤ env.hi) (hw0 : env.lo ≤ width) (hh0 : env.lo ≤ height)
    (hsz : ∀ s ∈ sizes, 0 ≤ s.1 ∧ 0 ≤ s.2) (hst : addAll (make spacing margin) sizes = some st) :
    let fits := 2 * margin ≤ width ∧ 2 * margin ≤ height ∧ ∀ s ∈ sizes, s.1 ≤ width - 2 * margin ∧ s.2 ≤ height - 2 * margin
    (fits → sizes.length ≤ maxBins → ∃ st', pack env st width height maxBins = some (true, st')) ∧
    (¬ fits → ∃ st', pack env st width height maxBins = some (false, st')) := by
  obtain ⟨ok, st', h1, _, h3, h4⟩ := pack_spec env spacing margin width height maxBins sizes st hlo hs hm hw hh hw0 hh0 hsz hst
  refine ⟨fun hf hb => ?_, fun hf => ?_⟩
  · cases ok with
    | true => exact ⟨st', h1⟩
    | false => exact absurd ⟨hf.1, hf.2.1, hf.2.2, hb⟩ (h4 rfl)
  · cases ok with
    | true => exact absurd (h3 rfl) hf
    | false => exact ⟨st', h1⟩

/-- The type `int`. -/
def int32 : Env := ⟨-2147483648, 2147483647⟩

/-- Four rectangles in two bins. -/
def example1 : Option (Bool × State) := do pack int32 (← addAll (make 1 2) [(3, 4), (5, 5), (2, 2), (6, 6)]) 14 14 2

example : ∃ st, example1 = some (true, st) ∧ numBins st = 2 ∧
    rectPos st 0 = some (0, 9, 2) ∧ rectPos st 1 = some (1, 2, 2) ∧ rectPos st 2 = some (0, 2, 9) ∧ rectPos st 3 = some (0, 2, 2) ∧
    utilizedWidth int32 st 0 = some 14 ∧ utilizedHeight int32 st 0 = some 13 ∧ utilizedWidth int32 st 1 = some 9 := by
  refine ⟨(example1.get (by decide +kernel)).2, ?_⟩
  decide +kernel

/-- There are too few bins. -/
example : ∃ st, (do pack int32 (← addAll (make 1 2) [(3, 4), (5, 5), (2, 2), (6, 6)]) 14 14 1) = some (false, st) := by
  refine ⟨((do pack int32 (← addAll (make 1 2) [(3, 4), (5, 5), (2, 2), (6, 6)]) 14 14 1 : Option (Bool × State)).get (by decide +kernel)).2, ?_⟩
  decide +kernel

/-- Packing a second time fails an assertion unless the packer is reset, or there is nothing to be packed. -/
theorem C46_second_time : ∃ st st', addAll (make 0 0) [(1, 1)] = some st ∧ pack int32 st 10 10 1 = some (true, st') ∧
    pack int32 st' 10 10 1 = none :=
  ⟨(addAll (make 0 0) [(1, 1)]).get (by decide +kernel), ((do pack int32 (← addAll (make 0 0) [(1, 1)]) 10 10 1 : Option (Bool × State)).get (by decide +kernel)).2,
    by decide +kernel, by decide +kernel, by decide +kernel⟩

/-- C46: After a reset, everything is as for a new packer. -/
theorem C46_reset (st : State) : reset st = make st.spacing st.margin := rfl

end Verif.RectPacker
