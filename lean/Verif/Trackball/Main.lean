import Verif.Trackball.Memory
import Verif.Rotation.Main

/-!
# Lemmas about the virtual trackball
-/

namespace Verif.Trackball

open Verif.Rotation Verif.Rotation.Spec Spec

/-! ### Points and rotations -/

theorem getBallPoint_unit {s : Ball} {pos : Vec2} {v : Vec} (h : s.getBallPoint pos = some v) : UnitVec v ∧ 0 ≤ v.z := by
  unfold Ball.getBallPoint at h
  split at h
  · cases h
  · simp only at h
    generalize (pos.x - s.halfViewportSize.x) / s.horzRadius = x at h
    generalize (s.halfViewportSize.y - pos.y) / s.vertRadius = y at h
    split at h
    · rename_i h1
      cases h
      have h2 : 0 < √(x ^ 2 + y ^ 2) := Real.sqrt_pos.mpr (by linarith)
      have h3 : √(x ^ 2 + y ^ 2) ^ 2 = x ^ 2 + y ^ 2 := Real.sq_sqrt (by linarith)
      constructor
      · unfold UnitVec dot
        simp only [sub_self, Real.sqrt_zero]
        field_simp
        rw [h3]; ring
      · simp
    · rename_i h1
      cases h
      have h3 : √(1 - (x ^ 2 + y ^ 2)) ^ 2 = 1 - (x ^ 2 + y ^ 2) := Real.sq_sqrt (by linarith)
      constructor
      · unfold UnitVec dot
        simp only
        linear_combination h3
      · exact Real.sqrt_nonneg _

theorem sqSum_cross (a b : Vec) : (cross a b).sqSum = dot a a * dot b b - dot a b ^ 2 := by
  simp only [Vec.sqSum, dot, cross_x, cross_y, cross_z]; ring

theorem unit_default : UnitVec ({} : Rot).axis := by simp [UnitVec, dot]

theorem calcRotation_unit (a b : Option Vec) : UnitVec (calcRotation a b).axis := by
  unfold calcRotation
  split
  · simp only
    split
    · rename_i h
      have h0 : 0 < (cross _ _).sqSum := lt_of_le_of_ne (Vec.sqSum_nonneg _) (Ne.symm h.1)
      have h1 := Real.sqrt_pos.mpr h0
      have h2 := Real.sq_sqrt h0.le
      generalize cross _ _ = c at *
      unfold UnitVec dot
      simp only [div_x, div_y, div_z]
      field_simp
      rw [h2]
      unfold Vec.sqSum
      ring
    · exact unit_default
  · exact unit_default

theorem calcRotation_self (a : Option Vec) : calcRotation a a = {} := by
  cases a with
  | none => rfl
  | some a =>
    simp only [calcRotation]
    rw [if_neg]
    rintro ⟨h3, -⟩
    apply h3
    rw [sqSum_cross]; ring

theorem eq_of_dot {a b : Vec} (ha : UnitVec a) (hb : UnitVec b) (h : dot a b = 1) : a = b := by
  unfold UnitVec at ha hb
  have : (a - b).sqSum = 0 := by
    simp only [Vec.sqSum, sub_x, sub_y, sub_z]
    unfold dot at ha hb h
    linear_combination ha + hb - 2 * h
  have h2 := Vec.sqSum_eq_zero.mp this
  have hx := congrArg Vec.x h2
  have hy := congrArg Vec.y h2
  have hz := congrArg Vec.z h2
  simp only [sub_x, sub_y, sub_z] at hx hy hz
  ext <;> linarith

theorem eq_neg_of_dot {a b : Vec} (ha : UnitVec a) (hb : UnitVec b) (h : dot a b = -1) : a = -b := by
  apply eq_of_dot ha
  · unfold UnitVec dot at hb ⊢
    simp only [neg_x, neg_y, neg_z]; linarith
  · unfold dot at h ⊢
    simp only [neg_x, neg_y, neg_z]; linarith

/-- Rotation of one point to another. -/
theorem calcRotation_takesTo {a b : Vec} (ha : UnitVec a) (hb : UnitVec b) (h : a ≠ -b) :
    TakesTo (calcRotation (some a) (some b)).axis (calcRotation (some a) (some b)).angle a b := by
  refine ⟨calcRotation_unit _ _, ?_⟩
  have ha' : dot a a = 1 := ha
  have hb' : dot b b = 1 := hb
  have hc := sqSum_cross a b
  rw [ha', hb'] at hc
  have h0 := (cross a b).sqSum_nonneg
  have hd : dot a b ≤ 1 := by nlinarith
  have hd2 : -1 ≤ dot a b := by nlinarith
  have hpi := Real.pi_pos
  simp only [calcRotation]
  split
  · rename_i h1
    have h2 : 0 < (cross a b).sqSum := lt_of_le_of_ne h0 (Ne.symm h1.1)
    have h3 : 0 < √(cross a b).sqSum := Real.sqrt_pos.mpr h2
    have h4 : Real.sin (Real.arccos (dot a b)) = √(cross a b).sqSum := by
      rw [Real.sin_arccos, hc]; congr 1; ring
    refine ⟨Real.arccos_nonneg _, Real.arccos_le_pi _, ?_, ?_⟩
    · unfold rotate
      simp only
      rw [h4, Real.cos_arccos hd2 hd]
      have h5 : dot ((cross a b).div √(cross a b).sqSum) a = 0 := by
        simp only [dot, div_x, div_y, div_z, cross_x, cross_y, cross_z]
        field_simp
        ring
      rw [h5]
      generalize √(cross a b).sqSum = q at *
      unfold dot at ha'
      ext
      · simp only [add_x, scale_x, cross_x, cross_y, cross_z, div_x, div_y, div_z, dot]
        field_simp
        linear_combination (q * b.x) * ha'
      · simp only [add_y, scale_y, cross_x, cross_y, cross_z, div_x, div_y, div_z, dot]
        field_simp
        linear_combination (q * b.y) * ha'
      · simp only [add_z, scale_z, cross_x, cross_y, cross_z, div_x, div_y, div_z, dot]
        field_simp
        linear_combination (q * b.z) * ha'
    · intro _
      constructor <;>
      · simp only [dot, div_x, div_y, div_z, cross_x, cross_y, cross_z]
        field_simp
        ring
  · rename_i h1
    have h2 : (cross a b).sqSum = 0 := by
      by_contra e
      exact h1 ⟨e, hd⟩
    have h3 : dot a b = 1 := by
      rw [h2] at hc
      have h4 : (dot a b - 1) * (dot a b + 1) = 0 := by linarith
      rcases mul_eq_zero.mp h4 with h5 | h5
      · linarith
      · exact absurd (eq_neg_of_dot ha hb (by linarith)) h
    refine ⟨le_rfl, hpi.le, ?_, fun h4 => absurd rfl h4⟩
    rw [rotate_zero, eq_of_dot ha hb h3]

/-- Nothing happens if the points are opposite. -/
theorem calcRotation_opposite (b : Vec) : calcRotation (some (-b)) (some b) = {} := by
  simp only [calcRotation]
  rw [if_neg]
  rintro ⟨h, -⟩
  apply h
  simp only [Vec.sqSum, cross_x, cross_y, cross_z, neg_x, neg_y, neg_z]
  ring

/-! ### Invariants -/

/-- What holds in all states. -/
structure Ok (s : Ball) : Prop where
  base : ∀ r, s.baseOrientation = some r → UnitVec r.axis
  spin : ∀ r, s.spin = some r → UnitVec r.axis
  ring : RingOk s.curveMem.samples
  cap : s.curveMem.samples.capacity = 16
  barrier : s.curveMem.millisPerBarrier = 7

theorem add_unit (a b : Rot) : UnitVec (a + b).axis := toAxisAngle_unit _

theorem ok_free {s : Ball} (h : Ok s) (t : ℝ) : ∀ r, s.getFreeOrientation t = some r → UnitVec r.axis := by
  intro r hr
  unfold Ball.getFreeOrientation at hr
  split at hr
  · cases hr
  · split at hr
    · exact h.base r hr
    · rw [Option.map_eq_some_iff] at hr
      obtain ⟨b, -, rfl⟩ := hr
      exact add_unit _ _

theorem ok_orientation {s : Ball} (h : Ok s) (t : ℝ) : ∀ r, s.getOrientation t = some r → UnitVec r.axis := by
  intro r hr
  unfold Ball.getOrientation at hr
  split at hr
  · unfold Ball.getTrackOrientation at hr
    split at hr
    · exact h.base r hr
    · rw [Option.map_eq_some_iff] at hr
      obtain ⟨b, -, rfl⟩ := hr
      exact add_unit _ _
  · exact ok_free h t r hr

theorem ok_stop {s : Ball} (h : Ok s) : Ok s.stop := by
  refine ⟨h.base, ?_, h.ring, h.cap, h.barrier⟩
  intro r hr
  unfold Ball.stop at hr
  simp only [Option.some.injEq] at hr
  subst hr
  cases hs : s.spin with
  | none => exact unit_default
  | some q => exact h.spin q hs

theorem addValue_ring {m : CurveMem} (h : RingOk m.samples) (v : Vec2) (t : ℤ) :
    ∃ m', m.addValue v t = some m' ∧ RingOk m'.samples ∧ m'.samples.capacity = m.samples.capacity ∧ m'.millisPerBarrier = m.millisPerBarrier := by
  unfold CurveMem.addValue
  simp only
  split
  · obtain ⟨r, h1, h2, h3, -⟩ := pushBack_spec h ⟨v, t⟩
    rw [h1]
    exact ⟨_, rfl, h2, h3, rfl⟩
  · exact ⟨m, rfl, h, rfl, rfl⟩

theorem track_some {s : Ball} (h : Ok s) (x y t : ℤ) : ∃ s', s.track x y t = some s' ∧ Ok s' := by
  unfold Ball.track
  split
  · exact ⟨s, rfl, h⟩
  · simp only
    split
    · simp only
      obtain ⟨m, h1, h2, h3, h4⟩ := addValue_ring (m := s.curveMem.clear) (clear_ok h.ring).1 ⟨x, y⟩ 0
      rw [h1]
      exact ⟨_, rfl, h.base, h.spin, h2, h3.trans h.cap, h4.trans h.barrier⟩
    · simp only
      obtain ⟨m, h1, h2, h3, h4⟩ := addValue_ring (m := s.curveMem) h.ring ⟨x, y⟩ (t - s.firstTrackTime)
      rw [h1]
      exact ⟨_, rfl, h.base, h.spin, h2, h3.trans h.cap, h4.trans h.barrier⟩

theorem ok_of_reach {s : Ball} (h : Reach s) : Ok s := by
  induction h with
  | new g =>
    refine ⟨?_, ?_, ⟨Nat.succ_pos 15, Or.inl ⟨Nat.succ_pos 15, rfl⟩⟩, rfl, ?_⟩
    · intro r hr
      cases hr
      exact unit_default
    · intro r hr
      cases hr
      exact unit_default
    · simp [Ball.new, CurveMem.new, millisBack, maxSamples]
  | setViewportSize w h' _ ih => exact ⟨ih.base, ih.spin, ih.ring, ih.cap, ih.barrier⟩
  | setPixelAspectRatio r _ ih => exact ⟨ih.base, ih.spin, ih.ring, ih.cap, ih.barrier⟩
  | acquire now _ ih =>
    unfold Ball.acquire
    split
    · exact ih
    · exact ⟨ok_free ih now, ih.spin, ih.ring, ih.cap, ih.barrier⟩
  | track x y t _ h1 ih =>
    obtain ⟨s2, h2, h3⟩ := track_some ih x y t
    rw [h1] at h2
    cases h2
    exact h3
  | @release s now _ ih =>
    unfold Ball.release
    split
    · exact ih
    · simp only
      split
      · apply ok_stop
        exact ⟨ih.base, ih.spin, ih.ring, ih.cap, ih.barrier⟩
      · have hb : ∀ (c : Rot) r, s.baseOrientation.map (fun base => base + c) = some r → UnitVec r.axis := by
          intro c r hr
          rw [Option.map_eq_some_iff] at hr
          obtain ⟨b, -, rfl⟩ := hr
          exact add_unit _ _
        split
        · apply ok_stop
          exact ⟨hb _, ih.spin, ih.ring, ih.cap, ih.barrier⟩
        · refine ⟨hb _, ?_, ih.ring, ih.cap, ih.barrier⟩
          intro r hr
          simp only at hr
          split_ifs at hr
          · cases hr; exact calcRotation_unit _ _
          · cases hr; exact calcRotation_unit _ _
  | @setOrientation s r hr _ ih =>
    have : Ok { s with baseOrientation := some r } := ⟨fun q hq => by cases hq; exact hr, ih.spin, ih.ring, ih.cap, ih.barrier⟩
    have := ok_stop this
    exact ⟨this.base, this.spin, this.ring, this.cap, this.barrier⟩
  | setSpin now hr _ ih => exact ⟨ok_orientation ih now, fun q hq => by cases hq; exact hr, ih.ring, ih.cap, ih.barrier⟩

/-! ### Tracking -/

theorem track_next {s : Ball} (ha : s.acquired = true) (hn : s.noTrackYet = false) {l : List Sample} (h : MemOk l s.curveMem)
    (hN : 0 < s.curveMem.millisPerBarrier) (e : Event) (ho : Ordered (l ++ [⟨e.pos, e.time - s.firstTrackTime⟩])) :
    ∃ m, s.track e.x e.y e.time = some { s with trackPos := e.pos, trackMillis := e.time - s.firstTrackTime, curveMem := m } ∧
      MemOk (l ++ [⟨e.pos, e.time - s.firstTrackTime⟩]) m ∧ m.millisPerBarrier = s.curveMem.millisPerBarrier ∧
      m.samples.capacity = s.curveMem.samples.capacity := by
  obtain ⟨m, h1, h2, h3, h4⟩ := addValue_ok h hN ⟨e.pos, e.time - s.firstTrackTime⟩ ho
  refine ⟨m, ?_, h2, h3, h4⟩
  unfold Ball.track
  simp only [ha, hn, Bool.not_true, Bool.false_eq_true, if_false]
  have e1 : (⟨(e.x : ℝ), (e.y : ℝ)⟩ : Vec2) = e.pos := rfl
  simp only [e1]
  simp only at h1
  rw [h1]
  rfl

theorem track_rest {s : Ball} (ha : s.acquired = true) (hn : s.noTrackYet = false) {l : List Sample} (h : MemOk l s.curveMem)
    (hN : 0 < s.curveMem.millisPerBarrier) (es : List Event) (ho : Ordered (l ++ es.map fun x => ⟨x.pos, x.time - s.firstTrackTime⟩)) :
    ∃ m, trackAll s es = some { s with
        trackPos := (es.getLast?.map Event.pos).getD s.trackPos
        trackMillis := (es.getLast?.map fun e => e.time - s.firstTrackTime).getD s.trackMillis
        curveMem := m } ∧
      MemOk (l ++ es.map fun x => ⟨x.pos, x.time - s.firstTrackTime⟩) m ∧ m.millisPerBarrier = s.curveMem.millisPerBarrier ∧
      m.samples.capacity = s.curveMem.samples.capacity := by
  induction es generalizing s l with
  | nil => exact ⟨s.curveMem, rfl, by simpa using h, rfl, rfl⟩
  | cons e es ih =>
    have e0 : l ++ List.map (fun x : Event => (⟨x.pos, x.time - s.firstTrackTime⟩ : Sample)) (e :: es) =
        (l ++ [⟨e.pos, e.time - s.firstTrackTime⟩]) ++ es.map fun x => ⟨x.pos, x.time - s.firstTrackTime⟩ := by simp
    rw [e0] at ho ⊢
    have ho1 : Ordered (l ++ [⟨e.pos, e.time - s.firstTrackTime⟩]) :=
      ⟨(List.pairwise_append.mp ho.1).1, fun a ha => ho.2 a (List.mem_append_left _ ha)⟩
    obtain ⟨m1, h1, h2, h3, h4⟩ := track_next ha hn h hN e ho1
    obtain ⟨m2, h5, h6, h7, h8⟩ := ih (s := { s with trackPos := e.pos, trackMillis := e.time - s.firstTrackTime, curveMem := m1 }) ha hn h2
      (by simp only; rw [h3]; exact hN) ho
    refine ⟨m2, ?_, h6, h7.trans h3, h8.trans h4⟩
    unfold trackAll
    rw [List.foldlM_cons, h1]
    refine (h5.trans ?_)
    cases es with
    | nil => rfl
    | cons a es =>
      have : (e :: a :: es).getLast? = (a :: es).getLast? := rfl
      rw [this]
      rw [List.getLast?_eq_some_getLast (List.cons_ne_nil _ _)]
      rfl

theorem ordered_samplesOf {e : Event} {es : List Event} (h : InOrder (e :: es)) : Ordered (samplesOf e (e :: es)) := by
  unfold Ordered samplesOf
  constructor
  · rw [List.pairwise_map]
    refine h.imp ?_
    intro a b hab
    simp only; omega
  · intro s hs
    rw [List.mem_map] at hs
    obtain ⟨x, hx, rfl⟩ := hs
    simp only
    rcases List.mem_cons.mp hx with e1 | e1
    · subst e1; simp
    · have := (List.pairwise_cons.mp h).1 x e1
      omega

/-- The state after acquiring the ball and tracking the mouse. -/
theorem trackAll_spec {s : Ball} (hs : Ok s) (ha : s.acquired = false) (now : ℝ) (e : Event) (es : List Event) (ho : InOrder (e :: es)) :
    ∃ m, trackAll (s.acquire now) (e :: es) = some { s with
        baseOrientation := s.getFreeOrientation now
        acquired := true
        noTrackYet := false
        firstTrackTime := e.time
        firstTrackPos := e.pos
        firstTrackPoint := s.getBallPoint e.pos
        trackPos := ((e :: es).getLast (List.cons_ne_nil _ _)).pos
        trackMillis := ((e :: es).getLast (List.cons_ne_nil _ _)).time - e.time
        curveMem := m } ∧
      MemOk (samplesOf e (e :: es)) m ∧ m.millisPerBarrier = 7 ∧ m.samples.capacity = 16 := by
  have hoS := ordered_samplesOf ho
  have e0 : samplesOf e (e :: es) = [] ++ [⟨e.pos, 0⟩] ++ es.map fun x => ⟨x.pos, x.time - e.time⟩ := by
    simp [samplesOf]
  rw [e0] at hoS ⊢
  have ho1 : Ordered ([] ++ [(⟨e.pos, 0⟩ : Sample)]) := ⟨(List.pairwise_append.mp hoS.1).1, fun a ha => hoS.2 a (List.mem_append_left _ ha)⟩
  have hb : (s.curveMem.clear).millisPerBarrier = 7 := hs.barrier
  obtain ⟨m1, h1, h2, h3, h4⟩ := addValue_ok (memOk_clear hs.ring) (by rw [hb]; decide) ⟨e.pos, 0⟩ ho1
  have hfirst : (s.acquire now).track e.x e.y e.time = some { s with
      baseOrientation := s.getFreeOrientation now
      acquired := true
      noTrackYet := false
      firstTrackTime := e.time
      firstTrackPos := e.pos
      firstTrackPoint := s.getBallPoint e.pos
      trackPos := e.pos
      trackMillis := 0
      curveMem := m1 } := by
    have e2 : s.acquire now = { s with baseOrientation := s.getFreeOrientation now, acquired := true, noTrackYet := true } := by
      unfold Ball.acquire; rw [ha]; rfl
    rw [e2]
    unfold Ball.track
    simp only [Bool.not_true, Bool.false_eq_true, if_false, if_true]
    have e1 : (⟨(e.x : ℝ), (e.y : ℝ)⟩ : Vec2) = e.pos := rfl
    simp only [e1]
    simp only at h1
    rw [h1]
    rfl
  obtain ⟨m2, h5, h6, h7, h8⟩ := track_rest (s := { s with
      baseOrientation := s.getFreeOrientation now
      acquired := true
      noTrackYet := false
      firstTrackTime := e.time
      firstTrackPos := e.pos
      firstTrackPoint := s.getBallPoint e.pos
      trackPos := e.pos
      trackMillis := 0
      curveMem := m1 }) rfl rfl h2 (by simp only; rw [h3, hb]; decide) es hoS
  refine ⟨m2, ?_, h6, h7.trans (h3.trans hb), h8.trans (h4.trans hs.cap)⟩
  unfold trackAll
  rw [List.foldlM_cons, hfirst]
  refine h5.trans ?_
  cases es with
  | nil => simp
  | cons a es =>
    rw [List.getLast?_eq_some_getLast (List.cons_ne_nil _ _)]
    rfl

end Verif.Trackball
