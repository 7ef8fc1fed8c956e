import Verif.Trackball.Main

/-!
# Lemmas about spin of the virtual trackball
-/

namespace Verif.Trackball

open Verif.Rotation Verif.Rotation.Spec Spec

theorem follows_add {r q : Rot} (hr : UnitVec r.axis) (hq : UnitVec q.axis) : Follows (r + q) r q.axis q.angle :=
  fun p => rotate_rot_add hr hq p

theorem follows_zero {r o : Rot} {axis : Vec} (h : Follows o r axis 0) : SameOrientation o r := by
  intro p
  rw [h p, rotate_zero]

theorem same_refl (r : Rot) : SameOrientation r r := fun _ => rfl

theorem free_follows {s : Ball} (h : Ok s) {q r : Rot} (hq : s.spin = some q) (hr : s.baseOrientation = some r) (t : ℝ) :
    ∃ o, s.getFreeOrientation t = some o ∧ Follows o r q.axis (q.angle * (t - s.releaseTime)) := by
  unfold Ball.getFreeOrientation
  rw [hq]
  simp only
  split
  · rename_i h0
    refine ⟨r, hr, ?_⟩
    intro p
    rw [h0, zero_mul, rotate_zero]
  · rw [hr]
    refine ⟨_, rfl, ?_⟩
    have := follows_add (q := Rot.scale (t - s.releaseTime) q) (h.base r hr) (h.spin q hq)
    intro p
    rw [this p]
    unfold Rot.scale
    rw [mul_comm]

theorem free_none {s : Ball} (hr : s.baseOrientation = none) (t : ℝ) : s.getFreeOrientation t = none := by
  unfold Ball.getFreeOrientation
  rw [hr]
  split
  · rfl
  · split <;> rfl

theorem free_stop (s : Ball) (t : ℝ) : s.stop.getFreeOrientation t = s.baseOrientation := by
  unfold Ball.getFreeOrientation Ball.stop
  simp

/-- The oldest sample in memory, and the newest one. -/
theorem window {l : List Sample} {m : CurveMem} (h : MemOk l m) (hN : 0 < m.millisPerBarrier) (hl : l ≠ []) (ho : Ordered l) :
    (∃ s ∈ contents m.samples, (l.getLast hl).millis - m.millisPerBarrier < s.millis) ∧
    (∀ s, (contents m.samples).head? = some s → s = l.head hl ∨
      s.millis ≤ (l.getLast hl).millis - (m.millisPerBarrier * (m.samples.capacity - 2) + 1)) ∧
    ((l.getLast hl).millis < m.millisPerBarrier * (m.samples.capacity - 1) → (contents m.samples).head? = some (l.head hl)) := by
  have hne := h.nonempty hl
  have hlen := length_contents m.samples
  have h1 := h.last _ (List.getLast?_eq_some_getLast hne)
  have h2 := h.last' _ (List.getLast?_eq_some_getLast hl)
  have hpos : 0 < m.samples.size := by
    rw [← hlen]; exact List.length_pos_of_ne_nil hne
  have hlast : (contents m.samples).getLast hne = m.samples.get (m.samples.size - 1) := by
    rw [List.getLast_eq_getElem, getElem_contents]; congr 1; omega
  rw [hlast] at h1
  have hhead : (contents m.samples).head? = some (m.samples.get 0) := by
    rw [List.head?_eq_getElem?, List.getElem?_eq_getElem (by omega), getElem_contents]
  have hh : l.head? = some (l.head hl) := List.head?_eq_some_head hl
  have hbf := barrier_first h (m.samples.size - 1) (by omega)
  have h0 : 0 ≤ (m.samples.get 0).millis := by
    apply ho.2
    apply h.sub.subset
    rw [← getElem_contents m.samples 0 (by omega)]
    exact List.getElem_mem _
  have hmem : m.samples.get (m.samples.size - 1) ∈ contents m.samples := by rw [← hlast]; exact List.getLast_mem hne
  generalize m.samples.get (m.samples.size - 1) = y at *
  generalize m.samples.get 0 = x at *
  generalize hz : l.getLast hl = z at *
  generalize m.millisPerBarrier = N at *
  have hx1 := Int.mul_ediv_add_emod x.millis N
  have hx2 := Int.emod_lt_of_pos x.millis hN
  have hx3 := Int.ediv_nonneg h0 hN.le
  have hy1 := Int.mul_ediv_add_emod y.millis N
  have hy2 := Int.emod_nonneg y.millis hN.ne'
  have hz1 := Int.mul_ediv_add_emod z.millis N
  have hz2 := Int.emod_nonneg z.millis hN.ne'
  have hz3 := Int.emod_lt_of_pos z.millis hN
  have hfull : ¬ m.samples.size < m.samples.capacity → x.millis / N + m.samples.capacity - 1 ≤ z.millis / N := by
    intro hsz
    have h15 : m.samples.size = m.samples.capacity := by
      rcases h.ring.state with h3 | h3 <;> omega
    rw [← h15]
    omega
  refine ⟨⟨y, hmem, ?_⟩, ?_, ?_⟩
  · rw [← h1, h2] at hy1
    linarith
  · intro s hs
    rw [hhead] at hs
    cases hs
    by_cases hsz : m.samples.size < m.samples.capacity
    · left
      have := h.first hsz
      rw [hhead, hh] at this
      exact Option.some.inj this
    · right
      have h3 := mul_le_mul_of_nonneg_left (hfull hsz) hN.le
      generalize (m.samples.capacity : ℤ) = c at *
      have h4 : N * (x.millis / N + c - 1) = N * (x.millis / N) + N * (c - 2) + N := by ring
      linarith
  · intro hlt
    rw [← hh]
    apply h.first
    by_contra hsz
    have h3 := mul_le_mul_of_nonneg_left (hfull hsz) hN.le
    have h5 := mul_nonneg hN.le hx3
    generalize (m.samples.capacity : ℤ) = c at *
    have h4 : N * (x.millis / N + c - 1) = N * (x.millis / N) + N * (c - 1) := by ring
    linarith

theorem memOk_new {B M : ℕ} (hM : 2 ≤ M) : MemOk [] (CurveMem.new B M) :=
  ⟨⟨by show 0 < M; omega, Or.inl ⟨by show 0 < M; omega, rfl⟩⟩, List.Sublist.refl _, List.Pairwise.nil, fun h => absurd rfl h,
    (fun s hs => by cases hs), (fun s hs => by cases hs), fun _ => rfl, fun x hx => by cases hx⟩

theorem barrier_new {B M : ℕ} (hM : 2 ≤ M) (hB : 0 < B) :
    (B : ℤ) ≤ (CurveMem.new B M).millisPerBarrier * (M - 1) ∧ ((CurveMem.new B M).millisPerBarrier - 1) * (M - 1) < B ∧
    0 < (CurveMem.new B M).millisPerBarrier := by
  have e : (CurveMem.new B M).millisPerBarrier = ((if B % (M - 1) ≠ 0 then B / (M - 1) + 1 else B / (M - 1) : ℕ) : ℤ) := rfl
  obtain ⟨k, rfl⟩ : ∃ k, M = k + 2 := ⟨M - 2, by omega⟩
  have hk : k + 2 - 1 = k + 1 := by omega
  rw [e, hk]
  have h1 := Nat.div_add_mod B (k + 1)
  have h2 := Nat.mod_lt B (Nat.succ_pos k)
  push_cast
  have h1' : ((k : ℤ) + 1) * (B / (k + 1) : ℕ) + (B % (k + 1) : ℕ) = B := by exact_mod_cast h1
  have h2' : ((B % (k + 1) : ℕ) : ℤ) < k + 1 := by exact_mod_cast h2
  have h3' : (0 : ℤ) ≤ (B / (k + 1) : ℕ) := Int.natCast_nonneg _
  have h4' : (0 : ℤ) ≤ (B % (k + 1) : ℕ) := Int.natCast_nonneg _
  split
  · rename_i h
    have h5 : (0 : ℤ) < (B % (k + 1) : ℕ) := by exact_mod_cast Nat.pos_of_ne_zero h
    push_cast at *
    generalize ((B : ℤ) / (k + 1)) = d at *
    generalize ((B : ℤ) % (k + 1)) = r at *
    refine ⟨by nlinarith, by nlinarith, by linarith⟩
  · rename_i h
    have h5 : ((B % (k + 1) : ℕ) : ℤ) = 0 := by
      have := not_not.mp h
      exact_mod_cast this
    have h6 : (0 : ℤ) < B := by exact_mod_cast hB
    push_cast at *
    generalize ((B : ℤ) / (k + 1)) = d at *
    generalize ((B : ℤ) % (k + 1)) = r at *
    have h7 : 0 < d := by
      rcases h3'.lt_or_eq with h8 | h8
      · exact h8
      · subst h8; nlinarith
    refine ⟨by nlinarith, by nlinarith, h7⟩

/-- Interpolation at the time of the first sample. -/
theorem interpolates_head {c : List Sample} {v : Vec2} {s : Sample} (h : Interpolates c s.millis v) (hs : c.head? = some s)
    (hp : c.Pairwise fun a b => a.millis < b.millis) : v = s.value := by
  cases c with
  | nil => cases hs
  | cons a t =>
    simp only [List.head?_cons, Option.some.injEq] at hs
    subst hs
    have hp' := List.pairwise_cons.mp hp
    rcases h with ⟨s, h1, h2, h3⟩ | ⟨s, h1, h2, h3⟩ | ⟨pre, x, y, post, h1, h2, h3, -⟩
    · rcases List.mem_cons.mp h1 with e | e
      · rw [h3, e]
      · have := hp'.1 s e
        omega
    · simp only [List.head?_cons, Option.some.injEq] at h1
      subst h1
      omega
    · have hx : x ∈ a :: t := by rw [h1]; simp
      rcases List.mem_cons.mp hx with e | e
      · subst e; omega
      · have := hp'.1 x e
        omega

end Verif.Trackball
