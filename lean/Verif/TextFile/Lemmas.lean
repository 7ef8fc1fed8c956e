import Verif.TextFile.Spec

/-! # Primitive implementation, and buffered implementation -/

namespace Verif.TextFile

variable {α σ : Type} [Inhabited α]

theorem overwrite_nil (c : List α) (p : ℕ) : overwrite c p [] = c := by simp [overwrite]

theorem overwrite_append (c : List α) (p : ℕ) (a b : List α) :
    overwrite (overwrite c p a) (p + a.length) b = overwrite c p (a ++ b) := by
  by_cases ha : a = []
  · subst ha; simp [overwrite_nil]
  by_cases hb : b = []
  · subst hb; simp [overwrite_nil]
  have hP : ((c ++ List.replicate (p - c.length) default).take p).length = p := by simp; omega
  unfold overwrite
  rw [if_neg hb, if_neg ha, if_neg (by simp [ha])]
  generalize (c ++ List.replicate (p - c.length) default).take p = P at hP
  have h1 : (P ++ a ++ c.drop (p + a.length)).length ≥ p + a.length := by simp; omega
  have h2 : p + a.length - (P ++ a ++ c.drop (p + a.length)).length = 0 := by omega
  rw [h2, List.replicate_zero, List.append_nil]
  have h3 : (P ++ a ++ c.drop (p + a.length)).take (p + a.length) = P ++ a := by
    rw [List.take_append_of_le_length (by simp [hP])]
    exact List.take_of_length_le (by simp [hP])
  have h4 : (P ++ a ++ c.drop (p + a.length)).drop (p + a.length + b.length) = c.drop (p + (a ++ b).length) := by
    rw [← List.drop_drop, List.drop_left' (by simp [hP]), List.drop_drop]
    congr 1
    simp; omega
  rw [h3, h4]
  simp

/-! ## Files -/

theorem grant_spec (f : File α) (size : ℕ) : ∃ plan, (f.grant size).2 = { f with plan := plan } ∧
    ∀ n, (f.grant size).1 = some n → n ≤ size ∧ (0 < size → 0 < n) := by
  unfold File.grant
  split
  · rename_i h; exact ⟨[], by rw [← h], fun n e => by cases e; exact ⟨Nat.le_refl _, id⟩⟩
  · rename_i rest h; exact ⟨rest, rfl, fun n e => by cases e⟩
  · rename_i k rest h; exact ⟨rest, rfl, fun n e => by cases e; exact ⟨Nat.min_le_right _ _, fun h => by omega⟩⟩

theorem readSome_spec (f : File α) (size : ℕ) : ∃ r plan, f.readSome size = (r, { f with pos := f.pos + (r.getD []).length, plan := plan }) ∧
    ∀ l, r = some l → l <+: f.content.drop f.pos ∧ l.length ≤ size ∧ (l = [] → size = 0 ∨ f.content.length ≤ f.pos) := by
  unfold File.readSome
  split
  · obtain ⟨plan, h1, h2⟩ := grant_spec f size
    rcases hg : f.grant size with ⟨o, f'⟩
    rw [hg] at h1 h2
    simp only at h1 h2
    subst h1
    cases o with
    | none => exact ⟨none, plan, by simp, by simp⟩
    | some n =>
      refine ⟨some ((f.content.drop f.pos).take n), plan, by simp, ?_⟩
      intro l hl
      cases hl
      obtain ⟨h3, h4⟩ := h2 n rfl
      refine ⟨List.take_prefix _ _, by simp; omega, fun he => ?_⟩
      by_cases hs : size = 0
      · exact Or.inl hs
      · right
        have := h4 (by omega)
        have hl := congrArg List.length he
        simp at hl
        omega
  · exact ⟨none, f.plan, by simp, by simp⟩

theorem writeLoop_spec : ∀ (fuel done : ℕ) (f : File α) (data : List α), data.length < fuel →
    ∃ b n plan, f.writeLoop fuel done data =
      some (b, done + n, { f with content := overwrite f.content f.pos (data.take n), pos := f.pos + n, plan := plan }) ∧
      (b = true → n = data.length) ∧ (b = false → n < data.length ∨ data = [] ∧ n = 0) := by
  intro fuel
  induction fuel with
  | zero => intro done f data h; omega
  | succ k ih =>
    intro done f data hk
    unfold File.writeLoop File.writeSome
    by_cases hw : f.writable = true
    · rw [if_pos hw]
      obtain ⟨plan, h1, h2⟩ := grant_spec f data.length
      rcases hg : f.grant data.length with ⟨o, f'⟩
      rw [hg] at h1 h2
      simp only at h1 h2
      subst h1
      cases o with
      | none =>
        refine ⟨false, 0, plan, by simp [overwrite_nil], by simp, fun _ => ?_⟩
        rcases Nat.eq_zero_or_pos data.length with h0 | h0
        · exact Or.inr ⟨List.length_eq_zero_iff.1 h0, rfl⟩
        · exact Or.inl h0
      | some n =>
        obtain ⟨h3, h4⟩ := h2 n rfl
        simp only
        by_cases hn : n < data.length
        · rw [if_pos hn]
          have hpos := h4 (by omega)
          obtain ⟨b, m, plan', e, h5, h6⟩ := ih (done + n)
            { f with content := overwrite f.content f.pos (data.take n), pos := f.pos + n, plan := plan } (data.drop n) (by simp; omega)
          refine ⟨b, n + m, plan', ?_, fun hb => ?_, fun hb => ?_⟩
          · rw [e]
            simp only [Option.some.injEq, Prod.mk.injEq, true_and]
            refine ⟨by omega, ?_⟩
            have hl : (data.take n).length = n := by simp; omega
            have := overwrite_append f.content f.pos (data.take n) ((data.drop n).take m)
            rw [hl] at this
            rw [this, List.take_add]
            simp [Nat.add_assoc]
          · have := h5 hb; simp at this; omega
          · rcases h6 hb with h | ⟨h, _⟩
            · simp at h; left; omega
            · have := congrArg List.length h; simp at this; omega
        · rw [if_neg hn]
          have hn' : n = data.length := by omega
          subst hn'
          exact ⟨true, data.length, plan, rfl, fun _ => rfl, by simp⟩
    · rw [if_neg hw]
      refine ⟨false, 0, f.plan, by simp [overwrite_nil], by simp, fun _ => ?_⟩
      rcases Nat.eq_zero_or_pos data.length with h0 | h0
      · exact Or.inr ⟨List.length_eq_zero_iff.1 h0, rfl⟩
      · exact Or.inl h0

theorem file_write_spec (f : File α) (data : List α) : ∃ b n plan, f.write data =
      some (b, n, { f with content := overwrite f.content f.pos (data.take n), pos := f.pos + n, plan := plan }) ∧
      (b = true → n = data.length) ∧ (b = false → n < data.length ∨ data = [] ∧ n = 0) := by
  have := writeLoop_spec (data.length + 1) 0 f data (by omega)
  simpa [File.write] using this

theorem seekBack_spec (f : File α) (n : ℕ) (hn : n ≤ f.pos) : ∃ r plan, f.seekBack n =
    (r, { f with pos := if r.isSome then f.pos - n else f.pos, plan := plan }) ∧ ∀ p, r = some p → p = f.pos - n := by
  unfold File.seekBack
  obtain ⟨plan, h1, _⟩ := grant_spec f 0
  rcases hg : f.grant 0 with ⟨o, f'⟩
  rw [hg] at h1
  simp only at h1
  subst h1
  cases o with
  | none => exact ⟨none, plan, by simp, by simp⟩
  | some m =>
    refine ⟨some (f.pos - n), plan, ?_, by simp⟩
    simp only
    rw [if_pos hn]
    simp

theorem seekSet_spec (f : File α) (pos : ℕ) : ∃ b plan, f.seekSet pos = (b, { f with pos := if b then pos else f.pos, plan := plan }) := by
  unfold File.seekSet
  obtain ⟨plan, h1, _⟩ := grant_spec f 0
  rcases hg : f.grant 0 with ⟨o, f'⟩
  rw [hg] at h1
  simp only at h1
  subst h1
  cases o with
  | none => exact ⟨false, plan, by simp⟩
  | some m => exact ⟨true, plan, by simp⟩

/-! ## Primitive implementation -/

/-- The mode according to the flags. -/
def modeOf (reading writing : Bool) : Mode := if writing then .writing else if reading then .reading else .neutral

theorem modeOf_writing (r w : Bool) : modeOf r w = .writing ↔ w = true := by cases r <;> cases w <;> simp [modeOf]
theorem modeOf_reading (r w : Bool) (h : ¬ (r = true ∧ w = true)) : modeOf r w = .reading ↔ r = true := by
  cases r <;> cases w <;> simp_all [modeOf]

/-- What the primitive implementation looks like from the outside. -/
def Prim.view (s : Prim α) : View α := ⟨s.file.content, s.file.pos - s.retain, s.retain, modeOf s.reading s.writing⟩

/-- The invariant of the primitive implementation. -/
structure Prim.Ok (s : Prim α) : Prop where
  excl : ¬ (s.reading = true ∧ s.writing = true)
  retain : s.retain ≤ s.file.pos
  neutral : s.reading = false → s.retain = 0

theorem not_writing {r w : Bool} (h : modeOf r w ≠ .writing) : w = false := by
  cases w
  · rfl
  · exact absurd ((modeOf_writing r true).2 rfl) h

theorem not_reading {r w : Bool} (he : ¬ (r = true ∧ w = true)) (h : modeOf r w ≠ .reading) : r = false := by
  cases r
  · rfl
  · exact absurd ((modeOf_reading true w he).2 rfl) h

theorem prim_conforms : Conforms (prim : Impl α (Prim α)) Prim.view (fun s => s.file.content) Prim.Ok where
  ahead s h hm := h.neutral (not_reading h.excl hm)
  disk s h hm := rfl
  write s n₀ data h hm := by
    rcases s with ⟨f, retain, reading, writing⟩
    obtain rfl : reading = false := not_reading h.excl hm
    obtain rfl : retain = 0 := h.neutral rfl
    obtain ⟨b, n, plan, e, h1, h2⟩ := file_write_spec f data
    refine ⟨b, n, ⟨{ f with content := overwrite f.content f.pos (data.take n), pos := f.pos + n, plan := plan }, 0, false, true⟩, ?_,
      ⟨by simp, by simp, fun _ => rfl⟩, ?_, h1, h2⟩
    · simp [prim, Prim.write, e]
    · simp [Prim.view, modeOf]
  flush s h hm := by
    rcases s with ⟨f, retain, reading, writing⟩
    obtain rfl : writing = true := (modeOf_writing _ _).1 hm
    obtain rfl : reading = false := by
      cases reading
      · rfl
      · exact absurd ⟨rfl, rfl⟩ h.excl
    obtain rfl : retain = 0 := h.neutral rfl
    exact ⟨true, ⟨f, 0, false, false⟩, by simp [prim, Prim.flush], ⟨by simp, by simp, fun _ => rfl⟩, by simp [Prim.view, modeOf]⟩
  tellWrite s h hm := by
    rcases s with ⟨f, retain, reading, writing⟩
    obtain rfl : reading = false := not_reading h.excl hm
    obtain rfl : retain = 0 := h.neutral rfl
    obtain ⟨r, plan, e, h1⟩ := seekBack_spec f 0 (Nat.zero_le _)
    refine ⟨r, ⟨{ f with plan := plan }, 0, false, writing⟩, ?_, ⟨by simp, by simp, fun _ => rfl⟩, by simp [Prim.view], ?_⟩
    · simp [prim, Prim.tellWrite, e]
    · intro p hp; simpa [Prim.view] using h1 p hp
  reopen s file h := ⟨⟨by simp [prim, Prim.reopen], Nat.zero_le _, fun _ => rfl⟩, by simp [prim, Prim.reopen, Prim.view, modeOf]⟩
  readAhead s size h hm := by
    rcases s with ⟨f, retain, reading, writing⟩
    obtain rfl : writing = false := not_writing hm
    have hre : retain ≤ f.pos := h.retain
    obtain ⟨r, plan, e, h1⟩ := readSome_spec f size
    refine ⟨r, ⟨{ f with pos := f.pos + (r.getD []).length, plan := plan }, retain + (r.getD []).length, true, false⟩, ?_,
      ⟨by simp, by simp; omega, by simp⟩, ?_, ?_⟩
    · cases r <;> simp [prim, Prim.readAhead, e]
    · simp only [Prim.view, modeOf]
      congr 1
      omega
    · intro l hl
      simp only [Prim.view, Nat.sub_add_cancel hre]
      exact h1 l hl
  advance s n h hm hn := by
    rcases s with ⟨f, retain, reading, writing⟩
    obtain rfl : writing = false := not_writing hm
    have hre : retain ≤ f.pos := h.retain
    have hn : n ≤ retain := hn
    refine ⟨⟨f, retain - n, reading, false⟩, by simp [prim, Prim.advance, hn], ⟨by simp, by simp; omega, fun hr => ?_⟩, ?_⟩
    · have : retain = 0 := h.neutral hr
      simp [this]
    · simp only [Prim.view]
      congr 1
      omega
  advanceAll s h hm := by
    rcases s with ⟨f, retain, reading, writing⟩
    obtain rfl : writing = false := not_writing hm
    have hre : retain ≤ f.pos := h.retain
    refine ⟨⟨f, 0, reading, false⟩, by simp [prim, Prim.advanceAll], ⟨by simp, by simp, fun hr => rfl⟩, ?_⟩
    simp only [Prim.view]
    congr 1
    omega
  discard s h hm := by
    rcases s with ⟨f, retain, reading, writing⟩
    obtain rfl : writing = false := not_writing hm
    have hre : retain ≤ f.pos := h.retain
    by_cases h0 : retain > 0
    · obtain ⟨r, plan, e, h1⟩ := seekBack_spec f retain hre
      cases r with
      | none =>
        refine ⟨false, ⟨{ f with plan := plan }, retain, reading, false⟩, ?_, ⟨by simp, hre, h.neutral⟩, by simp [Prim.view]⟩
        simp only [prim, Prim.discard, if_pos h0, e]
        simp
      | some p =>
        refine ⟨true, ⟨{ f with pos := f.pos - retain, plan := plan }, 0, false, false⟩, ?_, ⟨by simp, by simp, fun _ => rfl⟩,
          by simp [Prim.view, modeOf]⟩
        simp only [prim, Prim.discard, if_pos h0, e]
        simp
    · obtain rfl : retain = 0 := by omega
      exact ⟨true, ⟨f, 0, false, false⟩, by simp [prim, Prim.discard], ⟨by simp, by simp, fun _ => rfl⟩, by simp [Prim.view, modeOf]⟩
  tellRead s h hm := by
    rcases s with ⟨f, retain, reading, writing⟩
    obtain rfl : writing = false := not_writing hm
    have hre : retain ≤ f.pos := h.retain
    obtain ⟨r, plan, e, h1⟩ := seekBack_spec f 0 (Nat.zero_le _)
    cases r with
    | none =>
      refine ⟨none, ⟨{ f with plan := plan }, retain, reading, false⟩, ?_, ⟨by simp, hre, h.neutral⟩, by simp [Prim.view], by simp⟩
      simp [prim, Prim.tellRead, e]
    | some p =>
      have hp := h1 p rfl
      refine ⟨some (f.pos - retain), ⟨{ f with plan := plan }, retain, reading, false⟩, ?_, ⟨by simp, hre, h.neutral⟩, by simp [Prim.view],
        by simp [Prim.view]⟩
      have hp' : p = f.pos := by simpa using hp
      subst hp'
      simp [prim, Prim.tellRead, e, hre]
  seek s pos h hm := by
    rcases s with ⟨f, retain, reading, writing⟩
    obtain rfl : writing = false := not_writing hm
    have hre : retain ≤ f.pos := h.retain
    obtain ⟨b, plan, e⟩ := seekSet_spec f pos
    cases b with
    | false =>
      exact ⟨false, ⟨{ f with plan := plan }, retain, reading, false⟩, by simp [prim, Prim.seek, e], ⟨by simp, hre, h.neutral⟩,
        by simp [Prim.view]⟩
    | true =>
      exact ⟨true, ⟨{ f with pos := pos, plan := plan }, 0, false, false⟩, by simp [prim, Prim.seek, e], ⟨by simp, by simp, fun _ => rfl⟩,
        by simp [Prim.view, modeOf]⟩

end Verif.TextFile
