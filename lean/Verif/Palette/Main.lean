import Verif.Palette.Lemmas
/-!
The state of the palette caches.
-/
namespace Verif.Palette
open Verif.Integer Verif.ImageIter Verif.ImageReader Verif.ColorSlot Verif.PixelBox.Spec Spec

variable {α φ β : Type}

theorem premultiply_eq (s : Scheme α φ) {color : List α} (h : 0 < color.length) : premultiply s color = some (s.toFloat true color) := by
  unfold premultiply Scheme.toFloat
  cases hf : s.isFloat with
  | true => simp
  | false =>
    have e : color.getLast? = color[color.length - 1]? := List.getLast?_eq_getElem?
    have e' : color[color.length - 1]? = some color[color.length - 1] := List.getElem?_eq_getElem (by omega)
    rw [e, e']
    simp only [Option.bind_eq_bind]
    rw [e', Option.bind_some]
    simp [List.dropLast_eq_take]

/-- The loop of the conversion. -/
theorem convertLoop_ok (s : Scheme α φ) {k : Nat} (hk : 0 < k) {source : Mem α} {l : List (List α)} (hs : Filled k source l) :
    ∀ (n i : Nat) (m : Mem φ), i + n = l.length → (∀ a : Int, 0 ≤ a → a < (l.length * k : Nat) → m a ≠ none) →
      (∀ (j c : Nat) (p : List α), j < i → l[j]? = some p → c < k → m (j * k + c : Nat) = some (s.toFloat true p)[c]?) →
      ∃ m', convertLoop s k source n i m = some m' ∧ Filled k m' (l.map (s.toFloat true)) := by
  intro n
  induction n with
  | zero =>
    intro i m hi hm hd
    refine ⟨m, rfl, ?_, ?_⟩
    · intro p hp
      obtain ⟨p', hp', rfl⟩ := List.mem_map.mp hp
      rw [toFloat_length]
      exact hs.1 p' hp'
    · intro j c p hp hc
      rw [List.getElem?_map] at hp
      obtain ⟨p', hp', rfl⟩ := Option.map_eq_some_iff.mp hp
      have : j < l.length := (List.getElem?_eq_some_iff.mp hp').1
      exact hd j c p' (by omega) hp' hc
  | succ n ih =>
    intro i m hi hm hd
    have hil : i < l.length := by omega
    have hg : l[i]? = some l[i] := List.getElem?_eq_getElem hil
    have hlen : (l[i]).length = k := hs.1 _ (List.getElem_mem hil)
    have e1 : loadColor source (i * k) k = some l[i] := by
      rw [hs.load hg (le_refl _), List.take_of_length_le hlen.le]
    have hroom : i * k + k ≤ l.length * k := by
      have := Nat.mul_le_mul_right k (show i + 1 ≤ l.length by omega)
      rw [Nat.add_mul, one_mul] at this
      exact this
    obtain ⟨m1, e2, h1, h2⟩ := put_spec (pixel := s.toFloat true l[i]) (destin := (i : Int) * k) k 0 m (by rw [toFloat_length]; omega)
      (fun j _ hj => hm _ (by positivity) (by
        have : i * k + j < l.length * k := by omega
        exact_mod_cast this))
    obtain ⟨m2, e3, h3⟩ := ih (i + 1) m1 (by omega) (by
      intro a ha1 ha2
      by_cases hc : ∀ j : Nat, 0 ≤ j → j < 0 + k → a ≠ (i : Int) * k + j
      · rw [h2 a hc]; exact hm a ha1 ha2
      · push Not at hc
        obtain ⟨j, _, hj, rfl⟩ := hc
        rw [h1 j (by omega) (by omega)]
        simp) (by
      intro j c p hj hp hc
      by_cases hji : j = i
      · subst hji
        rw [hg] at hp
        cases hp
        have := h1 c (by omega) (by omega)
        push_cast
        exact this
      · rw [h2, hd j c p (by omega) hp hc]
        intro c' _ hc'
        have := Nat.mul_le_mul_right k (show j + 1 ≤ i by omega)
        rw [Nat.add_mul, one_mul] at this
        have : j * k + c < i * k + c' := by omega
        exact_mod_cast this.ne)
    refine ⟨m2, ?_, h3⟩
    simp only [convertLoop, Option.bind_eq_bind, e1, Option.bind_some, premultiply_eq s (show 0 < (l[i]).length by omega), e2, e3]

set_option linter.unusedSectionVars false

variable [DecidableEq α] [DecidableEq φ]

/-- What is assumed about a reader, about its color slots, and about the palette image if there is one. The width of the palette image times
the number of channels must be representable in type `int`. -/
structure EnvOk (e : Env α φ) (img : Int → Int → List α) : Prop where
  I : 9 ≤ e.I
  Z : e.I < e.Z
  k : 0 < e.k
  laws : ColorSlot.Spec.Laws e.s
  dflt : ∀ slot, ColorSlot.Spec.ArgOk e.k (e.dflt slot)
  white : ∀ slot l, ColorSlot.Spec.defaults e.s e.dflt slot = .exact l → (ColorSlot.Spec.defaults e.s e.dflt slot).isSolid e.s = true →
    e.s.fromFloat false (e.s.toFloat true l).dropLast ++ [e.s.max] = l
  size : ∀ w h, e.palette = some (w, h) → 0 ≤ w ∧ w < 2 ^ e.I ∧ 0 ≤ h ∧ h < 2 ^ e.I
  wide : ∀ w h, e.palette = some (w, h) → w * e.k < 2 ^ e.I
  reads : ∀ w h, e.palette = some (w, h) → Reads e.k e.block w h img
  len : ∀ w h, e.palette = some (w, h) → ∀ x y : Int, 0 ≤ x → x < w → 0 ≤ y → y < h → (img x y).length = e.k

/-- The state agrees with the palette, and with the colors of the slots. -/
structure PInv (e : Env α φ) (img : Int → Int → List α) (st : PState α φ) (slots : Slot → ColorSlot.Spec.Color α φ) : Prop where
  slots : ColorSlot.Inv e.s e.k e.dflt st.slots slots
  cache : ∀ m, st.cache = some m → Filled e.k m (colors img e.palette)
  cacheF : ∀ m, st.cacheF = some m → Filled e.k m ((colors img e.palette).map (e.s.toFloat true))

theorem colors_length (img : Int → Int → List α) (p : Option (Int × Int)) : (colors img p).length = numColors p := by
  cases p with
  | none => rfl
  | some p => simp [colors]

theorem size_ok {e : Env α φ} {img : Int → Int → List α} (he : EnvOk e img) : determineSize e.I e.Z e.palette = some ((colors img e.palette).length : Int) := by
  have := he.I; have := he.Z
  rw [colors_length]
  exact determineSize_eq (by omega) he.Z (by omega) fun w h hp => ⟨(he.size w h hp).2.1, (he.size w h hp).2.2.2⟩

theorem ensureCache_ok {e : Env α φ} {img : Int → Int → List α} (he : EnvOk e img) {st : PState α φ} {slots : Slot → ColorSlot.Spec.Color α φ}
    (h : PInv e img st slots) {w hh : Int} (hp : e.palette = some (w, hh)) (hw : 0 < w) :
    ∃ st' m, ensureCache e (colors img e.palette).length st = some (st', m) ∧ PInv e img st' slots ∧ Filled e.k m (colors img e.palette) := by
  cases hc : st.cache with
  | some m => exact ⟨st, m, by simp [ensureCache, hc], h, h.cache m hc⟩
  | none =>
    obtain ⟨m, e1, f⟩ := instantiate_ok he.I he.Z (he.reads w hh hp) (he.len w hh hp) hw (he.size w hh hp).2.2.1 (he.wide w hh hp) (he.size w hh hp).2.1
    rw [← hp] at e1 f
    refine ⟨{ st with cache := some m }, m, ?_, ⟨h.slots, ?_, h.cacheF⟩, f⟩
    · rw [colors_length, ensureCache, hc]
      simp only [Option.bind_eq_bind]
      rw [hp] at e1 ⊢
      simp only [Option.bind_some, e1]
    · intro m' hm'
      cases hm'
      exact f

theorem ensureCacheF_ok {e : Env α φ} {img : Int → Int → List α} (he : EnvOk e img) {st : PState α φ} {slots : Slot → ColorSlot.Spec.Color α φ}
    (h : PInv e img st slots) {w hh : Int} (hp : e.palette = some (w, hh)) (hw : 0 < w) :
    ∃ st' m, ensureCacheF e (colors img e.palette).length st = some (st', m) ∧ PInv e img st' slots ∧
      Filled e.k m ((colors img e.palette).map (e.s.toFloat true)) := by
  cases hc : st.cacheF with
  | some m => exact ⟨st, m, by simp [ensureCacheF, hc], h, h.cacheF m hc⟩
  | none =>
    obtain ⟨st1, m1, e1, h1, f1⟩ := ensureCache_ok he h hp hw
    obtain ⟨m2, e2, f2⟩ := convertLoop_ok e.s he.k f1 (colors img e.palette).length 0 (workspace ((colors img e.palette).length * e.k : Nat)) (by omega)
      (by
        intro a h1 h2
        unfold workspace
        rw [if_pos ⟨h1, h2⟩]
        simp) (by intro j c p hj; omega)
    refine ⟨{ st1 with cacheF := some m2 }, m2, ?_, ⟨h1.slots, h1.cache, ?_⟩, f2⟩
    · simp only [ensureCacheF, hc, Option.bind_eq_bind, e1, Option.bind_some, Int.toNat_natCast]
      push_cast at e2
      rw [e2, Option.bind_some]
    · intro m' hm'
      cases hm'
      exact f2

theorem index_width {img : Int → Int → List α} {p : Option (Int × Int)} {index : Nat} (h : index < (colors img p).length) :
    ∃ w h, p = some (w, h) ∧ 0 < w := by
  rw [colors_length] at h
  cases p with
  | none => simp [numColors] at h
  | some p =>
    obtain ⟨w, hh⟩ := p
    refine ⟨w, hh, rfl, ?_⟩
    by_contra hc
    rw [numColors, Int.toNat_of_nonpos (by omega)] at h
    simp at h

theorem lookup_ok {e : Env α φ} {img : Int → Int → List α} (he : EnvOk e img) {st : PState α φ} {slots : Slot → ColorSlot.Spec.Color α φ}
    (h : PInv e img st slots) (index : Nat) (q : ColorSlot.Request) :
    ∃ st', step e (.lookup index q) st = some (st', Palette.Spec.result e.s (colors img e.palette) (.lookup index q) slots) ∧ PInv e img st' slots := by
  by_cases hi : index < (colors img e.palette).length
  · obtain ⟨w, hh, hp, hw⟩ := index_width hi
    obtain ⟨color, hcol⟩ : ∃ color, (colors img e.palette)[index]? = some color := ⟨_, List.getElem?_eq_getElem hi⟩
    have neutral : ∀ st1 : PState α φ, PInv e img st1 slots → ∃ st', lookupNeutral e (colors img e.palette).length index st1 =
        some (st', .converted (e.s.toFloat true color)) ∧ PInv e img st' slots := by
      intro st1 h1
      obtain ⟨st2, m2, e2, h2, f2⟩ := ensureCacheF_ok he h1 hp hw
      have hcolF : ((colors img e.palette).map (e.s.toFloat true))[index]? = some (e.s.toFloat true color) := by rw [List.getElem?_map, hcol]; rfl
      refine ⟨st2, ?_, h2⟩
      simp only [lookupNeutral, Option.bind_eq_bind, e2, Option.bind_some]
      rw [mul_comm (e.k : Int), f2.load hcolF (le_refl _), List.take_of_length_le (f2.1 _ (List.mem_of_getElem? hcolF)).le]
      rfl
    have hr : Palette.Spec.result e.s (colors img e.palette) (.lookup index q) slots = .lookup (outOf e.s q color) := by simp [Palette.Spec.result, hcol]
    rw [hr]
    simp only [step, lookup, Option.bind_eq_bind, size_ok he, Option.bind_some]
    rw [if_neg (by omega)]
    by_cases hq : (q.sameRepr && q.sameSpace) = true
    · rw [if_pos hq]
      obtain ⟨st1, m1, e1, h1, f1⟩ := ensureCache_ok he h hp hw
      have hlen := f1.1 color (List.mem_of_getElem? hcol)
      have hk := he.k
      have ha : ImageIter.load m1 (e.k * index + (e.k - 1 : Nat)) = some color[e.k - 1] := by
        have := f1.2 index (e.k - 1) color hcol (by omega)
        push_cast at this
        rw [ImageIter.load, mul_comm (e.k : Int), this, List.getElem?_eq_getElem (by omega)]
        rfl
      have hl : color.getLast? = some color[e.k - 1] := by
        rw [List.getLast?_eq_getElem?, show color.length - 1 = e.k - 1 by rw [hlen], List.getElem?_eq_getElem (by omega)]
      rw [e1, Option.bind_some, ha, Option.bind_some]
      by_cases hd : (q.hasAlpha || e.s.isFloat || decide (color[e.k - 1] = e.s.max)) = true
      · rw [if_pos hd]
        refine ⟨st1, ?_, h1⟩
        have ho : outOf e.s q color = .exact (if q.hasAlpha then color else color.dropLast) := by
          unfold outOf
          rw [if_pos]
          rw [hq, Bool.true_and, hl]
          simpa using hd
        rw [ho, mul_comm (e.k : Int), f1.load hcol (by omega)]
        cases q.hasAlpha with
        | true => simp [← hlen]
        | false => simp [List.dropLast_eq_take, hlen]
      · rw [if_neg hd]
        obtain ⟨st2, e2, h2⟩ := neutral st1 h1
        refine ⟨st2, ?_, h2⟩
        have ho : outOf e.s q color = .converted (e.s.toFloat true color) := by
          unfold outOf
          rw [if_neg]
          rw [hq, Bool.true_and, hl]
          simpa using hd
        rw [e2, ho]
        rfl
    · rw [if_neg hq]
      obtain ⟨st2, e2, h2⟩ := neutral st h
      refine ⟨st2, ?_, h2⟩
      have ho : outOf e.s q color = .converted (e.s.toFloat true color) := by
        unfold outOf
        rw [Bool.not_eq_true] at hq
        rw [hq, Bool.false_and]
        rfl
      rw [e2, ho]
      rfl
  · obtain ⟨slots', e1, h1⟩ := getColor_inv he.k he.dflt h.slots .background q
    refine ⟨{ st with slots := slots' }, ?_, ⟨h1, h.cache, h.cacheF⟩⟩
    have hr : Palette.Spec.result e.s (colors img e.palette) (.lookup index q) slots = .lookup ((slots .background).get e.s q) := by
      simp [Palette.Spec.result, List.getElem?_eq_none (Nat.le_of_not_lt hi)]
    rw [hr]
    simp only [step, lookup, Option.bind_eq_bind, size_ok he, Option.bind_some]
    rw [if_pos (by omega), e1]
    rfl

/-- One operation. -/
theorem step_ok {e : Env α φ} {img : Int → Int → List α} (he : EnvOk e img) {st : PState α φ} {slots : Slot → ColorSlot.Spec.Color α φ}
    (h : PInv e img st slots) (op : Op α φ) (ho : Spec.OpOk e.k e.palette op)
    (hz : op = .entries ∨ op = .entriesF → ∀ w h, e.palette = some (w, h) → 0 < w) :
    ∃ st', step e op st = some (st', Palette.Spec.result e.s (colors img e.palette) op slots) ∧ PInv e img st' (Spec.after e.s op slots) := by
  cases op with
  | slot op =>
    obtain ⟨slots', e1, h1⟩ := step_inv he.k he.laws he.dflt he.white h.slots op ho
    exact ⟨{ st with slots := slots' }, by simp [step, e1, Palette.Spec.result], ⟨h1, h.cache, h.cacheF⟩⟩
  | lookup index q => exact lookup_ok he h index q
  | entries =>
    obtain ⟨⟨w, hh⟩, hp⟩ := Option.ne_none_iff_exists'.mp (show e.palette ≠ none from ho)
    obtain ⟨st1, m1, e1, h1, f1⟩ := ensureCache_ok he h hp (hz (.inl rfl) w hh hp)
    refine ⟨st1, ?_, h1⟩
    simp only [step, Option.bind_eq_bind, size_ok he, Option.bind_some, e1, Int.toNat_natCast, f1.all, Palette.Spec.result]
  | entriesF =>
    obtain ⟨⟨w, hh⟩, hp⟩ := Option.ne_none_iff_exists'.mp (show e.palette ≠ none from ho)
    obtain ⟨st1, m1, e1, h1, f1⟩ := ensureCacheF_ok he h hp (hz (.inr rfl) w hh hp)
    refine ⟨st1, ?_, h1⟩
    have := f1.all
    rw [List.length_map] at this
    simp only [step, Option.bind_eq_bind, size_ok he, Option.bind_some, e1, Int.toNat_natCast, this, Palette.Spec.result]

theorem run_ok {e : Env α φ} {img : Int → Int → List α} (he : EnvOk e img) :
    ∀ (ops : List (Op α φ)) (st : PState α φ) (slots : Slot → ColorSlot.Spec.Color α φ), (∀ op ∈ ops, Spec.OpOk e.k e.palette op) →
      (.entries ∈ ops ∨ .entriesF ∈ ops → ∀ w h, e.palette = some (w, h) → 0 < w) → PInv e img st slots →
      ∃ st', run e ops st = some (st', Spec.results e.s (colors img e.palette) ops slots) := by
  intro ops
  induction ops with
  | nil => intro st slots _ _ h; exact ⟨st, rfl⟩
  | cons op ops ih =>
    intro st slots ho hz h
    obtain ⟨st1, e1, h1⟩ := step_ok he h op (ho op (by simp)) (by rintro (rfl | rfl) <;> exact hz (by simp))
    obtain ⟨st2, e2⟩ := ih st1 _ (fun op' h' => ho op' (by simp [h'])) (fun h' => hz (h'.imp (List.mem_cons_of_mem _) (List.mem_cons_of_mem _))) h1
    exact ⟨st2, by simp [run, e1, e2, Spec.results]⟩

theorem pinit_ok (e : Env α φ) (img : Int → Int → List α) : PInv e img pinit (ColorSlot.Spec.defaults e.s e.dflt) :=
  ⟨init_inv _ _ _, (by intro m h; cases h), (by intro m h; cases h)⟩

end Verif.Palette
