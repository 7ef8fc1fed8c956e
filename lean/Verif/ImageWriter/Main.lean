import Verif.ImageWriter.Lemmas
/-!
Writing of pixels with conversion, opacity, and blending.
-/
namespace Verif.ImageWriter
open Verif.Integer Verif.PixelBox Verif.PixelBox.Spec Verif.ImageIter Verif.ImageIter.Spec Verif.ImageReader Spec

variable {α β φ P : Type}

/-! ### The state of the image -/

theorem consistent_painted {I : Nat} {wr : Writer α φ} {hit : Int → Int → Prop} {f : Int → Int → List α} {g : Int → Int → Nat} {st st' : Pixels α}
    (hc : ImageReader.Spec.Consistent I (wr.at st)) (hp : Painted hit f g st st')
    (hl : ∀ x y, hit x y → (f x y).length = wr.reader.colors + wr.reader.hasAlpha.toNat) : ImageReader.Spec.Consistent I (wr.at st') := by
  refine ⟨hc.w, hc.h, ?_, hc.palette, hc.paletteF, hc.bgU, hc.bgR, hc.bgN, hc.bgF, hc.toFloat⟩
  intro color he x y h1 h2 h3 h4
  have he' : st' = .direct color := he
  cases st with
  | indexed index => rw [he'] at hp; exact absurd hp id
  | direct a =>
    rw [he'] at hp
    by_cases hh : hit x y
    · rw [(hp x y).1 hh]; exact hl x y hh
    · rw [(hp x y).2 hh]; exact hc.color a rfl x y h1 h2 h3 h4

/-- Reading and writing of the image in terms of representation `float_`. -/
structure AccessOk (I : Nat) (wr : Writer α φ) (acc : Access α φ) (decode : Pixels α → Int → Int → List φ) (enc : List φ → List α) : Prop where
  reads : ∀ st, ImageReader.Spec.Consistent I (wr.at st) → ReadOk (acc.read st) (wr.reader.colors + 1) wr.reader.w wr.reader.h (decode st)
  len : ∀ st, ImageReader.Spec.Consistent I (wr.at st) → ∀ x y : Int, 0 ≤ x → x < wr.reader.w → 0 ≤ y → y < wr.reader.h →
    (decode st x y).length = wr.reader.colors + 1
  same : ∀ (hit : Int → Int → Prop) (f : Int → Int → List α) (g : Int → Int → Nat) (st st' : Pixels α), Painted hit f g st st' →
    ∀ x y, ¬hit x y → decode st' x y = decode st x y
  encLen : ∀ p : List φ, p.length = wr.reader.colors + 1 → (enc p).length = wr.reader.colors + wr.reader.hasAlpha.toNat
  writes : ∀ (st : Pixels α) (x y : Int) (t : Tray) (ws : Mem φ) (V : Int → Int → List φ), 0 ≤ t.w → t.w ≤ 4096 → 0 ≤ t.h → 0 ≤ x →
    x + t.w ≤ wr.reader.w → 0 ≤ y → y + t.h ≤ wr.reader.h → Has t.iter (wr.reader.colors + 1) V 0 0 t.w t.h ws →
    (∀ i j : Int, 0 ≤ i → i < t.w → 0 ≤ j → j < t.h → (V i j).length = wr.reader.colors + 1) →
    ∃ st', acc.write x y t ws st = some st' ∧
      Painted (Pixel ⟨x, y, t.w, t.h⟩) (fun px py => enc (V (px - x) (py - y))) (fun px py => wr.lookup (V (px - x) (py - y))) st st'

theorem writeIndexed_spec {I : Nat} {wr : Writer α φ} (hk : 4096 < (2 : Int) ^ I) {index : Int → Int → Nat} {x y : Int} {t : Tray} {ws : Mem φ}
    {V : Int → Int → List φ} (hw : 0 ≤ t.w) (hw1 : t.w ≤ 4096) (hx : 0 ≤ x) (hx1 : x + t.w ≤ wr.reader.w) (hy : 0 ≤ y)
    (hy1 : y + t.h ≤ wr.reader.h) (hv : Has t.iter (wr.reader.colors + 1) V 0 0 t.w t.h ws)
    (hl : ∀ i j : Int, 0 ≤ i → i < t.w → 0 ≤ j → j < t.h → (V i j).length = wr.reader.colors + 1) :
    ∃ index', writeIndexed I wr x y t ws index = some index' ∧
      Changed (Pixel ⟨x, y, t.w, t.h⟩) (fun px py => wr.lookup (V (px - x) (py - y))) index index' := by
  have hpix : ∀ i j : Nat, (i : Int) < t.w → (j : Int) < t.h → pixelsOf ws t.iter wr.reader.numChannelsExt i j = some (V i j) := by
    intro i j h1 h2
    have l := hl i j (by omega) h1 (by omega) h2
    show pixelsOf ws t.iter (wr.reader.colors + 1) i j = _
    rw [pixelsOf_has hv (le_refl _) h1 h2 l.ge]
    rw [List.take_of_length_le l.le]
  obtain ⟨m, e, hm⟩ := convert2_has (conv := fun p => [wr.lookup p]) (n := 1) hw hpix (fun _ _ _ _ => by simp)
  obtain ⟨img', e', hc⟩ := imageWrite_spec (W := wr.reader.w) (H := wr.reader.h) hx hx1 hy hy1
    (pixel := fun i j => load m ((⟨0, (1 : Nat), (1 : Nat) * t.w⟩ : Iter).ptr i j)) (f := fun i j => wr.lookup (V i j)) (by
      intro i j h1 h2
      have := hm i j 0 ⟨by omega, by omega, by omega, by omega, by omega⟩
      rw [addr_eq] at this
      simp only [load]
      simp only [Nat.cast_zero, add_zero] at this
      rw [this]
      rfl) index
  refine ⟨img', ?_, hc⟩
  unfold writeIndexed
  rw [wsTray_eq hw hw1 (by push_cast; omega)]
  simp only [Option.bind_eq_bind, Option.bind_some]
  simp only [Nat.cast_one] at e e' ⊢
  rw [e]
  exact e'

theorem pow_gt {I : Nat} {c : Nat} (h : ((c : Int) + 1) * 4096 < 2 ^ I) : 4096 < (2 : Int) ^ I := by
  have : (0 : Int) ≤ c * 4096 := by positivity
  have e : ((c : Int) + 1) * 4096 = c * 4096 + 4096 := by ring
  omega

theorem access_ok {I : Nat} {wr : Writer α φ} (hw : WriterOk I wr) : AccessOk I wr (wr.access I) (existing wr) wr.fromFloat where
  reads st hc := (readF_ok hc).1
  len st hc x y h1 h2 h3 h4 := (readF_ok hc).2 x y h1 h2 h3 h4
  same hit f g st st' hp x y hn := by
    cases st <;> cases st' <;> simp only [Painted] at hp
    · simp only [existing, ImageReader.Spec.colorF, Writer.at, (hp x y).2 hn]
    · simp only [existing, ImageReader.Spec.colorF, Writer.at, (hp x y).2 hn]
  encLen := hw.fromFloat
  writes st x y t ws V h1 h2 h3 h4 h5 h6 h7 hv hl := by
    cases st with
    | indexed index =>
      obtain ⟨i', e, hc⟩ := writeIndexed_spec (wr := wr) (pow_gt hw.channels) (index := index) h1 h2 h4 h5 h6 h7 hv hl
      refine ⟨.indexed i', ?_, hc⟩
      show (writeIndexed I wr x y t ws index).bind _ = _
      rw [e]
      rfl
    | direct color =>
      have hpix : ∀ i j : Nat, (i : Int) < t.w → (j : Int) < t.h → pixelsOf ws t.iter wr.reader.numChannelsExt i j = some (V i j) := by
        intro i j h1 h2
        have l := hl i j (by omega) h1 (by omega) h2
        show pixelsOf ws t.iter (wr.reader.colors + 1) i j = _
        rw [pixelsOf_has hv (le_refl _) h1 h2 l.ge]
        rw [List.take_of_length_le l.le]
      have hlen : ∀ i j : Nat, (i : Int) < t.w → (j : Int) < t.h → (wr.fromFloat (V i j)).length = wr.reader.numChannels := fun i j k1 k2 =>
        hw.fromFloat _ (hl i j (by omega) k1 (by omega) k2)
      obtain ⟨m, e, hm⟩ := convert2_has (conv := wr.fromFloat) (n := wr.reader.numChannels) h1 hpix (fun i j k1 k2 => (hlen i j k1 k2).ge)
      obtain ⟨img', e', hc⟩ := imageWrite_spec (W := wr.reader.w) (H := wr.reader.h) h4 h5 h6 h7
        (pixel := pixelsOf m ⟨0, wr.reader.numChannels, wr.reader.numChannels * t.w⟩ wr.reader.numChannels) (f := fun i j => wr.fromFloat (V i j)) (by
          intro i j k1 k2
          rw [pixelsOf_has hm (le_refl _) k1 k2 (hlen i j k1 k2).ge, List.take_of_length_le (hlen i j k1 k2).le]) color
      refine ⟨.direct img', ?_, hc⟩
      show (wr.write I x y t ws (.direct color)) = _
      have hn : (wr.reader.numChannels : Int) * 4096 < 2 ^ I := by
        have : wr.reader.numChannels ≤ wr.reader.colors + 1 := by
          unfold Reader.numChannels
          have := Bool.toNat_le wr.reader.hasAlpha
          omega
        have := hw.channels
        omega
      unfold Writer.write
      simp only [Option.bind_eq_bind]
      rw [wsTray_eq h1 h2 hn]
      simp only [Option.bind_some]
      rw [e]
      simp only [Option.bind_some]
      rw [e']
      rfl

theorem accessN_ok {I : Nat} {wr : Writer φ φ} (hk : ((wr.reader.colors : Int) + 1) * 4096 < 2 ^ I) :
    AccessOk I wr (wr.accessN I) (existingN wr) (List.take (wr.reader.colors + wr.reader.hasAlpha.toNat)) where
  reads st hc := (read_ok hc (alpha := true)).1
  len st hc x y h1 h2 h3 h4 := by
    unfold existingN ImageReader.Spec.color
    cases st with
    | direct color =>
      have := hc.color color rfl x y h1 h2 h3 h4
      cases ha : wr.reader.hasAlpha <;> simp_all [Writer.at]
    | indexed index =>
      simp only [Writer.at, if_true]
      cases hi : wr.reader.palette[index x y]? with
      | none => exact hc.bgU
      | some p => exact hc.palette p (List.mem_of_getElem? hi)
  same hit f g st st' hp x y hn := by
    cases st <;> cases st' <;> simp only [Painted] at hp
    · simp only [existingN, ImageReader.Spec.color, Writer.at, (hp x y).2 hn]
      rfl
    · simp only [existingN, ImageReader.Spec.color, Writer.at, (hp x y).2 hn]
  encLen p hp := by
    have := Bool.toNat_le wr.reader.hasAlpha
    rw [List.length_take]
    omega
  writes st x y t ws V h1 h2 h3 h4 h5 h6 h7 hv hl := by
    cases st with
    | indexed index =>
      obtain ⟨i', e, hc⟩ := writeIndexed_spec (wr := wr) (pow_gt hk) (index := index) h1 h2 h4 h5 h6 h7 hv hl
      refine ⟨.indexed i', ?_, hc⟩
      show (writeIndexed I wr x y t ws index).bind _ = _
      rw [e]
      rfl
    | direct color =>
      have := Bool.toNat_le wr.reader.hasAlpha
      obtain ⟨img', e', hc⟩ := imageWrite_spec (W := wr.reader.w) (H := wr.reader.h) h4 h5 h6 h7
        (pixel := pixelsOf ws t.iter wr.reader.numChannels) (f := fun i j => (V i j).take (wr.reader.colors + wr.reader.hasAlpha.toNat)) (by
          intro i j k1 k2
          have l := hl i j (by omega) k1 (by omega) k2
          unfold Reader.numChannels
          exact pixelsOf_has hv (by omega) k1 k2 (by omega)) color
      refine ⟨.direct img', ?_, hc⟩
      show (imageWrite _ _ x y t.w t.h _ color).bind _ = _
      rw [e']
      rfl

/-! ### Blending -/

theorem over_eq {wr : Writer α φ} {c d : List φ} {n : Nat} (hc : c.length = n + 1) :
    ∃ alpha, c[n]? = some alpha ∧ over wr c d = List.zipWith (wr.over alpha) c d := by
  refine ⟨c[n]'(by omega), List.getElem?_eq_getElem (by omega), ?_⟩
  unfold over
  rw [List.getLast?_eq_getElem?, show c.length - 1 = n by omega, List.getElem?_eq_getElem (by omega)]

theorem over_len {wr : Writer α φ} {c d : List φ} {n : Nat} (hc : c.length = n + 1) (hd : d.length = n + 1) : (over wr c d).length = n + 1 := by
  obtain ⟨alpha, -, h⟩ := over_eq (wr := wr) (d := d) hc
  rw [h, List.length_zipWith]
  omega

theorem blended_len {wr : Writer α φ} {c d : List φ} {n : Nat} (hc : c.length = n + 1) (hd : d.length = n + 1) : (blended wr c d).length = n + 1 := by
  unfold blended
  split
  · exact over_len hc hd
  · exact hc

/-- One step of the loops that blend. -/
theorem blendStep_spec {wr : Writer α φ} {k : Nat} {it : Iter} {x y : Nat} {c d : List φ} (hc : c.length = k + 1) (hd : d.length = k + 1)
    {left : Nat → Option φ} (hl : ∀ j, j < k + 1 → left j = c[j]?) {step : Nat → Nat → Mem φ → Option (Mem φ)} {alpha : φ} (ha : c[k]? = some alpha)
    (h0 : ∀ i m, step 0 i m = some m)
    (h1 : ∀ n i m, step (n + 1) i m = (left i).bind fun a => (load m (it.ptr x y + i)).bind fun b => (store m (it.ptr x y + i) (wr.over alpha a b)).bind fun m => step n (i + 1) m)
    {m : Mem φ} (hm : ∀ i : Nat, i < k + 1 → m (addr it x y i) = some d[i]?) :
    ∃ m', step (k + 1) 0 m = some m' ∧ (∀ i : Nat, i < k + 1 → m' (addr it x y i) = some (over wr c d)[i]?) ∧
      ∀ a : Int, (∀ i : Nat, i < k + 1 → a ≠ addr it x y i) → m' a = m a := by
  obtain ⟨alpha', e1, e2⟩ := over_eq (wr := wr) (d := d) hc
  rw [ha] at e1
  cases e1
  obtain ⟨m', e, u, o⟩ := blendLoop_spec (f := wr.over alpha) (left := left) (right := it.ptr x y) h0 h1 (k + 1) 0 m
    (fun j => c.getD j alpha) (fun j => d.getD j alpha) (by
      intro j _ hj
      rw [hl j (by omega), ← addr_eq, hm j (by omega)]
      rw [List.getD_eq_getElem?_getD, List.getD_eq_getElem?_getD, List.getElem?_eq_getElem (by omega), List.getElem?_eq_getElem (by omega)]
      simp)
  refine ⟨m', e, ?_, ?_⟩
  · intro i hi
    rw [addr_eq, u i (by omega) (by omega), e2]
    rw [List.getD_eq_getElem?_getD, List.getD_eq_getElem?_getD, List.getElem?_eq_getElem (by omega), List.getElem?_eq_getElem (by omega)]
    rw [List.getElem?_eq_getElem (by rw [List.length_zipWith]; omega)]
    simp
  · intro a h
    exact o a (fun j _ hj => by rw [← addr_eq]; exact h j (by omega))

theorem writeB_spec {I : Nat} {wr : Writer α φ} {acc : Access α φ} {decode : Pixels α → Int → Int → List φ} {enc : List φ → List α}
    (ha : AccessOk I wr acc decode enc) (hk : ((wr.reader.colors : Int) + 1) * 4096 < 2 ^ I) {st : Pixels α} (hc : ImageReader.Spec.Consistent I (wr.at st))
    {x y : Int} {t : Tray} {ws : Mem φ} {V : Int → Int → List φ} (hw : 0 ≤ t.w) (hw1 : t.w ≤ 4096) (hh : 0 ≤ t.h) (hx : 0 ≤ x)
    (hx1 : x + t.w ≤ wr.reader.w) (hy : 0 ≤ y) (hy1 : y + t.h ≤ wr.reader.h) (hv : Has t.iter (wr.reader.colors + 1) V 0 0 t.w t.h ws)
    (hl : ∀ i j : Int, 0 ≤ i → i < t.w → 0 ≤ j → j < t.h → (V i j).length = wr.reader.colors + 1) :
    ∃ st', wr.writeB I acc x y t ws st = some st' ∧ ImageReader.Spec.Consistent I (wr.at st') ∧
      Painted (Pixel ⟨x, y, t.w, t.h⟩) (fun px py => enc (blended wr (V (px - x) (py - y)) (decode st px py)))
        (fun px py => wr.lookup (blended wr (V (px - x) (py - y)) (decode st px py))) st st' := by
  have fin : ∀ (t2 : Tray) (m : Mem φ) (o : Option (Pixels α)), t2.w = t.w → t2.h = t.h → o = acc.write x y t2 m st →
      Has t2.iter (wr.reader.colors + 1) (fun i j => blended wr (V i j) (decode st (x + i) (y + j))) 0 0 t.w t.h m →
      ∃ st', o = some st' ∧ ImageReader.Spec.Consistent I (wr.at st') ∧
      Painted (Pixel ⟨x, y, t.w, t.h⟩) (fun px py => enc (blended wr (V (px - x) (py - y)) (decode st px py)))
        (fun px py => wr.lookup (blended wr (V (px - x) (py - y)) (decode st px py))) st st' := by
    intro t2 m o e1 e2 ho hm
    have len : ∀ i j : Int, 0 ≤ i → i < t.w → 0 ≤ j → j < t.h → (blended wr (V i j) (decode st (x + i) (y + j))).length = wr.reader.colors + 1 := by
      intro i j k1 k2 k3 k4
      exact blended_len (hl i j k1 k2 k3 k4) (ha.len st hc _ _ (by omega) (by omega) (by omega) (by omega))
    obtain ⟨st', e, hp⟩ := ha.writes st x y t2 m (fun i j => blended wr (V i j) (decode st (x + i) (y + j))) (by omega) (by omega) (by omega) hx (by omega)
      hy (by omega) (by rw [e1, e2]; exact hm) (by rw [e1, e2]; exact len)
    rw [e1, e2] at hp
    refine ⟨st', ho.trans e, consistent_painted hc hp ?_, Painted.congr hp (fun _ _ => Iff.rfl) ?_ ?_⟩
    · rintro px py ⟨⟨k1, k2⟩, k3, k4⟩
      simp only at k1 k2 k3 k4
      exact ha.encLen _ (len (px - x) (py - y) (by omega) (by omega) (by omega) (by omega))
    · intro px py _
      simp only [add_sub_cancel]
    · intro px py _
      simp only [add_sub_cancel]
  unfold Writer.writeB
  cases hb : wr.blending with
  | false =>
    simp only [Bool.not_false, if_true]
    apply fin t ws _ rfl rfl rfl
    have : (fun i j => blended wr (V i j) (decode st (x + i) (y + j))) = V := by
      funext i j
      unfold blended
      rw [hb]
      rfl
    rw [this]
    exact hv
  | true =>
    obtain ⟨m, e, hm⟩ := readOk_has (ha.reads st hc) hw hh hx hx1 hy hy1
    obtain ⟨g1, g2⟩ := workspace_cells (φ := φ) (k := wr.reader.colors + 1) (w := t.w) (h := t.h) hw
    obtain ⟨m', e', hm'⟩ := loopY_map hw g2 (V := fun i j => decode st (x + i) (y + j)) (V' := fun i j => over wr (V i j) (decode st (x + i) (y + j)))
      (step := fun i j => blend wr.over ws (t.iter.ptr i j) ((⟨0, (wr.reader.colors + 1 : Nat), (wr.reader.colors + 1 : Nat) * t.w⟩ : Iter).ptr i j) (wr.reader.colors + 1))
      (by
        intro i j m k1 k2 hcell
        have l1 := hl i j (by omega) k1 (by omega) k2
        have l2 := ha.len st hc (x + i) (y + j) (by omega) (by omega) (by omega) (by omega)
        obtain ⟨alpha, a1, -⟩ := over_eq (wr := wr) (d := decode st (x + i) (y + j)) l1
        have cell : ∀ c : Nat, c < wr.reader.colors + 1 → load ws (t.iter.ptr i j + c) = (V i j)[c]? := by
          intro c hc'
          rw [load, ← addr_eq, hv i j c ⟨by omega, by omega, by omega, by omega, hc'⟩]
          rfl
        have := blendStep_spec (wr := wr) (it := ⟨0, (wr.reader.colors + 1 : Nat), (wr.reader.colors + 1 : Nat) * t.w⟩) (x := i) (y := j) l1 l2 cell a1
          (step := fun n i' m => blendLoop wr.over alpha ws (t.iter.ptr i j) ((⟨0, (wr.reader.colors + 1 : Nat), (wr.reader.colors + 1 : Nat) * t.w⟩ : Iter).ptr i j) n i' m)
          (fun _ _ => rfl) (fun _ _ _ => rfl) hcell
        obtain ⟨m1, f1, f2, f3⟩ := this
        refine ⟨m1, ?_, f2, f3⟩
        unfold blend
        rw [show wr.reader.colors + 1 - 1 = wr.reader.colors from rfl, cell _ (by omega), a1]
        exact f1) hm
    simp only [Bool.not_true, Bool.false_eq_true, if_false]
    apply fin ⟨⟨0, (wr.reader.colors + 1 : Nat), (wr.reader.colors + 1 : Nat) * t.w⟩, t.w, t.h⟩ m' _ rfl rfl
    · unfold Reader.numChannelsExt
      simp only [Option.bind_eq_bind]
      rw [wsTray_eq hw hw1 (by push_cast; exact hk)]
      simp only [Option.bind_some]
      rw [e]
      simp only [Option.bind_some]
      rw [e']
      rfl
    · have : (fun i j => blended wr (V i j) (decode st (x + i) (y + j))) = fun i j => over wr (V i j) (decode st (x + i) (y + j)) := by
        funext i j
        unfold blended
        rw [hb]
        rfl
      rw [this]
      exact hm'

theorem scaled_len {wr : Writer α φ} {c : List φ} : (scaled wr c).length = c.length := by
  unfold scaled; split <;> simp

theorem finish_spec {I : Nat} {wr : Writer α φ} {acc : Access α φ} {decode : Pixels α → Int → Int → List φ} {enc : List φ → List α}
    (ha : AccessOk I wr acc decode enc) (hk : ((wr.reader.colors : Int) + 1) * 4096 < 2 ^ I) {st : Pixels α} (hc : ImageReader.Spec.Consistent I (wr.at st))
    {b : Box} {ws : Mem φ} {V : Int → Int → List φ} (hw : 0 ≤ b.w) (hw1 : b.w ≤ 4096) (hh : 0 ≤ b.h) (hx : 0 ≤ b.x)
    (hx1 : b.x + b.w ≤ wr.reader.w) (hy : 0 ≤ b.y) (hy1 : b.y + b.h ≤ wr.reader.h)
    (hv : Has ⟨0, (wr.reader.colors + 1 : Nat), (wr.reader.colors + 1 : Nat) * b.w⟩ (wr.reader.colors + 1) V 0 0 b.w b.h ws)
    (hl : ∀ i j : Int, 0 ≤ i → i < b.w → 0 ≤ j → j < b.h → (V i j).length = wr.reader.colors + 1) :
    ∃ st', wr.finish I acc b ⟨⟨0, (wr.reader.colors + 1 : Nat), (wr.reader.colors + 1 : Nat) * b.w⟩, b.w, b.h⟩ ws st = some st' ∧
      ImageReader.Spec.Consistent I (wr.at st') ∧
      Painted (Pixel b) (fun px py => enc (blended wr (scaled wr (V (px - b.x) (py - b.y))) (decode st px py)))
        (fun px py => wr.lookup (blended wr (scaled wr (V (px - b.x) (py - b.y))) (decode st px py))) st st' := by
  have : ∃ ws', (if wr.unscaled then some ws else scaleLoop wr.scale (wr.reader.numChannelsExt * b.w * b.h).toNat 0 ws) = some ws' ∧
      Has ⟨0, (wr.reader.colors + 1 : Nat), (wr.reader.colors + 1 : Nat) * b.w⟩ (wr.reader.colors + 1) (fun i j => scaled wr (V i j)) 0 0 b.w b.h ws' := by
    cases hu : wr.unscaled with
    | true =>
      refine ⟨ws, rfl, ?_⟩
      have : (fun i j => scaled wr (V i j)) = V := by funext i j; unfold scaled; rw [hu]; rfl
      rw [this]
      exact hv
    | false =>
      obtain ⟨m', e, h⟩ := scaleLoop_has (scale := wr.scale) hw hh hl hv
      refine ⟨m', e, ?_⟩
      have : (fun i j => scaled wr (V i j)) = fun i j => (V i j).map wr.scale := by funext i j; unfold scaled; rw [hu]; rfl
      rw [this]
      exact h
  obtain ⟨ws', e, hv'⟩ := this
  unfold Writer.finish
  simp only [Option.bind_eq_bind]
  rw [e]
  simp only [Option.bind_some]
  exact writeB_spec ha hk hc (t := ⟨⟨0, (wr.reader.colors + 1 : Nat), (wr.reader.colors + 1 : Nat) * b.w⟩, b.w, b.h⟩) hw hw1 hh hx hx1 hy hy1 hv'
    (fun i j k1 k2 k3 k4 => by rw [scaled_len]; exact hl i j k1 k2 k3 k4)

end Verif.ImageWriter
