import Verif.ImageWriter.Main
/-!
Blocks, images, and filling.
-/
namespace Verif.ImageWriter
open Verif.Integer Verif.PixelBox Verif.PixelBox.Spec Verif.ImageIter Verif.ImageIter.Spec Verif.ImageReader Spec

variable {α β φ P : Type}

/-- Subdivision of a box in the image. -/
theorem boxes_spec {I : Nat} {wr : Writer α φ} {acc : Access α φ} {decode : Pixels α → Int → Int → List φ} {enc : List φ → List α}
    (ha : AccessOk I wr acc decode enc) {N : Int → Int → List φ → List φ} {c : Box} {f : Box → Pixels α → Option (Pixels α)}
    (hs : ∀ (b : Box) (st : Pixels α), Small c b → ImageReader.Spec.Consistent I (wr.at st) →
      ∃ st', f b st = some st' ∧ ImageReader.Spec.Consistent I (wr.at st') ∧
        Painted (Pixel b) (fun px py => enc (N px py (decode st px py))) (fun px py => wr.lookup (N px py (decode st px py))) st st')
    {st : Pixels α} (hc : ImageReader.Spec.Consistent I (wr.at st)) (hw : 0 ≤ c.w) (hh : 0 ≤ c.h) (hx : 0 ≤ c.x) (hx1 : c.x + c.w ≤ wr.reader.w)
    (hy : 0 ≤ c.y) (hy1 : c.y + c.h ≤ wr.reader.h) :
    ∃ st', ((subdivide I c).bind fun l => forEach f l st) = some st' ∧ ImageReader.Spec.Consistent I (wr.at st') ∧
      Painted (Pixel c) (fun px py => enc (N px py (decode st px py))) (fun px py => wr.lookup (N px py (decode st px py))) st st' := by
  have i2 : (0 : Int) < 2 ^ I := by positivity
  have r1 : wr.reader.w ≤ 2 ^ I - 1 := hc.w.2
  have r2 : wr.reader.h ≤ 2 ^ I - 1 := hc.h.2
  obtain ⟨l, e, p1, p2, p3⟩ := subdivide_spec (I := I) (box := c) hw hh (by omega) (by omega) (by omega) (by omega) (by omega) (by omega)
  obtain ⟨st', e', hc', hp'⟩ := forEach_spec (o := c) (f := f) (Inv := fun S s => ImageReader.Spec.Consistent I (wr.at s) ∧
      Painted S (fun px py => enc (N px py (decode st px py))) (fun px py => wr.lookup (N px py (decode st px py))) st s) (by
    rintro b S s hb ⟨h1, h2⟩ hd
    obtain ⟨s', e', h3, h4⟩ := hs b s hb h1
    refine ⟨s', e', h3, Painted.trans h2 (Painted.congr h4 (fun _ _ => Iff.rfl) ?_ ?_)⟩
    · intro px py k
      rw [ha.same _ _ _ _ _ h2 px py (hd px py k)]
    · intro px py k
      rw [ha.same _ _ _ _ _ h2 px py (hd px py k)]) l (fun _ _ => False) st p1 p3 ⟨hc, Painted.refl st (fun _ _ h => h)⟩ (fun _ _ _ _ _ h => h)
  refine ⟨st', by rw [e]; exact e', hc', Painted.congr hp' ?_ (fun _ _ _ => rfl) (fun _ _ _ => rfl)⟩
  intro x y
  constructor
  · rintro (h | ⟨b, hb, hp⟩)
    · exact h.elim
    · have s := p1 b hb
      obtain ⟨⟨k1, k2⟩, k3, k4⟩ := hp
      have := s.x0; have := s.x1; have := s.y0; have := s.y1
      exact ⟨⟨by omega, by omega⟩, by omega, by omega⟩
  · intro h
    exact Or.inr (p2 x y h)

/-- The same for images with direct color and without conversion. -/
theorem direct_spec {I : Nat} {W H : Int} (hW : W ≤ 2 ^ I - 1) (hH : H ≤ 2 ^ I - 1) {F : Int → Int → P} {c : Box}
    {f : Box → (Int → Int → P) → Option (Int → Int → P)}
    (hs : ∀ (b : Box) (st : Int → Int → P), Small c b → ∃ st', f b st = some st' ∧ Changed (Pixel b) F st st') (st : Int → Int → P)
    (hw : 0 ≤ c.w) (hh : 0 ≤ c.h) (hx : 0 ≤ c.x) (hx1 : c.x + c.w ≤ W) (hy : 0 ≤ c.y) (hy1 : c.y + c.h ≤ H) :
    ∃ st', ((subdivide I c).bind fun l => forEach f l st) = some st' ∧ Changed (Pixel c) F st st' := by
  have i2 : (0 : Int) < 2 ^ I := by positivity
  obtain ⟨l, e, p1, p2, p3⟩ := subdivide_spec (I := I) (box := c) hw hh (by omega) (by omega) (by omega) (by omega) (by omega) (by omega)
  obtain ⟨st', e', hp'⟩ := forEach_spec (o := c) (f := f) (Inv := fun S s => Changed S F st s) (by
    rintro b S s hb h2 hd
    obtain ⟨s', e', h4⟩ := hs b s hb
    exact ⟨s', e', Changed.trans h2 h4⟩) l (fun _ _ => False) st p1 p3 (fun _ _ => ⟨fun h => h.elim, fun _ => rfl⟩) (fun _ _ _ _ _ h => h)
  refine ⟨st', by rw [e]; exact e', Changed.congr hp' ?_ (fun _ _ _ => rfl)⟩
  intro x y
  constructor
  · rintro (h | ⟨b, hb, hp⟩)
    · exact h.elim
    · have s := p1 b hb
      obtain ⟨⟨k1, k2⟩, k3, k4⟩ := hp
      have := s.x0; have := s.x1; have := s.y0; have := s.y1
      exact ⟨⟨by omega, by omega⟩, by omega, by omega⟩
  · intro h
    exact Or.inr (p2 x y h)

/-! ### Blocks -/

/-- The pixels of a part of a block. -/
theorem block_pixels {m : Mem β} {t : Tray} {c n : Nat} {f : Int → Int → List β} (hb : Block m t c f) (hn : n ≤ c) {dx dy w h : Int} (h1 : 0 ≤ dx)
    (h2 : dx + w ≤ t.w) (h3 : 0 ≤ dy) (h4 : dy + h ≤ t.h) {i j : Nat} (hi : (i : Int) < w) (hj : (j : Int) < h) :
    pixelsOf m (t.iter.plus dx dy) n i j = some ((f (i + dx) (j + dy)).take n) := by
  have hp : Pixel ⟨0, 0, t.w, t.h⟩ (i + dx) (j + dy) := ⟨⟨by show 0 ≤ _; omega, by show _ < 0 + t.w; omega⟩, by show 0 ≤ _; omega, by show _ < 0 + t.h; omega⟩
  have l := hb.len _ _ hp
  apply pixelsOf_has (w := w) (h := h) (V := fun i j => f (i + dx) (j + dy)) (n := c) _ hn hi hj (by simp only [l]; exact hn)
  intro x y q hq
  obtain ⟨k1, k2, k3, k4, k5⟩ := hq
  rw [addr_plus, hb.mem]
  · exact ⟨⟨by show 0 ≤ _; omega, by show _ < 0 + t.w; omega⟩, by show 0 ≤ _; omega, by show _ < 0 + t.h; omega⟩
  · exact k5

theorem subtray_part {I : Nat} {t : Tray} {x y : Int} {b : Box} (hx : 0 ≤ b.x - x) (hx1 : b.x - x < 2 ^ I) (hy : 0 ≤ b.y - y) (hy1 : b.y - y < 2 ^ I) :
    t.subtray I b x y = some ⟨t.iter.plus (b.x - x) (b.y - y), b.w, b.h⟩ := by
  have i2 : (0 : Int) < 2 ^ I := by positivity
  unfold Tray.subtray
  rw [sub_ok (by omega) (by omega), sub_ok (by omega) (by omega)]
  rfl

/-- Conversion of a part of a block into a workspace. -/
theorem part_has {γ : Type} {m : Mem β} {t : Tray} {c k : Nat} {f : Int → Int → List β} (hb : Block m t c f) {conv : List β → List γ} {n : Nat} (hn : n ≤ c)
    (hc : ∀ p, p.length = n → (conv p).length = k) {x y : Int} {b : Box} (h1 : x ≤ b.x) (hw : 0 ≤ b.w) (h2 : b.x + b.w ≤ x + t.w) (h3 : y ≤ b.y)
    (h4 : b.y + b.h ≤ y + t.h) :
    ∃ ws, convert2 conv m ⟨t.iter.plus (b.x - x) (b.y - y), b.w, b.h⟩ n ⟨0, k, k * b.w⟩ k (workspace (k * b.w * b.h)) = some ws ∧
      Has ⟨0, k, k * b.w⟩ k (fun i j => conv ((f (i + (b.x - x)) (j + (b.y - y))).take n)) 0 0 b.w b.h ws ∧
      ∀ i j : Int, 0 ≤ i → i < b.w → 0 ≤ j → j < b.h → (conv ((f (i + (b.x - x)) (j + (b.y - y))).take n)).length = k := by
  have len : ∀ i j : Int, 0 ≤ i → i < b.w → 0 ≤ j → j < b.h → (conv ((f (i + (b.x - x)) (j + (b.y - y))).take n)).length = k := by
    intro i j k1 k2 k3 k4
    apply hc
    rw [List.length_take, hb.len]
    · omega
    · exact ⟨⟨by show 0 ≤ _; omega, by show _ < 0 + t.w; omega⟩, by show 0 ≤ _; omega, by show _ < 0 + t.h; omega⟩
  obtain ⟨ws, e, h⟩ := convert2_has (conv := conv) (ws := m) (origin := ⟨t.iter.plus (b.x - x) (b.y - y), b.w, b.h⟩) (k := n) (n := k)
    (S := fun i j => (f (i + (b.x - x)) (j + (b.y - y))).take n) hw
    (fun i j k1 k2 => block_pixels hb hn (by omega) (by omega : b.x - x + b.w ≤ t.w) (by omega) (by omega : b.y - y + b.h ≤ t.h) k1 k2)
    (fun i j k1 k2 => (len i j (by omega) k1 (by omega) k2).ge)
  exact ⟨ws, e, h, len⟩

theorem putBlockConv_spec {I : Nat} {wr : Writer α φ} {acc : Access α φ} {decode : Pixels α → Int → Int → List φ} {enc : List φ → List α}
    (ha : AccessOk I wr acc decode enc) (hk : ((wr.reader.colors : Int) + 1) * 4096 < 2 ^ I) {st : Pixels α} (hc : ImageReader.Spec.Consistent I (wr.at st))
    {conv : List β → List φ} {c : Nat} {x y : Int} {t : Tray} {m : Mem β} {f : Int → Int → List β} (hb : Block m t c f)
    (hx : BoxOk I ⟨x, y, t.w, t.h⟩) (hconv : ∀ p, p.length = c → (conv p).length = wr.reader.colors + 1) :
    ∃ st', wr.putBlockConv I acc conv c x y t m st = some st' ∧ ImageReader.Spec.Consistent I (wr.at st') ∧
      Painted (Hit wr.reader.w wr.reader.h ⟨x, y, t.w, t.h⟩) (fun px py => enc (blended wr (scaled wr (conv (f (px - x) (py - y)))) (decode st px py)))
        (fun px py => wr.lookup (blended wr (scaled wr (conv (f (px - x) (py - y)))) (decode st px py))) st st' := by
  unfold Writer.putBlockConv
  simp only [Option.bind_eq_bind]
  rcases overlap_spec (b := ⟨x, y, t.w, t.h⟩) hc.w hc.h hx with ⟨e, hn⟩ | ⟨d, e, hp, ⟨g1, g2, g3, g4, g5, g6⟩, g7, g8, g9, g10⟩
  · change overlap I wr.reader.w wr.reader.h _ = _ at e
    rw [e]
    exact ⟨st, rfl, hc, Painted.refl st hn⟩
  · change overlap I wr.reader.w wr.reader.h _ = _ at e
    rw [e]
    have hx' := hx.x; have hy' := hx.y; have hw' := hx.w; have hh' := hx.h
    change d.x + d.w ≤ wr.reader.w at g8
    change d.y + d.h ≤ wr.reader.h at g10
    simp only at g3 g4 g5 g6 hx' hy' hw' hh'
    obtain ⟨st', e', hc', hp'⟩ := boxes_spec ha (c := d) (N := fun px py o => blended wr (scaled wr (conv (f (px - x) (py - y)))) o) (f := fun b st =>
        (t.subtray I b x y).bind fun t' => (wsTray I wr.reader.numChannelsExt b.w b.h).bind fun t2 =>
          (convert2 conv m t' c t2.iter wr.reader.numChannelsExt (workspace (wr.reader.numChannelsExt * b.w * b.h))).bind fun ws =>
            wr.finish I acc b t2 ws st) (by
      intro b s sm hs
      obtain ⟨s1, s2, s3, s4, s5, s6, s7, s8⟩ := sm
      obtain ⟨ws, e1, hw, hl⟩ := part_has hb (conv := conv) (k := wr.reader.colors + 1) (le_refl c) hconv (x := x) (y := y) (b := b) (by omega) s1 (by omega)
        (by omega) (by omega)
      obtain ⟨s', e2, c2, p2⟩ := finish_spec ha hk hs (b := b) s1 s7 s2 (by omega) (by omega) (by omega) (by omega) hw hl
      refine ⟨s', ?_, c2, ?_⟩
      · rw [subtray_part (by omega) (by omega) (by omega) (by omega)]
        simp only [Option.bind_some]
        rw [show wr.reader.numChannelsExt = wr.reader.colors + 1 from rfl, wsTray_eq s1 s7 (by push_cast; exact hk)]
        simp only [Option.bind_some]
        rw [e1]
        exact e2
      · have er : ∀ px py : Int, Pixel b px py → (f (px - b.x + (b.x - x)) (py - b.y + (b.y - y))).take c = f (px - x) (py - y) := by
          rintro px py ⟨⟨k1, k2⟩, k3, k4⟩
          rw [show px - b.x + (b.x - x) = px - x by omega, show py - b.y + (b.y - y) = py - y by omega]
          apply List.take_of_length_le
          rw [hb.len]
          exact ⟨⟨by show 0 ≤ _; omega, by show _ < 0 + t.w; omega⟩, by show 0 ≤ _; omega, by show _ < 0 + t.h; omega⟩
        apply Painted.congr p2 (fun _ _ => Iff.rfl)
        · intro px py hpix
          rw [er px py hpix]
        · intro px py hpix
          rw [er px py hpix]) hc g1 g2 g7 g8 g9 g10
    exact ⟨st', e', hc', Painted.congr hp' hp (fun _ _ _ => rfl) (fun _ _ _ => rfl)⟩

theorem putMask_spec {I : Nat} {wr : Writer α φ} {acc : Access α φ} {decode : Pixels α → Int → Int → List φ} {enc : List φ → List α}
    (ha : AccessOk I wr acc decode enc) (hk : ((wr.reader.colors : Int) + 1) * 4096 < 2 ^ I) {st : Pixels α} (hc : ImageReader.Spec.Consistent I (wr.at st))
    {level : β → φ} {mix : φ → φ → φ → φ → φ} {fg bg : List φ} {fgAlpha : φ} (hf : fg.length = wr.reader.colors + 1) (hbg : bg.length = wr.reader.colors + 1)
    (hal : fg[wr.reader.colors]? = some fgAlpha) {x y : Int} {t : Tray} {m : Mem β} {g : Int → Int → β} (hb : Block m t 1 (fun i j => [g i j]))
    (hx : BoxOk I ⟨x, y, t.w, t.h⟩) :
    ∃ st', wr.putMask I acc level mix fg bg x y t m st = some st' ∧ ImageReader.Spec.Consistent I (wr.at st') ∧
      Painted (Hit wr.reader.w wr.reader.h ⟨x, y, t.w, t.h⟩)
        (fun px py => enc (blended wr (List.zipWith (mix (level (g (px - x) (py - y))) fgAlpha) fg bg) (decode st px py)))
        (fun px py => wr.lookup (blended wr (List.zipWith (mix (level (g (px - x) (py - y))) fgAlpha) fg bg) (decode st px py))) st st' := by
  unfold Writer.putMask
  simp only [Option.bind_eq_bind]
  rcases overlap_spec (b := ⟨x, y, t.w, t.h⟩) hc.w hc.h hx with ⟨e, hn⟩ | ⟨d, e, hp, ⟨g1, g2, g3, g4, g5, g6⟩, g7, g8, g9, g10⟩
  · change overlap I wr.reader.w wr.reader.h _ = _ at e
    rw [e]
    exact ⟨st, rfl, hc, Painted.refl st hn⟩
  · change overlap I wr.reader.w wr.reader.h _ = _ at e
    rw [e]
    have hx' := hx.x; have hy' := hx.y; have hw' := hx.w; have hh' := hx.h
    change d.x + d.w ≤ wr.reader.w at g8
    change d.y + d.h ≤ wr.reader.h at g10
    simp only at g3 g4 g5 g6 hx' hy' hw' hh'
    simp only [Option.bind_some]
    rw [show wr.reader.numChannelsExt - 1 = wr.reader.colors from rfl, hal]
    simp only [Option.bind_some]
    obtain ⟨st', e', hc', hp'⟩ := boxes_spec ha (c := d)
        (N := fun px py o => blended wr (List.zipWith (mix (level (g (px - x) (py - y))) fgAlpha) fg bg) o) (f := fun b st =>
        (t.subtray I b x y).bind fun t' => (wsTray I wr.reader.numChannelsExt b.w b.h).bind fun t2 =>
          (convert2 (fun p => (p.head?.map fun v => List.zipWith (mix (level v) fgAlpha) fg bg).getD []) m t' 1 t2.iter wr.reader.numChannelsExt
            (workspace (wr.reader.numChannelsExt * b.w * b.h))).bind fun ws => wr.writeB I acc b.x b.y t2 ws st) (by
      intro b s sm hs
      obtain ⟨s1, s2, s3, s4, s5, s6, s7, s8⟩ := sm
      obtain ⟨ws, e1, hw, hl⟩ := part_has hb (conv := fun p => (p.head?.map fun v => List.zipWith (mix (level v) fgAlpha) fg bg).getD [])
        (k := wr.reader.colors + 1) (le_refl 1) (by
          intro p hp
          obtain ⟨v, rfl⟩ := List.length_eq_one_iff.mp hp
          simp [hf, hbg]) (x := x) (y := y) (b := b) (by omega) s1 (by omega)
        (by omega) (by omega)
      obtain ⟨s', e2, c2, p2⟩ := writeB_spec ha hk hs (x := b.x) (y := b.y)
        (t := ⟨⟨0, (wr.reader.colors + 1 : Nat), (wr.reader.colors + 1 : Nat) * b.w⟩, b.w, b.h⟩) s1 s7 s2 (by omega) (by show b.x + b.w ≤ _; omega) (by omega)
        (by show b.y + b.h ≤ _; omega) hw hl
      refine ⟨s', ?_, c2, ?_⟩
      · rw [subtray_part (by omega) (by omega) (by omega) (by omega)]
        simp only [Option.bind_some]
        rw [show wr.reader.numChannelsExt = wr.reader.colors + 1 from rfl, wsTray_eq s1 s7 (by push_cast; exact hk)]
        simp only [Option.bind_some]
        rw [e1]
        exact e2
      · apply Painted.congr p2 (fun _ _ => Iff.rfl)
        · rintro px py ⟨⟨k1, k2⟩, k3, k4⟩
          rw [show px - b.x + (b.x - x) = px - x by omega, show py - b.y + (b.y - y) = py - y by omega]
          rfl
        · rintro px py ⟨⟨k1, k2⟩, k3, k4⟩
          rw [show px - b.x + (b.x - x) = px - x by omega, show py - b.y + (b.y - y) = py - y by omega]
          rfl) hc g1 g2 g7 g8 g9 g10
    exact ⟨st', e', hc', Painted.congr hp' hp (fun _ _ _ => rfl) (fun _ _ _ => rfl)⟩

theorem putBlock_spec {I : Nat} {wr : Writer α φ} (hk : ((wr.reader.colors : Int) + 1) * 4096 < 2 ^ I) {color : Int → Int → List α}
    (hc : ImageReader.Spec.Consistent I (wr.at (.direct color))) {hasAlpha : Bool} {x y : Int} {t : Tray} {m : Mem α} {f : Int → Int → List α}
    (hb : Block m t (wr.reader.colors + hasAlpha.toNat) f) (hx : BoxOk I ⟨x, y, t.w, t.h⟩) :
    ∃ color', wr.putBlock I hasAlpha x y t m (.direct color) = some (.direct color') ∧
      Changed (Hit wr.reader.w wr.reader.h ⟨x, y, t.w, t.h⟩) (fun px py => if wr.reader.hasAlpha && !hasAlpha then f (px - x) (py - y) ++ [wr.reader.max]
        else (f (px - x) (py - y)).take (wr.reader.colors + wr.reader.hasAlpha.toNat)) color color' := by
  unfold Writer.putBlock
  simp only [Option.bind_eq_bind]
  have c1 : wr.reader.w ≤ 2 ^ I - 1 := hc.w.2
  have c2 : wr.reader.h ≤ 2 ^ I - 1 := hc.h.2
  rcases overlap_spec (b := ⟨x, y, t.w, t.h⟩) hc.w hc.h hx with ⟨e, hn⟩ | ⟨d, e, hp, ⟨g1, g2, g3, g4, g5, g6⟩, g7, g8, g9, g10⟩
  · change overlap I wr.reader.w wr.reader.h _ = _ at e
    rw [e]
    exact ⟨color, rfl, fun x y => ⟨fun h => absurd h (hn x y), fun _ => rfl⟩⟩
  · change overlap I wr.reader.w wr.reader.h _ = _ at e
    rw [e]
    have hx' := hx.x; have hy' := hx.y; have hw' := hx.w; have hh' := hx.h
    change d.x + d.w ≤ wr.reader.w at g8
    change d.y + d.h ≤ wr.reader.h at g10
    simp only at g3 g4 g5 g6 hx' hy' hw' hh'
    simp only [Option.bind_some]
    by_cases hadd : (!hasAlpha && wr.reader.hasAlpha) = true
    · have hA : wr.reader.hasAlpha = true := by cases h : wr.reader.hasAlpha <;> simp_all
      have hB : hasAlpha = false := by cases h : hasAlpha <;> simp_all
      rw [if_neg (by simp [hA, hB])]
      subst hB
      obtain ⟨color', e', hp'⟩ := direct_spec c1 c2 (c := d) (F := fun px py => f (px - x) (py - y) ++ [wr.reader.max]) (f := fun b color =>
          (t.subtray I b x y).bind fun t' => (wsTray I wr.reader.numChannelsExt b.w b.h).bind fun t2 =>
            (convert2 (fun p => p ++ [wr.reader.max]) m ⟨t'.iter, b.w, b.h⟩ (wr.reader.numChannelsExt - 1) t2.iter wr.reader.numChannelsExt
              (workspace (wr.reader.numChannelsExt * b.w * b.h))).bind fun ws =>
            imageWrite wr.reader.w wr.reader.h b.x b.y b.w b.h (pixelsOf ws t2.iter wr.reader.numChannels) color) (by
        intro b s sm
        obtain ⟨s1, s2, s3, s4, s5, s6, s7, s8⟩ := sm
        obtain ⟨ws, e1, hw, hl⟩ := part_has hb (conv := fun p => p ++ [wr.reader.max]) (k := wr.reader.colors + 1) (le_refl _) (by
          intro p hp; simp [hp]) (x := x) (y := y) (b := b) (by omega) s1 (by omega) (by omega) (by omega)
        obtain ⟨img', e2, p2⟩ := imageWrite_spec (W := wr.reader.w) (H := wr.reader.h) (x := b.x) (y := b.y) (w := b.w) (h := b.h) (by omega) (by omega) (by omega)
          (by omega) (pixel := pixelsOf ws ⟨0, (wr.reader.colors + 1 : Nat), (wr.reader.colors + 1 : Nat) * b.w⟩ (wr.reader.colors + 1))
          (f := fun i j => (f (i + (b.x - x)) (j + (b.y - y))).take (wr.reader.colors + false.toNat) ++ [wr.reader.max]) (by
            intro i j k1 k2
            have l := hl i j (by omega) k1 (by omega) k2
            rw [pixelsOf_has hw (le_refl _) k1 k2 l.ge, List.take_of_length_le l.le]) s
        refine ⟨img', ?_, ?_⟩
        · rw [subtray_part (by omega) (by omega) (by omega) (by omega)]
          simp only [Option.bind_some]
          rw [show wr.reader.numChannelsExt = wr.reader.colors + 1 from rfl, wsTray_eq s1 s7 (by push_cast; exact hk)]
          simp only [Option.bind_some]
          rw [show wr.reader.colors + 1 - 1 = wr.reader.colors + false.toNat from rfl, e1]
          rw [show wr.reader.numChannels = wr.reader.colors + 1 by unfold Reader.numChannels; rw [hA]; rfl]
          exact e2
        · apply Changed.congr p2 (fun _ _ => Iff.rfl)
          rintro px py ⟨⟨k1, k2⟩, k3, k4⟩
          simp only at k1 k2 k3 k4
          rw [show px - b.x + (b.x - x) = px - x by omega, show py - b.y + (b.y - y) = py - y by omega]
          rw [List.take_of_length_le]
          rw [hb.len]
          exact ⟨⟨by show 0 ≤ _; omega, by show _ < 0 + t.w; omega⟩, by show 0 ≤ _; omega, by show _ < 0 + t.h; omega⟩) color g1 g2 g7 g8 g9 g10
      refine ⟨color', ?_, Changed.congr hp' hp ?_⟩
      · rw [e']
        rfl
      · intro px py _
        rw [if_pos (by simp [hA])]
    · have hn : wr.reader.numChannels ≤ wr.reader.colors + hasAlpha.toNat := by
        unfold Reader.numChannels
        cases h1 : hasAlpha <;> cases h2 : wr.reader.hasAlpha <;> simp_all
      rw [if_pos (by cases h1 : hasAlpha <;> cases h2 : wr.reader.hasAlpha <;> simp_all)]
      rw [subtray_part (by omega) (by omega) (by omega) (by omega)]
      simp only [Option.bind_some]
      obtain ⟨img', e2, p2⟩ := imageWrite_spec (W := wr.reader.w) (H := wr.reader.h) (x := d.x) (y := d.y) (w := d.w) (h := d.h) g7 g8 g9 g10
        (pixel := pixelsOf m (t.iter.plus (d.x - x) (d.y - y)) wr.reader.numChannels)
        (f := fun i j => (f (i + (d.x - x)) (j + (d.y - y))).take wr.reader.numChannels)
        (fun i j k1 k2 => block_pixels hb hn (by omega) (by omega : d.x - x + d.w ≤ t.w) (by omega) (by omega : d.y - y + d.h ≤ t.h) k1 k2) color
      rw [e2]
      refine ⟨img', rfl, Changed.congr p2 hp ?_⟩
      intro px py _
      rw [if_neg (by cases h1 : hasAlpha <;> cases h2 : wr.reader.hasAlpha <;> simp_all)]
      rw [show px - d.x + (d.x - x) = px - x by omega, show py - d.y + (d.y - y) = py - y by omega]
      rfl

/-! ### Images -/

theorem originPos_eq {I : Nat} {x y : Int} {box b : Box} (he : PixelBox.Spec.Exists I box) (hv : Valid I box) (h1 : x ≤ b.x) (h2 : b.x ≤ x + box.w)
    (h3 : y ≤ b.y) (h4 : b.y ≤ y + box.h) : originPos I x y box b = some (box.x + (b.x - x), box.y + (b.y - y)) := by
  have i2 : (0 : Int) < 2 ^ I := by positivity
  simp only [PixelBox.Spec.Exists, Valid, Rep] at he hv
  unfold originPos
  rw [sub_ok (by omega) (by omega), sub_ok (by omega) (by omega)]
  simp only [Option.bind_eq_bind, Option.bind_some]
  rw [add_ok (by omega) (by omega), add_ok (by omega) (by omega)]
  rfl

theorem putImageConv_spec {I : Nat} {wr : Writer α φ} {acc : Access α φ} {decode : Pixels α → Int → Int → List φ} {enc : List φ → List α}
    (ha : AccessOk I wr acc decode enc) (hk : ((wr.reader.colors : Int) + 1) * 4096 < 2 ^ I) {st : Pixels α} (hc : ImageReader.Spec.Consistent I (wr.at st))
    {readG : Int → Int → Tray → Mem φ → Option (Mem φ)} {img : Int → Int → List φ} (hr : ReadAll I (fun w _ => w ≤ 4096) readG (wr.reader.colors + 1) img)
    (hl : ∀ x y, (img x y).length = wr.reader.colors + 1) {x y : Int} {box : Box} (hx : BoxOk I ⟨x, y, box.w, box.h⟩)
    (he : PixelBox.Spec.Exists I box) (hv : Valid I box) :
    ∃ st', wr.putImageConv I acc readG x y box st = some st' ∧ ImageReader.Spec.Consistent I (wr.at st') ∧
      Painted (Hit wr.reader.w wr.reader.h ⟨x, y, box.w, box.h⟩)
        (fun px py => enc (blended wr (scaled wr (img (box.x + (px - x)) (box.y + (py - y)))) (decode st px py)))
        (fun px py => wr.lookup (blended wr (scaled wr (img (box.x + (px - x)) (box.y + (py - y)))) (decode st px py))) st st' := by
  unfold Writer.putImageConv
  simp only [Option.bind_eq_bind]
  rcases overlap_spec (b := ⟨x, y, box.w, box.h⟩) hc.w hc.h hx with ⟨e, hn⟩ | ⟨d, e, hp, ⟨g1, g2, g3, g4, g5, g6⟩, g7, g8, g9, g10⟩
  · change overlap I wr.reader.w wr.reader.h _ = _ at e
    rw [e]
    exact ⟨st, rfl, hc, Painted.refl st hn⟩
  · change overlap I wr.reader.w wr.reader.h _ = _ at e
    rw [e]
    have hx' := hx.x; have hy' := hx.y; have hw' := hx.w; have hh' := hx.h
    change d.x + d.w ≤ wr.reader.w at g8
    change d.y + d.h ≤ wr.reader.h at g10
    simp only at g3 g4 g5 g6 hx' hy' hw' hh'
    have he' := he; have hv' := hv
    simp only [PixelBox.Spec.Exists, Valid, Rep] at he' hv'
    obtain ⟨st', e', hc', hp'⟩ := boxes_spec ha (c := d)
        (N := fun px py o => blended wr (scaled wr (img (box.x + (px - x)) (box.y + (py - y)))) o) (f := fun b st =>
        (originPos I x y box b).bind fun o => (wsTray I wr.reader.numChannelsExt b.w b.h).bind fun t2 =>
          (readG o.1 o.2 t2 (workspace (wr.reader.numChannelsExt * b.w * b.h))).bind fun ws => wr.finish I acc b t2 ws st) (by
      intro b s sm hs
      obtain ⟨s1, s2, s3, s4, s5, s6, s7, s8⟩ := sm
      obtain ⟨ws, e1, hw⟩ := readAll_has hr (x := box.x + (b.x - x)) (y := box.y + (b.y - y)) (w := b.w) (h := b.h) s1 (by omega) s2 (by omega) (by omega)
        (by omega) (by omega) (by omega) s7
      obtain ⟨s', e2, c2, p2⟩ := finish_spec ha hk hs (b := b) s1 s7 s2 (by omega) (by omega) (by omega) (by omega) hw (fun _ _ _ _ _ _ => hl _ _)
      refine ⟨s', ?_, c2, ?_⟩
      · rw [originPos_eq he hv (by omega) (by omega) (by omega) (by omega)]
        simp only [Option.bind_some]
        rw [show wr.reader.numChannelsExt = wr.reader.colors + 1 from rfl, wsTray_eq s1 s7 (by push_cast; exact hk)]
        simp only [Option.bind_some]
        rw [e1]
        exact e2
      · apply Painted.congr p2 (fun _ _ => Iff.rfl)
        · rintro px py -
          rw [show box.x + (b.x - x) + (px - b.x) = box.x + (px - x) by omega, show box.y + (b.y - y) + (py - b.y) = box.y + (py - y) by omega]
        · rintro px py -
          rw [show box.x + (b.x - x) + (px - b.x) = box.x + (px - x) by omega, show box.y + (b.y - y) + (py - b.y) = box.y + (py - y) by omega])
      hc g1 g2 g7 g8 g9 g10
    exact ⟨st', e', hc', Painted.congr hp' hp (fun _ _ _ => rfl) (fun _ _ _ => rfl)⟩

theorem putImage_spec {I : Nat} {wr : Writer α φ} (hk : ((wr.reader.colors : Int) + 1) * 4096 < 2 ^ I) {color : Int → Int → List α}
    (hc : ImageReader.Spec.Consistent I (wr.at (.direct color))) {origin : Reader α φ} (ho : ImageReader.Spec.Consistent I origin)
    (hcs : origin.colors = wr.reader.colors) {x y : Int} {box : Box} (hx : BoxOk I ⟨x, y, box.w, box.h⟩)
    (he : PixelBox.Spec.Exists I box) (hv : Valid I box) :
    ∃ color', wr.putImage I origin x y box (.direct color) = some (.direct color') ∧
      Changed (Hit wr.reader.w wr.reader.h ⟨x, y, box.w, box.h⟩) (fun px py => (ImageReader.Spec.extended origin.horz origin.vert origin.w origin.h
        (ImageReader.Spec.color origin wr.reader.hasAlpha) (ImageReader.Spec.background origin wr.reader.hasAlpha) (box.x + (px - x))
          (box.y + (py - y))).take (wr.reader.colors + wr.reader.hasAlpha.toNat)) color color' := by
  unfold Writer.putImage
  simp only [Option.bind_eq_bind]
  have c1 : wr.reader.w ≤ 2 ^ I - 1 := hc.w.2
  have c2 : wr.reader.h ≤ 2 ^ I - 1 := hc.h.2
  have hn : wr.reader.numChannels + (origin.hasAlpha && !wr.reader.hasAlpha).toNat = if wr.reader.hasAlpha then origin.numChannelsExt else origin.numChannels := by
    unfold Reader.numChannelsExt Reader.numChannels
    rw [hcs]
    cases wr.reader.hasAlpha <;> cases origin.hasAlpha <;> rfl
  have hn1 : wr.reader.numChannels + (origin.hasAlpha && !wr.reader.hasAlpha).toNat ≤ wr.reader.colors + 1 := by
    unfold Reader.numChannels
    cases wr.reader.hasAlpha <;> cases origin.hasAlpha <;> simp
  rcases overlap_spec (b := ⟨x, y, box.w, box.h⟩) hc.w hc.h hx with ⟨e, hn'⟩ | ⟨d, e, hp, ⟨g1, g2, g3, g4, g5, g6⟩, g7, g8, g9, g10⟩
  · change overlap I wr.reader.w wr.reader.h _ = _ at e
    rw [e]
    exact ⟨color, rfl, fun x y => ⟨fun h => absurd h (hn' x y), fun _ => rfl⟩⟩
  · change overlap I wr.reader.w wr.reader.h _ = _ at e
    rw [e]
    have hx' := hx.x; have hy' := hx.y; have hw' := hx.w; have hh' := hx.h
    change d.x + d.w ≤ wr.reader.w at g8
    change d.y + d.h ≤ wr.reader.h at g10
    simp only at g3 g4 g5 g6 hx' hy' hw' hh'
    have he' := he; have hv' := hv
    simp only [PixelBox.Spec.Exists, Valid, Rep] at he' hv'
    simp only [Option.bind_some]
    generalize hN : wr.reader.numChannels + (origin.hasAlpha && !wr.reader.hasAlpha).toNat = n at hn hn1
    have hr := readN_all ho (alpha := wr.reader.hasAlpha)
    rw [← hn] at hr
    have len : ∀ x y : Int, n ≤ (ImageReader.Spec.extended origin.horz origin.vert origin.w origin.h (ImageReader.Spec.color origin wr.reader.hasAlpha)
        (ImageReader.Spec.background origin wr.reader.hasAlpha) x y).length := by
      rw [hn]
      exact extended_all (P := fun l : List α => (if wr.reader.hasAlpha then origin.numChannelsExt else origin.numChannels) ≤ l.length)
        (background_len ho wr.reader.hasAlpha) (read_ok ho (alpha := wr.reader.hasAlpha)).2
    obtain ⟨color', e', hp'⟩ := direct_spec c1 c2 (c := d) (F := fun px py => (ImageReader.Spec.extended origin.horz origin.vert origin.w origin.h
          (ImageReader.Spec.color origin wr.reader.hasAlpha) (ImageReader.Spec.background origin wr.reader.hasAlpha) (box.x + (px - x))
          (box.y + (py - y))).take (wr.reader.colors + wr.reader.hasAlpha.toNat)) (f := fun b color =>
        (originPos I x y box b).bind fun o => (wsTray I n b.w b.h).bind fun t2 =>
          (origin.readN I wr.reader.hasAlpha o.1 o.2 t2 (workspace (n * b.w * b.h))).bind fun ws =>
          imageWrite wr.reader.w wr.reader.h b.x b.y b.w b.h (pixelsOf ws t2.iter wr.reader.numChannels) color) (by
      intro b s sm
      obtain ⟨s1, s2, s3, s4, s5, s6, s7, s8⟩ := sm
      obtain ⟨ws, e1, hw⟩ := readAll_has hr (x := box.x + (b.x - x)) (y := box.y + (b.y - y)) (w := b.w) (h := b.h) s1 (by omega) s2 (by omega) (by omega)
        (by omega) (by omega) (by omega) trivial
      obtain ⟨img', e2, p2⟩ := imageWrite_spec (W := wr.reader.w) (H := wr.reader.h) (x := b.x) (y := b.y) (w := b.w) (h := b.h) (by omega) (by omega) (by omega)
        (by omega) (pixel := pixelsOf ws ⟨0, n, n * b.w⟩ wr.reader.numChannels)
        (f := fun i j => (ImageReader.Spec.extended origin.horz origin.vert origin.w origin.h
          (ImageReader.Spec.color origin wr.reader.hasAlpha) (ImageReader.Spec.background origin wr.reader.hasAlpha) (box.x + (b.x - x) + i)
          (box.y + (b.y - y) + j)).take wr.reader.numChannels) (by
          intro i j k1 k2
          exact pixelsOf_has hw (by omega) k1 k2 (le_trans (by omega) (len _ _))) s
      refine ⟨img', ?_, ?_⟩
      · rw [originPos_eq he hv (by omega) (by omega) (by omega) (by omega)]
        simp only [Option.bind_some]
        rw [wsTray_eq s1 s7 (by omega)]
        simp only [Option.bind_some]
        rw [e1]
        exact e2
      · apply Changed.congr p2 (fun _ _ => Iff.rfl)
        rintro px py -
        rw [show box.x + (b.x - x) + (px - b.x) = box.x + (px - x) by omega, show box.y + (b.y - y) + (py - b.y) = box.y + (py - y) by omega]
        rfl) color g1 g2 g7 g8 g9 g10
    refine ⟨color', ?_, Changed.congr hp' hp (fun _ _ _ => rfl)⟩
    refine (Option.bind_assoc _ _ _).symm.trans ?_
    rw [e']
    rfl

/-! ### Filling -/

theorem fillBox_spec {I : Nat} {wr : Writer α φ} {acc : Access α φ} {decode : Pixels α → Int → Int → List φ} {enc : List φ → List α}
    (ha : AccessOk I wr acc decode enc) (hk : ((wr.reader.colors : Int) + 1) * 4096 < 2 ^ I) {st : Pixels α} (hc : ImageReader.Spec.Consistent I (wr.at st))
    {color : List φ} (hcl : color.length = wr.reader.colors + 1) {b : Box} (hw : 0 ≤ b.w) (hw1 : b.w ≤ 4096) (hh : 0 ≤ b.h) (hx : 0 ≤ b.x)
    (hx1 : b.x + b.w ≤ wr.reader.w) (hy : 0 ≤ b.y) (hy1 : b.y + b.h ≤ wr.reader.h) :
    ∃ st', wr.fillBox I acc color b st = some st' ∧ ImageReader.Spec.Consistent I (wr.at st') ∧
      Painted (Pixel b) (fun px py => enc (over wr color (decode st px py))) (fun px py => wr.lookup (over wr color (decode st px py))) st st' := by
  obtain ⟨m, e, hm⟩ := readOk_has (ha.reads st hc) hw hh hx hx1 hy hy1
  obtain ⟨g1, g2⟩ := workspace_cells (φ := φ) (k := wr.reader.colors + 1) (w := b.w) (h := b.h) hw
  have hd : ∀ i j : Int, 0 ≤ i → i < b.w → 0 ≤ j → j < b.h → (decode st (b.x + i) (b.y + j)).length = wr.reader.colors + 1 :=
    fun i j k1 k2 k3 k4 => ha.len st hc _ _ (by omega) (by omega) (by omega) (by omega)
  obtain ⟨alpha, a1, -⟩ := over_eq (wr := wr) (d := color) hcl
  obtain ⟨m', e', hm'⟩ := loopY_map hw g2 (V := fun i j => decode st (b.x + i) (b.y + j)) (V' := fun i j => over wr color (decode st (b.x + i) (b.y + j)))
    (step := fun i j => blendColorLoop wr.over alpha color ((⟨0, (wr.reader.colors + 1 : Nat), (wr.reader.colors + 1 : Nat) * b.w⟩ : Iter).ptr i j) (wr.reader.colors + 1) 0)
    (by
      intro i j m k1 k2 hcell
      exact blendStep_spec (wr := wr) (it := ⟨0, (wr.reader.colors + 1 : Nat), (wr.reader.colors + 1 : Nat) * b.w⟩) (x := i) (y := j) hcl
        (hd i j (by omega) k1 (by omega) k2) (left := fun j => color[j]?) (fun _ _ => rfl) a1
        (step := fun n i' m => blendColorLoop wr.over alpha color ((⟨0, (wr.reader.colors + 1 : Nat), (wr.reader.colors + 1 : Nat) * b.w⟩ : Iter).ptr i j) n i' m)
        (fun _ _ => rfl) (fun _ _ _ => rfl) hcell) hm
  have len : ∀ i j : Int, 0 ≤ i → i < b.w → 0 ≤ j → j < b.h → (over wr color (decode st (b.x + i) (b.y + j))).length = wr.reader.colors + 1 :=
    fun i j k1 k2 k3 k4 => over_len hcl (hd i j k1 k2 k3 k4)
  obtain ⟨st', e2, p2⟩ := ha.writes st b.x b.y ⟨⟨0, (wr.reader.colors + 1 : Nat), (wr.reader.colors + 1 : Nat) * b.w⟩, b.w, b.h⟩ m'
    (fun i j => over wr color (decode st (b.x + i) (b.y + j))) hw hw1 hh hx hx1 hy hy1 hm' len
  refine ⟨st', ?_, consistent_painted hc p2 ?_, Painted.congr p2 (fun _ _ => Iff.rfl) ?_ ?_⟩
  · unfold Writer.fillBox
    simp only [Option.bind_eq_bind]
    rw [show wr.reader.numChannelsExt = wr.reader.colors + 1 from rfl, wsTray_eq hw hw1 (by push_cast; exact hk)]
    simp only [Option.bind_some]
    rw [e]
    simp only [Option.bind_some]
    rw [show wr.reader.colors + 1 - 1 = wr.reader.colors from rfl, a1]
    simp only [Option.bind_some]
    rw [e']
    exact e2
  · rintro px py ⟨⟨k1, k2⟩, k3, k4⟩
    simp only at k1 k2 k3 k4
    exact ha.encLen _ (len (px - b.x) (py - b.y) (by omega) (by omega) (by omega) (by omega))
  · intro px py _
    simp only [add_sub_cancel]
  · intro px py _
    simp only [add_sub_cancel]

theorem imageFill_spec {W H : Int} {b : Box} (hx : 0 ≤ b.x) (hx1 : b.x + b.w ≤ W) (hy : 0 ≤ b.y) (hy1 : b.y + b.h ≤ H) (c : P) (img : Int → Int → P) :
    ∃ img', imageFill W H b c img = some img' ∧ Changed (Pixel b) (fun _ _ => c) img img' := by
  unfold imageFill
  exact imageWrite_spec hx hx1 hy hy1 (f := fun _ _ => c) (fun _ _ _ _ => rfl) img

end Verif.ImageWriter
