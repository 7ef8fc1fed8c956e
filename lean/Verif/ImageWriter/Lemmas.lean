import Verif.ImageWriter.Spec
import Verif.ImageReader.Props
/-!
Parts of the writing of pixels.
-/
namespace Verif.ImageWriter
open Verif.Integer Verif.PixelBox Verif.PixelBox.Spec Verif.ImageIter Verif.ImageIter.Spec Verif.ImageReader Spec

variable {α β φ P : Type}

/-! ### Images -/

theorem imageWrite_spec {W H x y w h : Int} (hx : 0 ≤ x) (hx1 : x + w ≤ W) (hy : 0 ≤ y) (hy1 : y + h ≤ H) {pixel : Nat → Nat → Option P}
    {f : Int → Int → P} (hp : ∀ i j : Nat, (i : Int) < w → (j : Int) < h → pixel i j = some (f i j)) (img : Int → Int → P) :
    ∃ img', imageWrite W H x y w h pixel img = some img' ∧ Changed (Pixel ⟨x, y, w, h⟩) (fun px py => f (px - x) (py - y)) img img' := by
  unfold imageWrite
  rw [if_pos]
  · refine ⟨_, rfl, ?_⟩
    intro px py
    beta_reduce
    constructor
    · rintro ⟨⟨h1, h2⟩, h3, h4⟩
      simp only at h1 h2 h3 h4
      rw [if_pos ⟨⟨h1, h2⟩, h3, h4⟩, hp _ _ (by omega) (by omega)]
      rw [Int.toNat_of_nonneg (by omega), Int.toNat_of_nonneg (by omega)]
      rfl
    · intro hn
      unfold Pixel at hn
      rw [if_neg hn]
  · refine ⟨⟨hx, hx1, hy, hy1⟩, ?_⟩
    intro i hi j hj
    rw [hp i j (by omega) (by omega)]
    rfl

theorem Changed.congr {hit hit' : Int → Int → Prop} {f f' : Int → Int → P} {a b : Int → Int → P} (h : Changed hit f a b)
    (hh : ∀ x y, hit x y ↔ hit' x y) (hf : ∀ x y, hit x y → f x y = f' x y) : Changed hit' f' a b := by
  intro x y
  constructor
  · intro k
    rw [(h x y).1 ((hh x y).mpr k), hf x y ((hh x y).mpr k)]
  · intro k
    exact (h x y).2 (fun k' => k ((hh x y).mp k'))

theorem Changed.trans {S B : Int → Int → Prop} {f : Int → Int → P} {a b c : Int → Int → P} (h1 : Changed S f a b) (h2 : Changed B f b c) :
    Changed (fun x y => S x y ∨ B x y) f a c := by
  intro x y
  constructor
  · intro k
    by_cases hB : B x y
    · exact (h2 x y).1 hB
    · rw [(h2 x y).2 hB, (h1 x y).1 (k.resolve_right hB)]
  · intro k
    rw [(h2 x y).2 (fun h => k (Or.inr h)), (h1 x y).2 (fun h => k (Or.inl h))]

theorem Painted.congr {hit hit' : Int → Int → Prop} {f f' : Int → Int → List α} {g g' : Int → Int → Nat} {a b : Pixels α} (h : Painted hit f g a b)
    (hh : ∀ x y, hit x y ↔ hit' x y) (hf : ∀ x y, hit x y → f x y = f' x y) (hg : ∀ x y, hit x y → g x y = g' x y) : Painted hit' f' g' a b := by
  cases a <;> cases b <;> simp only [Painted] at h ⊢
  · exact Changed.congr h hh hf
  · exact Changed.congr h hh hg

theorem Painted.trans {S B : Int → Int → Prop} {f : Int → Int → List α} {g : Int → Int → Nat} {a b c : Pixels α} (h1 : Painted S f g a b)
    (h2 : Painted B f g b c) : Painted (fun x y => S x y ∨ B x y) f g a c := by
  cases a <;> cases b <;> cases c <;> simp only [Painted] at h1 h2 ⊢
  · exact Changed.trans h1 h2
  · exact Changed.trans h1 h2

theorem Painted.refl {hit : Int → Int → Prop} {f : Int → Int → List α} {g : Int → Int → Nat} (a : Pixels α) (h : ∀ x y, ¬hit x y) : Painted hit f g a a := by
  cases a <;> exact fun x y => ⟨fun k => absurd k (h x y), fun _ => rfl⟩

/-! ### Boxes -/

theorem overlap_spec {I : Nat} {W H : Int} {b : Box} (hW : 0 ≤ W ∧ W ≤ 2 ^ I - 1) (hH : 0 ≤ H ∧ H ≤ 2 ^ I - 1) (hb : BoxOk I b) :
    (overlap I W H b = some none ∧ ∀ x y, ¬Hit W H b x y) ∨
      ∃ c, overlap I W H b = some (some c) ∧ (∀ x y, Pixel c x y ↔ Hit W H b x y) ∧ (0 ≤ c.w ∧ 0 ≤ c.h ∧ b.x ≤ c.x ∧ c.x + c.w ≤ b.x + b.w ∧ b.y ≤ c.y ∧ c.y + c.h ≤ b.y + b.h) ∧ 0 ≤ c.x ∧ c.x + c.w ≤ W ∧ 0 ≤ c.y ∧ c.y + c.h ≤ H := by
  have i2 : (0 : Int) < 2 ^ I := by positivity
  obtain ⟨hx, hy, hw, hh⟩ := hb
  have e1 := clipAxis_eq (I := I) (p := 0) (s := W) (p' := b.x) (s' := b.w) hW.1 hw.1 (by unfold Rep; omega) (by unfold Rep; omega)
    (by rcases abs_cases (0 - b.x) with h | h <;> omega)
  have e2 := clipAxis_eq (I := I) (p := 0) (s := H) (p' := b.y) (s' := b.h) hH.1 hh.1 (by unfold Rep; omega) (by unfold Rep; omega)
    (by rcases abs_cases (0 - b.y) with h | h <;> omega)
  unfold overlap Box.clip
  simp only [Option.bind_eq_bind]
  rw [e1, e2]
  simp only [Option.bind_some]
  by_cases h1 : 0 < b.x + b.w ∧ b.x < 0 + W ∧ 0 < W ∧ 0 < b.w
  · rw [if_pos h1]
    by_cases h2 : 0 < b.y + b.h ∧ b.y < 0 + H ∧ 0 < H ∧ 0 < b.h
    · rw [if_pos h2]
      right
      refine ⟨_, rfl, ?_, ?_, ?_⟩
      · intro x y
        simp only [Hit, Pixel]
        omega
      · dsimp only; omega
      · dsimp only; omega
    · rw [if_neg h2]
      left
      refine ⟨rfl, ?_⟩
      rintro x y ⟨⟨_, k1, k2⟩, _, k3, k4⟩
      simp only at k1 k2
      omega
  · rw [if_neg h1]
    left
    refine ⟨rfl, ?_⟩
    rintro x y ⟨⟨⟨k1, k2⟩, _⟩, ⟨k3, k4⟩, _⟩
    simp only at k1 k2
    omega

theorem forEach_spec {f : Box → P → Option P} {Inv : (Int → Int → Prop) → P → Prop} {o : Box}
    (hs : ∀ (b : Box) (S : Int → Int → Prop) (st : P), Small o b → Inv S st → (∀ x y, Pixel b x y → ¬S x y) →
      ∃ st', f b st = some st' ∧ Inv (fun x y => S x y ∨ Pixel b x y) st') :
    ∀ (l : List Box) (S : Int → Int → Prop) (st : P), (∀ b ∈ l, Small o b) → l.Pairwise Apart → Inv S st → (∀ b ∈ l, ∀ x y, Pixel b x y → ¬S x y) →
      ∃ st', forEach f l st = some st' ∧ Inv (fun x y => S x y ∨ ∃ b ∈ l, Pixel b x y) st' := by
  intro l
  induction l with
  | nil =>
    intro S st _ _ hi _
    refine ⟨st, rfl, ?_⟩
    have : (fun x y => S x y ∨ ∃ b ∈ ([] : List Box), Pixel b x y) = S := by funext x y; simp
    rw [this]
    exact hi
  | cons b l ih =>
    intro S st hl hp hi hd
    obtain ⟨st1, e1, i1⟩ := hs b S st (hl b (by simp)) hi (hd b (by simp))
    have hp' := List.pairwise_cons.mp hp
    obtain ⟨st2, e2, i2⟩ := ih _ st1 (fun c hc => hl c (by simp [hc])) hp'.2 i1 (by
      intro c hc x y k
      rintro (k' | k')
      · exact hd c (by simp [hc]) x y k k'
      · exact hp'.1 c hc x y ⟨k', k⟩)
    refine ⟨st2, ?_, ?_⟩
    · show (f b st).bind _ = _
      rw [e1]
      exact e2
    · have : (fun x y => S x y ∨ ∃ b' ∈ b :: l, Pixel b' x y) = (fun x y => (S x y ∨ Pixel b x y) ∨ ∃ b ∈ l, Pixel b x y) := by
        funext x y; simp [or_assoc]
      rw [this]
      exact i2

/-! ### Workspaces -/

theorem wsTray_eq {I k : Nat} {w h : Int} (hw : 0 ≤ w) (hw1 : w ≤ 4096) (hk : (k : Int) * 4096 < 2 ^ I) : wsTray I k w h = some ⟨⟨0, k, k * w⟩, w, h⟩ := by
  have i2 : (0 : Int) < 2 ^ I := by positivity
  have b1 : (0 : Int) ≤ k * w := mul_nonneg (by omega) hw
  have b2 : (k : Int) * w ≤ k * 4096 := mul_le_mul_of_nonneg_left hw1 (by omega)
  unfold wsTray
  rw [ImageIter.arith_int (by omega) (by omega)]
  rfl

theorem pixelsOf_has {m : Mem φ} {it : Iter} {n k : Nat} {w h : Int} {V : Int → Int → List φ} (hm : Has it n V 0 0 w h m) (hk : k ≤ n)
    {i j : Nat} (hi : (i : Int) < w) (hj : (j : Int) < h) (hl : k ≤ (V i j).length) : pixelsOf m it k i j = some ((V i j).take k) := by
  unfold pixelsOf
  have := mapM_some_range (fun c : Nat => load m (it.ptr i j + c)) ((V i j).take k) (by
    intro c hc
    rw [List.length_take] at hc
    simp only [load]
    rw [← addr_eq, hm i j c (by omega)]
    simp only [val, Option.join_some]
    rw [List.getElem?_take_of_lt (by omega)])
  rw [List.length_take, Nat.min_eq_left hl] at this
  exact this

/-- Conversion into a workspace. -/
theorem convert2_has {γ : Type} {conv : List φ → List γ} {ws : Mem φ} {origin : Tray} {k n : Nat} {S : Int → Int → List φ} (hw : 0 ≤ origin.w)
    (hp : ∀ i j : Nat, (i : Int) < origin.w → (j : Int) < origin.h → pixelsOf ws origin.iter k i j = some (S i j))
    (hc : ∀ i j : Nat, (i : Int) < origin.w → (j : Int) < origin.h → n ≤ (conv (S i j)).length) :
    ∃ m, convert2 conv ws origin k ⟨0, n, n * origin.w⟩ n (workspace (n * origin.w * origin.h)) = some m ∧
      Has ⟨0, n, n * origin.w⟩ n (fun i j => conv (S i j)) 0 0 origin.w origin.h m := by
  obtain ⟨g1, g2⟩ := workspace_cells (φ := γ) (k := n) (w := origin.w) (h := origin.h) hw
  unfold convert2
  obtain ⟨m', e', -, u'⟩ := putLoop_upd g2 (pixel := fun i j => conv (S i j)) hc
    (step := fun x y m => (pixelsOf ws origin.iter k x y).bind fun pixel => put (conv pixel) ((⟨0, n, n * origin.w⟩ : Iter).ptr x y) n 0 m)
    (by
      intro i j m' k1 k2
      rw [hp i j k1 k2]
      rfl) g1
  refine ⟨m', e', ?_⟩
  rintro x y c hp'
  obtain ⟨k1, k2, k3, k4, k5⟩ := id hp'
  rw [u'.hit x y c hp']
  simp only [val, Int.toNat_of_nonneg k1, Int.toNat_of_nonneg k3]

/-- Reading into a workspace. -/
theorem readAll_has {I : Nat} {Q : Int → Int → Prop} {read : Int → Int → Tray → Mem φ → Option (Mem φ)} {k : Nat} {img : Int → Int → List φ}
    (hr : ReadAll I Q read k img) {x y w h : Int} (hw : 0 ≤ w) (hw1 : w < 2 ^ I) (hh : 0 ≤ h) (hh1 : h < 2 ^ I) (hx : -2 ^ I ≤ x) (hx1 : x + w < 2 ^ I)
    (hy : -2 ^ I ≤ y) (hy1 : y + h < 2 ^ I) (hQ : Q w h) :
    ∃ m, read x y ⟨⟨0, k, k * w⟩, w, h⟩ (workspace (k * w * h)) = some m ∧ Has ⟨0, k, k * w⟩ k (fun i j => img (x + i) (y + j)) 0 0 w h m := by
  obtain ⟨g1, g2⟩ := workspace_cells (φ := φ) (k := k) (w := w) (h := h) hw
  obtain ⟨m, e, -, u⟩ := hr _ w h x y _ hw hw1 hh hh1 hx hx1 hy hy1 hQ g2 g1
  exact ⟨m, e, fun i j c hp => u.hit i j c hp⟩

theorem readOk_has {read : Int → Int → Tray → Mem φ → Option (Mem φ)} {k : Nat} {W H : Int} {img : Int → Int → List φ}
    (hr : ReadOk read k W H img) {x y w h : Int} (hw : 0 ≤ w) (hh : 0 ≤ h) (hx : 0 ≤ x) (hx1 : x + w ≤ W) (hy : 0 ≤ y) (hy1 : y + h ≤ H) :
    ∃ m, read x y ⟨⟨0, k, k * w⟩, w, h⟩ (workspace (k * w * h)) = some m ∧ Has ⟨0, k, k * w⟩ k (fun i j => img (x + i) (y + j)) 0 0 w h m := by
  obtain ⟨g1, g2⟩ := workspace_cells (φ := φ) (k := k) (w := w) (h := h) hw
  obtain ⟨m, e, -, u⟩ := hr _ w h x y _ hw hh hx hx1 hy hy1 g2 g1
  exact ⟨m, e, fun i j c hp => u.hit i j c hp⟩

/-! ### Changes in place -/

/-- The changes so far: those of all rows before `y`, and of the pixels before `x` in row `y`. -/
def Mixed (it : Iter) (n : Nat) (V V' : Int → Int → List φ) (w h : Int) (x y : Nat) (m : Mem φ) : Prop :=
  ∀ (i j : Int) (c : Nat), Part 0 0 w h n i j c → m (addr it i j c) = if j < y ∨ (j = y ∧ i < x) then val V' i j c else val V i j c

theorem loopX_map {it : Iter} {w h : Int} {n : Nat} (hi : Inj it (Part 0 0 w h n)) {V V' : Int → Int → List φ} {step : Nat → Mem φ → Option (Mem φ)} {y : Nat}
    (hy : (y : Int) < h)
    (hs : ∀ (x : Nat) (m : Mem φ), (x : Int) < w → (∀ c : Nat, c < n → m (addr it x y c) = val V x y c) →
      ∃ m', step x m = some m' ∧ (∀ c : Nat, c < n → m' (addr it x y c) = val V' x y c) ∧
        ∀ a : Int, (∀ c : Nat, c < n → a ≠ addr it x y c) → m' a = m a) :
    ∀ (k x : Nat) (m : Mem φ), (x : Int) + k = w → Mixed it n V V' w h x y m →
      ∃ m', loopX step k x m = some m' ∧ Mixed it n V V' w h 0 (y + 1) m' := by
  intro k
  induction k with
  | zero =>
    intro x m hx hm
    refine ⟨m, rfl, ?_⟩
    intro i j c hp
    rw [hm i j c hp]
    obtain ⟨k1, k2, k3, k4, k5⟩ := hp
    by_cases hc : j < y ∨ (j = y ∧ i < x)
    · rw [if_pos hc, if_pos (by push_cast; omega)]
    · rw [if_neg hc, if_neg (by push_cast; omega)]
  | succ k ih =>
    intro x m hx hm
    obtain ⟨m1, e1, a1, b1⟩ := hs x m (by push_cast at hx; omega) (by
      intro c hc
      rw [hm x y c (by push_cast at hx; exact ⟨by omega, by omega, by omega, by omega, hc⟩), if_neg (by omega)])
    obtain ⟨m2, e2, h2⟩ := ih (x + 1) m1 (by push_cast at hx ⊢; omega) (by
      intro i j c hp
      have hxy : ∀ c' : Nat, c' < n → Part 0 0 w h n x y c' := by
        intro c' hc'
        push_cast at hx
        exact ⟨by omega, by omega, by omega, by omega, hc'⟩
      by_cases hij : i = x ∧ j = y
      · obtain ⟨rfl, rfl⟩ := hij
        rw [if_pos (by push_cast; omega)]
        exact a1 c hp.2.2.2.2
      · rw [b1 _ (by
          intro c' hc' he
          have := hi _ _ _ _ _ _ hp (hxy c' hc') he
          omega), hm i j c hp]
        by_cases hc : j < y ∨ (j = y ∧ i < x)
        · rw [if_pos hc, if_pos (by push_cast; omega)]
        · rw [if_neg hc, if_neg (by push_cast; omega)])
    refine ⟨m2, ?_, h2⟩
    show (step x m).bind _ = _
    rw [e1]
    exact e2

theorem loopY_map_aux {it : Iter} {w h : Int} {n : Nat} (hw : 0 ≤ w) (hi : Inj it (Part 0 0 w h n)) {V V' : Int → Int → List φ}
    {step : Nat → Nat → Mem φ → Option (Mem φ)}
    (hs : ∀ (x y : Nat) (m : Mem φ), (x : Int) < w → (y : Int) < h → (∀ c : Nat, c < n → m (addr it x y c) = val V x y c) →
      ∃ m', step x y m = some m' ∧ (∀ c : Nat, c < n → m' (addr it x y c) = val V' x y c) ∧
        ∀ a : Int, (∀ c : Nat, c < n → a ≠ addr it x y c) → m' a = m a) :
    ∀ (k y : Nat) (m : Mem φ), y + k = h.toNat → Mixed it n V V' w h 0 y m →
      ∃ m', loopY step w.toNat k y m = some m' ∧ Mixed it n V V' w h 0 h.toNat m' := by
  intro k
  induction k with
  | zero =>
    intro y m hy hm
    refine ⟨m, rfl, ?_⟩
    rw [← hy]
    exact hm
  | succ k ih =>
    intro y m hy hm
    obtain ⟨m1, e1, h1⟩ := loopX_map hi (by omega : (y : Int) < h) (step := fun x => step x y)
      (fun x m hx => hs x y m hx (by omega)) w.toNat 0 m (by omega) hm
    obtain ⟨m2, e2, h2⟩ := ih (y + 1) m1 (by omega) h1
    refine ⟨m2, ?_, h2⟩
    show (loopX (fun x => step x y) w.toNat 0 m).bind _ = _
    rw [e1]
    exact e2

/-- Changing of each pixel in place. -/
theorem loopY_map {it : Iter} {w h : Int} {n : Nat} (hw : 0 ≤ w) (hi : Inj it (Part 0 0 w h n)) {V V' : Int → Int → List φ}
    {step : Nat → Nat → Mem φ → Option (Mem φ)}
    (hs : ∀ (x y : Nat) (m : Mem φ), (x : Int) < w → (y : Int) < h → (∀ c : Nat, c < n → m (addr it x y c) = val V x y c) →
      ∃ m', step x y m = some m' ∧ (∀ c : Nat, c < n → m' (addr it x y c) = val V' x y c) ∧
        ∀ a : Int, (∀ c : Nat, c < n → a ≠ addr it x y c) → m' a = m a)
    {m : Mem φ} (hm : Has it n V 0 0 w h m) :
    ∃ m', loopY step w.toNat h.toNat 0 m = some m' ∧ Has it n V' 0 0 w h m' := by
  obtain ⟨m', e, h'⟩ := loopY_map_aux hw hi hs h.toNat 0 m (by omega) (by
    intro i j c hp
    rw [if_neg (by have := hp.1; have := hp.2.2.1; push_cast; omega)]
    exact hm i j c hp)
  refine ⟨m', e, ?_⟩
  intro i j c hp
  rw [h' i j c hp, if_pos (by obtain ⟨k1, k2, k3, k4, k5⟩ := hp; omega)]

/-- Blending of one pixel, where the components on the left-hand side are obtained by `left`. -/
theorem blendLoop_spec {step : Nat → Nat → Mem φ → Option (Mem φ)} {f : φ → φ → φ} {left : Nat → Option φ} {right : Int}
    (h0 : ∀ i m, step 0 i m = some m)
    (h1 : ∀ n i m, step (n + 1) i m = (left i).bind fun a => (load m (right + i)).bind fun b => (store m (right + i) (f a b)).bind fun m => step n (i + 1) m) :
    ∀ (n i : Nat) (m : Mem φ) (c d : Nat → φ), (∀ j : Nat, i ≤ j → j < i + n → left j = some (c j) ∧ m (right + j) = some (some (d j))) →
      ∃ m', step n i m = some m' ∧ (∀ j : Nat, i ≤ j → j < i + n → m' (right + j) = some (some (f (c j) (d j)))) ∧
        ∀ a : Int, (∀ j : Nat, i ≤ j → j < i + n → a ≠ right + j) → m' a = m a := by
  intro n
  induction n with
  | zero => intro i m c d _; exact ⟨m, h0 i m, fun j k1 k2 => by omega, fun _ _ => rfl⟩
  | succ n ih =>
    intro i m c d hj
    obtain ⟨k1, k2⟩ := hj i (le_refl _) (by omega)
    have hne : m (right + i) ≠ none := by rw [k2]; simp
    obtain ⟨m', e, u, o⟩ := ih (i + 1) (fun b => if b = right + i then some (some (f (c i) (d i))) else m b) c d (by
      intro j l1 l2
      obtain ⟨k3, k4⟩ := hj j (by omega) (by omega)
      exact ⟨k3, by rw [if_neg (by omega)]; exact k4⟩)
    refine ⟨m', ?_, ?_, ?_⟩
    · rw [h1, k1]
      simp only [Option.bind_some, load]
      rw [k2]
      simp only [Option.join_some, Option.bind_some]
      rw [store_eq _ hne]
      exact e
    · intro j l1 l2
      by_cases hji : j = i
      · subst hji
        rw [o _ (by intro j' _ _; omega), if_pos rfl]
      · exact u j (by omega) (by omega)
    · intro a ha
      rw [o a (fun j l1 l2 => ha j (by omega) (by omega)), if_neg (ha i (le_refl _) (by omega))]

theorem val_of_getElem {V : Int → Int → List φ} {x y : Int} {c : Nat} (h : c < (V x y).length) : val V x y c = some (some (V x y)[c]) := by
  simp [val, h]

/-- Scaling of a range of cells. -/
theorem scaleLoop_spec {scale : φ → φ} : ∀ (n i : Nat) (m : Mem φ), (∀ j : Nat, i ≤ j → j < i + n → ∃ v, m j = some (some v)) →
    ∃ m', scaleLoop scale n i m = some m' ∧ ∀ j : Nat, i ≤ j → j < i + n → ∀ v, m j = some (some v) → m' j = some (some (scale v)) := by
  intro n
  induction n with
  | zero => intro i m _; exact ⟨m, rfl, fun j h1 h2 => by omega⟩
  | succ n ih =>
    intro i m hm
    have keep : ∀ (n i : Nat) (m m' : Mem φ), scaleLoop scale n i m = some m' → ∀ a : Nat, a < i → m' a = m a := by
      intro n
      induction n with
      | zero => intro i m m' h a _; cases h; rfl
      | succ n ih' =>
        intro i m m' h a ha
        simp only [scaleLoop, Option.bind_eq_bind, Option.bind_eq_some_iff] at h
        obtain ⟨v, h1, m1, h2, h3⟩ := h
        rw [ih' _ _ _ h3 a (by omega)]
        unfold store at h2
        split at h2
        · cases h2
          show (if ((a : Int)) = (i : Int) then _ else _) = _
          rw [if_neg (by omega)]
        · cases h2
    obtain ⟨v, hv⟩ := hm i (le_refl _) (by omega)
    have hne : m (i : Int) ≠ none := by rw [hv]; simp
    obtain ⟨m', e, h⟩ := ih (i + 1) (fun b => if b = (i : Int) then some (some (scale v)) else m b) (by
      intro j l1 l2
      obtain ⟨v', hv'⟩ := hm j (by omega) (by omega)
      exact ⟨v', by rw [if_neg (by omega)]; exact hv'⟩)
    refine ⟨m', ?_, ?_⟩
    · simp only [scaleLoop, load, Option.bind_eq_bind]
      rw [hv]
      simp only [Option.join_some, Option.bind_some]
      rw [store_eq _ hne]
      exact e
    · intro j l1 l2 v' hv'
      by_cases hji : j = i
      · subst hji
        rw [keep _ _ _ _ e j (by omega), if_pos rfl]
        rw [hv] at hv'
        cases hv'
        rfl
      · exact h j (by omega) (by omega) v' (by rw [if_neg (by omega)]; exact hv')

/-- Every cell of a workspace is that of a component of a pixel. -/
theorem workspace_cover {k : Nat} {w h : Int} {a : Nat} (ha : (a : Int) < k * w * h) (hw : 0 ≤ w) (hh : 0 ≤ h) :
    ∃ (x y : Int) (c : Nat), Part 0 0 w h k x y c ∧ (a : Int) = addr ⟨0, k, k * w⟩ x y c := by
  have hk : 0 < k := by
    rcases Nat.eq_zero_or_pos k with h0 | h0
    · subst h0; simp at ha; omega
    · exact h0
  have hw0 : 0 < w := by
    rcases eq_or_lt_of_le hw with h0 | h0
    · rw [← h0] at ha; simp at ha; omega
    · exact h0
  have hkw : (0 : Int) < k * w := by positivity
  have d1 := Int.mul_ediv_add_emod a (k * w)
  have d2 := Int.emod_nonneg a hkw.ne'
  have d3 := Int.emod_lt_of_pos a hkw
  have d4 := Int.mul_ediv_add_emod ((a : Int) % (k * w)) k
  have d5 := Int.emod_nonneg ((a : Int) % (k * w)) (by omega : (k : Int) ≠ 0)
  have d6 := Int.emod_lt_of_pos ((a : Int) % (k * w)) (by omega : (0 : Int) < k)
  refine ⟨(a : Int) % (k * w) / k, a / (k * w), ((a : Int) % (k * w) % k).toNat, ?_, ?_⟩
  · refine ⟨Int.ediv_nonneg d2 (by omega), ?_, Int.ediv_nonneg (by omega) hkw.le, ?_, by omega⟩
    · rw [zero_add, Int.ediv_lt_iff_lt_mul (by omega), mul_comm w]; exact d3
    · rw [zero_add, Int.ediv_lt_iff_lt_mul hkw, mul_comm h]; exact ha
  · simp only [addr, zero_add]
    rw [Int.toNat_of_nonneg d5]
    rw [mul_comm ((a : Int) % (k * w) / k), mul_comm ((a : Int) / (k * w))]
    omega

theorem scaleLoop_has {scale : φ → φ} {k : Nat} {V : Int → Int → List φ} {w h : Int} (hw : 0 ≤ w) (hh : 0 ≤ h) {m : Mem φ}
    (hl : ∀ x y : Int, 0 ≤ x → x < w → 0 ≤ y → y < h → (V x y).length = k) (hm : Has ⟨0, k, k * w⟩ k V 0 0 w h m) :
    ∃ m', scaleLoop scale (k * w * h).toNat 0 m = some m' ∧ Has ⟨0, k, k * w⟩ k (fun x y => (V x y).map scale) 0 0 w h m' := by
  have cell : ∀ (x y : Int) (c : Nat), Part 0 0 w h k x y c → ∃ v, (V x y)[c]? = some v ∧ m (addr ⟨0, k, k * w⟩ x y c) = some (some v) := by
    intro x y c hp
    have hc : c < (V x y).length := by rw [hl x y hp.1 (by have := hp.2.1; omega) hp.2.2.1 (by have := hp.2.2.2.1; omega)]; exact hp.2.2.2.2
    exact ⟨(V x y)[c], List.getElem?_eq_getElem hc, by rw [hm x y c hp, val_of_getElem hc]⟩
  obtain ⟨m', e, hs⟩ := scaleLoop_spec (scale := scale) (k * w * h).toNat 0 m (by
    intro j _ hj
    obtain ⟨x, y, c, hp, ea⟩ := workspace_cover (k := k) (w := w) (h := h) (a := j) (by omega) hw hh
    obtain ⟨v, -, hv⟩ := cell x y c hp
    exact ⟨v, by rw [ea]; exact hv⟩)
  refine ⟨m', e, ?_⟩
  intro x y c hp
  obtain ⟨v, h1, hv⟩ := cell x y c hp
  obtain ⟨k1, k2, k3, k4, k5⟩ := id hp
  have b0 : (0 : Int) ≤ addr ⟨0, k, k * w⟩ x y c := by
    simp only [addr, zero_add]
    have := mul_nonneg k1 (by omega : (0 : Int) ≤ k)
    have := mul_nonneg k3 (mul_nonneg (by omega : (0 : Int) ≤ k) hw)
    omega
  have b1 : addr ⟨0, k, k * w⟩ x y c < k * w * h := by
    simp only [addr, zero_add]
    have e1 : (x + 1) * k ≤ w * k := mul_le_mul_of_nonneg_right (by omega) (by omega)
    have e2 : (y + 1) * (k * w) ≤ h * (k * w) := mul_le_mul_of_nonneg_right (by omega) (mul_nonneg (by omega) hw)
    have e3 : (x + 1) * (k : Int) = x * k + k := by ring
    have e4 : (y + 1) * ((k : Int) * w) = y * (k * w) + w * k := by ring
    have e5 : h * ((k : Int) * w) = k * w * h := by ring
    omega
  have := hs (addr ⟨0, k, k * w⟩ x y c).toNat (by omega) (by omega) v (by rw [Int.toNat_of_nonneg b0]; exact hv)
  rw [Int.toNat_of_nonneg b0] at this
  rw [this]
  simp [val, h1]

end Verif.ImageWriter
