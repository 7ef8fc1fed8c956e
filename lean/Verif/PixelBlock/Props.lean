import Verif.PixelBlock.Lemmas
import Verif.BitMedium.Props
/-!
Properties of blocks of pixels, and of images that refer to them (C188-C191).
-/
namespace Verif.PixelBlock
open Verif.Integer Verif.PixelBox Verif.PixelBox.Spec Verif.ImageIter Verif.ImageIter.Spec Spec
open Verif.Integer.Spec (Fits)

variable {α : Type}

/-! ### Construction (C188) -/

/-- A block can be created when, and only when the number of components in a row, and in the whole block, can be represented in
`std::ptrdiff_t`. Otherwise, creation fails with an overflow error. -/
theorem C188_accepted (I D S n : Nat) (zero : α) (base w h : Int) (m : Mem α) (hD : 1 ≤ D) (hS : D ≤ S) (hn : (n : Int) < 2 ^ I)
    (hnD : (n : Int) < 2 ^ D) (hw0 : 0 ≤ w) (hh0 : 0 ≤ h) (hw : w < 2 ^ I) (hh : h < 2 ^ I) :
    ((∃ b m', Block.make I D S n zero base w h m = some (.ok (b, m'))) ↔ n * w < 2 ^ D ∧ n * w * h < 2 ^ D) ∧
    (¬ (n * w < 2 ^ D ∧ n * w * h < 2 ^ D) → Block.make I D S n zero base w h m = some (.error .overflow)) := by
  unfold Block.make
  rw [determine_nonneg hD hS hn hnD hw0 hh0 hw hh]
  by_cases k : (n : Int) * w < 2 ^ D ∧ n * w * h < 2 ^ D
  · rw [if_pos k]
    refine ⟨⟨fun _ => k, fun _ => ?_⟩, fun hk => absurd k hk⟩
    simp only [andThen]
    by_cases k2 : (n : Int) * w * h > 0
    · rw [if_pos k2]; exact ⟨_, _, rfl⟩
    · rw [if_neg k2]; exact ⟨_, _, rfl⟩
  · rw [if_neg k]
    exact ⟨⟨fun ⟨_, _, e⟩ => by simp [andThen] at e, fun h => absurd h k⟩, fun _ => rfl⟩

example : (Block.make 31 63 64 3 (0 : Int) 1000 2000000000 2000000000 (fun _ => none)).map (·.map (·.1)) = some (.error .overflow) := by rfl
example : (Block.make 31 63 64 3 (0 : Int) 1000 640 480 (fun _ => none)).map (·.map (·.1)) = some (.ok ⟨640, 480, 1000, 921600⟩) := by rfl

/-- A new block has the specified size. Its buffer has room for exactly the components of its items, all of which are zero. No other memory is
affected. -/
theorem C188_make (I D S n : Nat) (zero : α) (base w h : Int) (m : Mem α) (b : Block) (m' : Mem α) (hD : 1 ≤ D) (hS : D ≤ S)
    (hn : (n : Int) < 2 ^ I) (hnD : (n : Int) < 2 ^ D) (hw0 : 0 ≤ w) (hh0 : 0 ≤ h) (hw : w < 2 ^ I) (hh : h < 2 ^ I)
    (e : Block.make I D S n zero base w h m = some (.ok (b, m'))) :
    b.w = w ∧ b.h = h ∧ b.bufferSize = n * w * h ∧ (∀ i : Int, 0 ≤ i → i < n * w * h → m' (b.data + i) = some (some zero)) ∧
      ∀ a : Int, ¬ (b.data ≤ a ∧ a < b.data + n * w * h) → m' a = m a := by
  unfold Block.make at e
  rw [determine_nonneg hD hS hn hnD hw0 hh0 hw hh] at e
  by_cases k : (n : Int) * w < 2 ^ D ∧ n * w * h < 2 ^ D
  · rw [if_pos k] at e
    simp only [andThen] at e
    by_cases k2 : (n : Int) * w * h > 0
    · rw [if_pos k2] at e
      simp only [Option.some.injEq, Except.ok.injEq, Prod.mk.injEq] at e
      obtain ⟨rfl, rfl⟩ := e
      refine ⟨rfl, rfl, rfl, fun i h1 h2 => ?_, fun a ha => ?_⟩
      · unfold allocate; rw [if_pos (by simp only; omega)]
      · unfold allocate; rw [if_neg ha]
    · rw [if_neg k2] at e
      simp only [Option.some.injEq, Except.ok.injEq, Prod.mk.injEq] at e
      obtain ⟨rfl, rfl⟩ := e
      exact ⟨rfl, rfl, rfl, fun i h1 h2 => absurd h2 (by omega), fun _ _ => rfl⟩
  · rw [if_neg k] at e
    simp [andThen] at e

/-- A block is created from an existing buffer when, and only when the buffer is large enough. -/
theorem C188_wrap (I D S n : Nat) (w h data size : Int) (hD : 1 ≤ D) (hS : D ≤ S) (hn : (n : Int) < 2 ^ I) (hnD : (n : Int) < 2 ^ D)
    (hw0 : 0 ≤ w) (hh0 : 0 ≤ h) (hw : w < 2 ^ I) (hh : h < 2 ^ I) :
    Block.wrap I D S n w h data size =
      some (if ¬ (n * w < 2 ^ D ∧ n * w * h < 2 ^ D) then .error .overflow
        else if n * w * h ≤ size then .ok ⟨w, h, data, size⟩ else .error .bufferTooSmall) := by
  unfold Block.wrap verifyBufferSize
  rw [determine_nonneg hD hS hn hnD hw0 hh0 hw hh]
  by_cases k : (n : Int) * w < 2 ^ D ∧ n * w * h < 2 ^ D
  · rw [if_pos k, if_neg (not_not_intro k)]
    simp only [andThen]
    by_cases k2 : (n : Int) * w * h ≤ size
    · rw [if_pos k2, if_pos k2]
    · rw [if_neg k2, if_neg k2]
  · rw [if_neg k, if_pos k]; rfl

example : Block.wrap 31 63 64 4 10 10 1000 399 = some (.error .bufferTooSmall) := by rfl
example : Block.wrap 31 63 64 4 10 10 1000 400 = some (.ok ⟨10, 10, 1000, 400⟩) := by rfl

/-- The tray of a block has the size of the block. The items are in the buffer in row-major order, and no two of them overlap. -/
theorem C188_tray (I D n : Nat) (b : Block) (m : Mem α) (hnD : (n : Int) < 2 ^ D) (hw0 : 0 ≤ b.w) (hwD : n * b.w < 2 ^ D)
    (hs : n * b.w * b.h ≤ b.bufferSize) (hm : ∀ i : Int, 0 ≤ i → i < b.bufferSize → m (b.data + i) ≠ none) :
    ∃ t, b.tray I D n = some t ∧ t.w = b.w ∧ t.h = b.h ∧
      (∀ (x y : Int) (c : Nat), addr t.iter x y c = b.data + index n b.w x y c) ∧
      (∀ (x y : Int) (c : Nat), InArray b.w b.h x y → c < n → 0 ≤ index n b.w x y c ∧ index n b.w x y c < b.bufferSize) ∧
      Grid t.iter n ⟨0, 0, b.w, b.h⟩ m := by
  have hpD : (0 : Int) < 2 ^ D := by positivity
  have p1 : 0 ≤ (n : Int) * b.w := mul_nonneg (by omega) hw0
  refine ⟨_, tray_eq (fits_ptrdiff.mpr (by omega)) (fits_ptrdiff.mpr (by omega)), rfl, rfl, fun x y c => addr_index _ _ _ _ _ _,
    fun x y c hp hc => ?_, block_grid fun i h1 h2 => hm i h1 (by omega)⟩
  have := index_range hp hc
  omega

example : (⟨10, 5, 1000, 200⟩ : Block).tray 31 63 4 = some ⟨⟨1000, 4, 40⟩, 10, 5⟩ := by decide
example : index 4 10 3 2 1 = 93 := by decide

/-- Every component in the buffer belongs to exactly one item. -/
theorem C188_cover (n : Nat) (w h i : Int) (hi0 : 0 ≤ i) (hi : i < n * w * h) (hw : 0 ≤ w) :
    ∃ (x y : Int) (c : Nat), (InArray w h x y ∧ c < n ∧ index n w x y c = i) ∧
      ∀ (x' y' : Int) (c' : Nat), InArray w h x' y' → c' < n → index n w x' y' c' = i → x' = x ∧ y' = y ∧ c' = c := by
  have hn : 0 < (n : Int) := by
    rcases Nat.eq_zero_or_pos n with h0 | h0
    · subst h0; simp only [Nat.cast_zero, zero_mul] at hi; omega
    · omega
  have hw1 : 0 < w := by
    rcases hw.eq_or_lt with h0 | h0
    · subst h0; simp only [mul_zero, zero_mul] at hi; omega
    · exact h0
  set q := i / n with hq
  have hq0 : 0 ≤ q := Int.ediv_nonneg hi0 hn.le
  have e1 := Int.mul_ediv_add_emod i n
  have e2 := Int.mul_ediv_add_emod q w
  have c0 := Int.emod_nonneg i hn.ne'
  have c1 := Int.emod_lt_of_pos i hn
  have hqh : q < w * h := Int.ediv_lt_of_lt_mul hn (by rw [mul_comm]; linarith [mul_assoc (n : Int) w h])
  refine ⟨q % w, q / w, (i % n).toNat, ⟨⟨Int.emod_nonneg q hw1.ne', Int.emod_lt_of_pos q hw1, Int.ediv_nonneg hq0 hw1.le,
    Int.ediv_lt_of_lt_mul hw1 (by rw [mul_comm]; exact hqh)⟩, by omega, ?_⟩, ?_⟩
  · simp only [index]
    have : q / w * w + q % w = q := by rw [mul_comm]; exact e2
    rw [this, mul_comm, Int.toNat_of_nonneg c0, hq]
    exact e1
  · rintro x' y' c' ⟨h1, h2, h3, h4⟩ hc e
    simp only [index] at e
    have hq' : q = y' * w + x' := by
      rw [hq, ← e, Int.add_comm, Int.add_mul_ediv_right _ _ hn.ne', Int.ediv_eq_zero_of_lt (by omega) (by omega)]; omega
    have hr : i % n = c' := by
      rw [← e, Int.add_comm, Int.add_mul_emod_self_right, Int.emod_eq_of_lt (by omega) (by omega)]
    refine ⟨?_, ?_, by omega⟩
    · rw [hq', Int.add_comm, Int.add_mul_emod_self_right, Int.emod_eq_of_lt h1 h2]
    · rw [hq', Int.add_comm, Int.add_mul_ediv_right _ _ hw1.ne', Int.ediv_eq_zero_of_lt h1 h2]; omega

/-! ### Negative sizes (C189) -/

/-- A size with one negative and one positive component is rejected. -/
theorem C189_one_negative_partial (I D S n : Nat) (zero : α) (base w h : Int) (m : Mem α) (hD : 1 ≤ D) (hn0 : 0 < n) (hn : (n : Int) < 2 ^ I)
    (hw1 : -2 ^ I ≤ w) (hh1 : -2 ^ I ≤ h) (hw : w < 2 ^ I) (hh : h < 2 ^ I) (hneg : (w < 0 ∧ 0 < h) ∨ (0 < w ∧ h < 0)) :
    Block.make I D S n zero base w h m = some (.error .overflow) ∧
      ∀ data size, Block.wrap I D S n w h data size = some (.error .overflow) := by
  have hp : (0 : Int) < 2 ^ I := by positivity
  have hlt : (n : Int) * w * h < 0 := by
    rw [mul_assoc]
    exact mul_neg_of_pos_of_neg (by omega) (by
      rcases hneg with ⟨h1, h2⟩ | ⟨h1, h2⟩
      · exact mul_neg_of_neg_of_pos h1 h2
      · exact mul_neg_of_pos_of_neg h1 h2)
  have e : determineBufferSize I D S n w h = some (.error .overflow) := by
    rw [determine_eq hD (fits_int.mpr (by omega)) (fits_int.mpr (by omega)) (fits_int.mpr (by omega)), if_neg]
    rintro ⟨-, h4⟩
    have := fits_size.mp h4
    omega
  constructor
  · unfold Block.make; rw [e]; rfl
  · intro data size; unfold Block.wrap verifyBufferSize; rw [e]; rfl

example : (Block.make 31 63 64 4 (0 : Int) 1000 (-2) 3 (fun _ => none)).map (·.map (·.1)) = some (.error .overflow) := by rfl

/-- A size where both components are negative is accepted, although the block then has a negative size. The full property, that a block cannot
have a negative size, does not hold. -/
theorem C189_both_negative_accepted :
    ∃ m', Block.make 31 63 64 4 (0 : Int) 1000 (-2) (-3) (fun _ => none) = some (.ok (⟨-2, -3, 1000, 24⟩, m')) := ⟨_, rfl⟩

/-- So is a size with one negative component when the other is zero. -/
theorem C189_negative_and_zero_accepted :
    ∃ m', Block.make 31 63 64 4 (0 : Int) 1000 (-2) 0 (fun _ => none) = some (.ok (⟨-2, 0, 0, 0⟩, m')) := ⟨_, rfl⟩

/-- These are the only cases: when a block is created, then its size is not negative, or both components are negative, or one is zero. -/
theorem C189_size_partial (I D S n : Nat) (zero : α) (base w h : Int) (m : Mem α) (b : Block) (m' : Mem α) (hD : 1 ≤ D) (hn0 : 0 < n)
    (hn : (n : Int) < 2 ^ I) (hw1 : -2 ^ I ≤ w) (hh1 : -2 ^ I ≤ h) (hw : w < 2 ^ I) (hh : h < 2 ^ I)
    (e : Block.make I D S n zero base w h m = some (.ok (b, m'))) : (0 ≤ w ∧ 0 ≤ h) ∨ (w < 0 ∧ h < 0) ∨ w = 0 ∨ h = 0 := by
  by_contra hc
  have := (C189_one_negative_partial I D S n zero base w h m hD hn0 hn hw1 hh1 hw hh (by omega)).1
  rw [this] at e
  simp at e

/-! ### Retrieval of pixels (C190) -/

/-- The components of the items of the block are those of `f`. -/
def Contents (n : Nat) (b : Block) (f : Int → Int → Nat → α) (m : Mem α) : Prop :=
  ∀ (x y : Int) (c : Nat), InArray b.w b.h x y → c < n → m (b.data + index n b.w x y c) = some (some (f x y c))

theorem mapM_range {β : Type} (g : Nat → Option β) (v : Nat → β) (n : Nat) (h : ∀ c, c < n → g c = some (v c)) :
    (List.range n).mapM g = some ((List.range n).map v) := by
  have : ∀ l : List Nat, (∀ c ∈ l, c < n) → l.mapM g = some (l.map v) := by
    intro l
    induction l with
    | nil => intro _; rfl
    | cons a t ih =>
      intro hl
      rw [List.mapM_cons, h a (hl a (by simp)), ih fun c hc => hl c (by simp [hc])]
      rfl
  exact this _ fun c hc => by simpa using hc

/-- The pixel at a position in the block consists of the components of the item at that position. -/
theorem C190_get_pixel (I D n : Nat) (b : Block) (f : Int → Int → Nat → α) (m : Mem α) (x y : Int) (hnD : (n : Int) < 2 ^ D)
    (hwD : n * b.w < 2 ^ D) (hc : Contents n b f m) (hp : InArray b.w b.h x y) :
    b.getPixel I D n x y m = some ((List.range n).map (f x y)) := by
  have hpD : (0 : Int) < 2 ^ D := by positivity
  have p1 : 0 ≤ (n : Int) * b.w := mul_nonneg (by omega) (by have := hp.1; have := hp.2.1; omega)
  unfold Block.getPixel
  rw [tray_eq (fits_ptrdiff.mpr (by omega)) (fits_ptrdiff.mpr (by omega))]
  simp only [Option.bind_eq_bind, Option.bind_some]
  apply mapM_range
  intro c hcn
  have := hc x y c hp hcn
  rw [← addr_index] at this
  simp only [load, Iter.ptr]
  simp only [addr] at this
  rw [this]; rfl

/-- A block of 2 by 2 items with 2 channels. -/
example : (⟨2, 2, 0, 8⟩ : Block).getPixel 31 63 2 1 1 (cells [some 1, some 2, some 3, some 4, some 5, some 6, some 7, some 8]) =
    some [7, 8] := by decide

/-- The color index at a position in an index block is the one that was stored there, also when its packed form is a negative value. -/
theorem C190_get_index (I D S : Nat) (hI : 1 ≤ I) (T : Ty) (N : Nat) (b : Block) (f : Int → Int → Nat → Int) (m : Mem Int) (x y : Int) (v : Nat)
    (hD : 1 ≤ D) (hwD : b.w < 2 ^ D) (hN : N ≤ BitMedium.Spec.width T) (hU : N ≤ (BitMedium.unpackedType I T N).bits) (hS : N ≤ S) (hv : v < 2 ^ N)
    (hc : Contents 1 b f m) (hp : InArray b.w b.h x y) (hf : f x y 0 = BitMedium.Spec.packed T N v) :
    b.getIndex I D S T N x y m = some (v : Int) := by
  have h21 : (2 : Int) ^ 1 ≤ 2 ^ D := pow_le_pow_right₀ (by decide) hD
  obtain ⟨h1, h2, -⟩ := id hp
  unfold Block.getIndex
  rw [tray_eq (fits_ptrdiff.mpr (by push_cast; omega)) (fits_ptrdiff.mpr (by push_cast; omega))]
  have := hc x y 0 hp (by decide)
  rw [← addr_index] at this
  simp only [addr] at this
  have hl : load m ((⟨b.data, ((1 : Nat) : Int), ((1 : Nat) : Int) * b.w⟩ : Iter).ptr x y + 0) = some (BitMedium.Spec.packed T N v) := by
    simp only [load, Iter.ptr]
    simp only [Nat.cast_zero] at this
    rw [this, hf]; rfl
  simp only [Option.bind_eq_bind, Option.bind_some]
  rw [hl]
  simp only [Option.bind_some]
  unfold BitMedium.unpackInt
  rw [BitMedium.C73_unpack I hI T _ N v hN hU hv]
  simp only [Option.bind_some]
  rw [cast_fits]
  rw [fits_size]
  have : (2 : Int) ^ N ≤ 2 ^ S := pow_le_pow_right₀ (by decide) hS
  have : ((v : Nat) : Int) < 2 ^ N := by exact_mod_cast hv
  omega

/-- Type `char`, when signed, holds color index 200 as -56. -/
example : (⟨2, 1, 0, 2⟩ : Block).getIndex 31 63 64 ⟨true, 7⟩ 8 1 0 (fun a => if a = 1 then some (some (-56)) else none) = some 200 := by decide

/-! ### Images that refer to blocks (C191) -/

/-- The box is in the block. -/
def Inside (b : Block) (s : Box) : Prop := 0 ≤ s.x ∧ 0 ≤ s.y ∧ 0 ≤ s.w ∧ 0 ≤ s.h ∧ s.x + s.w ≤ b.w ∧ s.y + s.h ≤ b.h

/-- The number of components per pixel. -/
def comps (channels : Nat) (hasAlpha : Bool) : Nat := channels + hasAlpha.toNat

theorem comps_eq (channels : Nat) (hasAlpha : Bool) : channels + (if hasAlpha then 1 else 0) = comps channels hasAlpha := by
  cases hasAlpha <;> rfl

theorem ofBlock_eq {I D : Nat} {b : Block} {s : Box} {ch : Nat} {al : Bool} (hnD : (comps ch al : Int) < 2 ^ D) (hwD : comps ch al * b.w < 2 ^ D)
    (hw : b.w < 2 ^ I) (hh : b.h < 2 ^ I) (hs : Inside b s) :
    TrayImage.ofBlock I D b s ch al =
      some ⟨⟨(⟨b.data, comps ch al, comps ch al * b.w⟩ : Iter).plus s.x s.y, s.w, s.h⟩, ch, al⟩ := by
  have hpD : (0 : Int) < 2 ^ D := by positivity
  have hpI : (0 : Int) < 2 ^ I := by positivity
  obtain ⟨h1, h2, h3, h4, h5, h6⟩ := hs
  have p1 : 0 ≤ (comps ch al : Int) * b.w := mul_nonneg (by omega) (by omega)
  unfold TrayImage.ofBlock
  rw [comps_eq, tray_eq (fits_ptrdiff.mpr (by omega)) (fits_ptrdiff.mpr (by omega))]
  simp only [Option.bind_eq_bind, Option.bind_some, Tray.subtray]
  rw [ImageIter.sub_ok (by omega) (by omega), ImageIter.sub_ok (by omega) (by omega)]
  simp

theorem contained_true {I : Nat} {a : Box} {w h : Int} (hw : w < 2 ^ I) (hh : h < 2 ^ I) (h1 : 0 ≤ a.x) (h2 : 0 ≤ a.y) (h3 : 0 ≤ a.w)
    (h4 : 0 ≤ a.h) (h5 : a.x + a.w ≤ w) (h6 : a.y + a.h ≤ h) : a.containedIn I ⟨0, 0, w, h⟩ = some true := by
  have hpI : (0 : Int) < 2 ^ I := by positivity
  obtain ⟨r, e, hr⟩ := contains_eq (I := I) (a := ⟨0, 0, w, h⟩) (b := a) ⟨h3, h4⟩
    (by simp only [PixelBox.Spec.Exists, Rep]; omega)
    ⟨by show |0 - a.x| ≤ _; rw [abs_le]; omega, by show |0 - a.y| ≤ _; rw [abs_le]; omega⟩
  unfold Box.containedIn
  rw [e, hr.mpr ⟨⟨h1, by simp only; omega⟩, h2, by simp only; omega⟩]

theorem addr_plus (it : Iter) (dx dy x y : Int) (c : Nat) : addr (it.plus dx dy) x y c = addr it (dx + x) (dy + y) c := by
  simp only [addr, Iter.plus]; ring

/-- The image has the size of the part of the block that it refers to. -/
theorem C191_size (I D : Nat) (b : Block) (s : Box) (ch : Nat) (al : Bool) (hnD : (comps ch al : Int) < 2 ^ D)
    (hwD : comps ch al * b.w < 2 ^ D) (hw : b.w < 2 ^ I) (hh : b.h < 2 ^ I) (hs : Inside b s) :
    ∃ img, TrayImage.ofBlock I D b s ch al = some img ∧ img.size = (s.w, s.h) :=
  ⟨_, ofBlock_eq hnD hwD hw hh hs, rfl⟩

/-- An image made from a block without specification of a part refers to all of the block. -/
theorem C191_whole (I D : Nat) (b : Block) (ch : Nat) (al : Bool) (hnD : (comps ch al : Int) < 2 ^ D)
    (hwD : comps ch al * b.w < 2 ^ D) (hw0 : 0 ≤ b.w) (hh0 : 0 ≤ b.h) (hw : b.w < 2 ^ I) (hh : b.h < 2 ^ I) :
    TrayImage.ofWholeBlock I D b ch al = TrayImage.ofBlock I D b ⟨0, 0, b.w, b.h⟩ ch al ∧
      ∃ img, TrayImage.ofWholeBlock I D b ch al = some img ∧ img.size = (b.w, b.h) :=
  ⟨rfl, C191_size I D b ⟨0, 0, b.w, b.h⟩ ch al hnD hwD hw hh
    ⟨le_refl 0, le_refl 0, hw0, hh0, by simp only; omega, by simp only; omega⟩⟩

/-- Reading from the image gives the pixels of the block at the corresponding positions, and leaves all memory except the pixels of the specified
tray as it is. -/
theorem C191_read (I D : Nat) (b : Block) (s : Box) (ch : Nat) (al : Bool) (img : TrayImage) (f : Int → Int → Nat → α) (x y : Int) (t : Tray)
    (m : Mem α) (hnD : (comps ch al : Int) < 2 ^ D) (hwD : comps ch al * b.w < 2 ^ D) (hw : b.w < 2 ^ I) (hh : b.h < 2 ^ I) (hs : Inside b s)
    (hi : TrayImage.ofBlock I D b s ch al = some img) (hc : Contents (comps ch al) b f m) (hx : 0 ≤ x) (hy : 0 ≤ y) (htw : 0 ≤ t.w)
    (hth : 0 ≤ t.h) (hxw : x + t.w ≤ s.w) (hyh : y + t.h ≤ s.h) (hg : Grid t.iter (comps ch al) ⟨0, 0, t.w, t.h⟩ m)
    (hd : ∀ (u v : Int) (c : Nat) (i : Int), InArray t.w t.h u v → c < comps ch al → 0 ≤ i → i < comps ch al * b.w * b.h →
      addr t.iter u v c ≠ b.data + i) :
    ∃ m', img.read I x y t m = some m' ∧
      Holds t.iter (comps ch al) ⟨0, 0, t.w, t.h⟩ (fun u v c => f (s.x + x + u) (s.y + y + v) c) m' ∧
      SameElsewhere t.iter (comps ch al) ⟨0, 0, t.w, t.h⟩ m m' := by
  rw [ofBlock_eq hnD hwD hw hh hs] at hi
  cases hi
  obtain ⟨h1, h2, h3, h4, h5, h6⟩ := hs
  have hin : ∀ u v : Int, Pixel ⟨0, 0, t.w, t.h⟩ u v → InArray b.w b.h (s.x + (x + u)) (s.y + (y + v)) := by
    intro u v hp
    obtain ⟨q1, q2, q3, q4⟩ := pixel_iff.mp hp
    exact ⟨by omega, by omega, by omega, by omega⟩
  have ha : ∀ (u v : Int) (c : Nat), addr (((⟨b.data, comps ch al, comps ch al * b.w⟩ : Iter).plus s.x s.y).plus x y) u v c =
      b.data + index (comps ch al) b.w (s.x + (x + u)) (s.y + (y + v)) c := by
    intro u v c; rw [addr_plus, addr_plus, addr_index]
  obtain ⟨m', -, e, a1, a2, -⟩ := C91_copy (((⟨b.data, comps ch al, comps ch al * b.w⟩ : Iter).plus s.x s.y).plus x y) t.iter (comps ch al) t.w t.h
    (fun u v c => f (s.x + x + u) (s.y + y + v) c) m hg
    (fun u v c hp hcn => by rw [ha, hc _ _ c (hin u v hp) hcn]; beta_reduce; rw [add_assoc, add_assoc])
    (fun u v c u' v' c' hp hcn hp' hcn' => by
      rw [ha]
      have := index_range (hin u v hp) hcn
      exact (hd u' v' c' _ (pixel_iff.mp hp') hcn' this.1 this.2).symm)
  refine ⟨m', ?_, a1, a2⟩
  unfold TrayImage.read
  rw [contained_true (by simp only; omega) (by simp only; omega) hx hy htw hth hxw hyh]
  simp only [Option.bind_eq_bind, Option.bind_some, if_true]
  rw [ImageIter.sub_ok (by omega) (by omega), ImageIter.sub_ok (by omega) (by omega)]
  simp only [Option.bind_some, sub_zero]
  unfold TrayImage.numComps
  rw [comps_eq]
  exact e

/-- Writing to the image assigns the pixels of the specified tray to the pixels of the block at the corresponding positions, and leaves all other
memory, in particular the other pixels of the block, as it is. -/
theorem C191_write (I D : Nat) (b : Block) (s : Box) (ch : Nat) (al : Bool) (img : TrayImage) (f : Int → Int → Nat → α) (x y : Int) (t : Tray)
    (m : Mem α) (hnD : (comps ch al : Int) < 2 ^ D) (hwD : comps ch al * b.w < 2 ^ D) (hw : b.w < 2 ^ I) (hh : b.h < 2 ^ I) (hs : Inside b s)
    (hi : TrayImage.ofBlock I D b s ch al = some img)
    (hm : ∀ i : Int, 0 ≤ i → i < comps ch al * b.w * b.h → m (b.data + i) ≠ none) (hx : 0 ≤ x) (hy : 0 ≤ y) (htw : 0 ≤ t.w)
    (hth : 0 ≤ t.h) (hxw : x + t.w ≤ s.w) (hyh : y + t.h ≤ s.h) (hf : Holds t.iter (comps ch al) ⟨0, 0, t.w, t.h⟩ f m)
    (hd : ∀ (u v : Int) (c : Nat) (i : Int), InArray t.w t.h u v → c < comps ch al → 0 ≤ i → i < comps ch al * b.w * b.h →
      addr t.iter u v c ≠ b.data + i) :
    ∃ m', img.write I x y t m = some m' ∧
      (∀ (u v : Int) (c : Nat), InArray t.w t.h u v → c < comps ch al →
        m' (b.data + index (comps ch al) b.w (s.x + x + u) (s.y + y + v) c) = some (some (f u v c))) ∧
      ∀ a : Int, (∀ (u v : Int) (c : Nat), InArray t.w t.h u v → c < comps ch al →
        a ≠ b.data + index (comps ch al) b.w (s.x + x + u) (s.y + y + v) c) → m' a = m a := by
  rw [ofBlock_eq hnD hwD hw hh hs] at hi
  cases hi
  obtain ⟨h1, h2, h3, h4, h5, h6⟩ := hs
  have hin : ∀ u v : Int, Pixel ⟨0, 0, t.w, t.h⟩ u v → InArray b.w b.h (s.x + x + u) (s.y + y + v) := by
    intro u v hp
    obtain ⟨q1, q2, q3, q4⟩ := pixel_iff.mp hp
    exact ⟨by omega, by omega, by omega, by omega⟩
  have ha : ∀ (u v : Int) (c : Nat), addr (((⟨b.data, comps ch al, comps ch al * b.w⟩ : Iter).plus s.x s.y).plus x y) u v c =
      b.data + index (comps ch al) b.w (s.x + x + u) (s.y + y + v) c := by
    intro u v c; rw [addr_plus, addr_plus, addr_index, add_assoc, add_assoc]
  have hgb := block_grid (n := comps ch al) (b := b) (m := m) hm
  have hg : Grid (((⟨b.data, comps ch al, comps ch al * b.w⟩ : Iter).plus s.x s.y).plus x y) (comps ch al) ⟨0, 0, t.w, t.h⟩ m := by
    constructor
    · intro u v c hp hcn
      rw [ha]
      have := index_range (hin u v hp) hcn
      exact hm _ this.1 this.2
    · intro u v c u' v' c' hp hcn hp' hcn' e
      rw [ha, ha, ← addr_index, ← addr_index] at e
      have := hgb.distinct _ _ _ _ _ _ (pixel_iff.mpr (hin u v hp)) hcn (pixel_iff.mpr (hin u' v' hp')) hcn' e
      omega
  obtain ⟨m', e, -, a1, a2, -⟩ := C91_copy t.iter (((⟨b.data, comps ch al, comps ch al * b.w⟩ : Iter).plus s.x s.y).plus x y) (comps ch al) t.w t.h
    f m hg hf
    (fun u v c u' v' c' hp hcn hp' hcn' => by
      rw [ha]
      have := index_range (hin u' v' hp') hcn'
      exact hd u v c _ (pixel_iff.mp hp) hcn this.1 this.2)
  refine ⟨m', ?_, fun u v c hp hcn => ?_, fun a hna => a2 a fun u v c hp hcn => ?_⟩
  · unfold TrayImage.write
    rw [contained_true (by simp only; omega) (by simp only; omega) hx hy htw hth hxw hyh]
    simp only [Option.bind_eq_bind, Option.bind_some, if_true]
    rw [ImageIter.sub_ok (by omega) (by omega), ImageIter.sub_ok (by omega) (by omega)]
    simp only [Option.bind_some, sub_zero]
    unfold TrayImage.numComps
    rw [comps_eq]
    exact e
  · rw [← ha]; exact a1 u v c (pixel_iff.mpr hp) hcn
  · rw [ha]; exact hna u v c (pixel_iff.mp hp) hcn

/-- Filling of an area of the image assigns the specified color to the pixels of the block at the corresponding positions, and leaves all other
memory as it is. -/
theorem C191_fill (I D : Nat) (b : Block) (s : Box) (ch : Nat) (al : Bool) (img : TrayImage) (area : Box) (color : List α)
    (m : Mem α) (hnD : (comps ch al : Int) < 2 ^ D) (hwD : comps ch al * b.w < 2 ^ D) (hw : b.w < 2 ^ I) (hh : b.h < 2 ^ I) (hs : Inside b s)
    (hi : TrayImage.ofBlock I D b s ch al = some img)
    (hm : ∀ i : Int, 0 ≤ i → i < comps ch al * b.w * b.h → m (b.data + i) ≠ none) (hx : 0 ≤ area.x) (hy : 0 ≤ area.y) (haw : 0 ≤ area.w)
    (hah : 0 ≤ area.h) (hxw : area.x + area.w ≤ s.w) (hyh : area.y + area.h ≤ s.h) (hl : color.length = comps ch al) :
    ∃ m', img.fill I area color m = some m' ∧
      (∀ (u v : Int) (c : Nat) (hc : c < color.length), Pixel area u v →
        m' (b.data + index (comps ch al) b.w (s.x + u) (s.y + v) c) = some (some color[c])) ∧
      ∀ a : Int, (∀ (u v : Int) (c : Nat), Pixel area u v → c < comps ch al →
        a ≠ b.data + index (comps ch al) b.w (s.x + u) (s.y + v) c) → m' a = m a := by
  rw [ofBlock_eq hnD hwD hw hh hs] at hi
  cases hi
  obtain ⟨h1, h2, h3, h4, h5, h6⟩ := hs
  have hin : ∀ u v : Int, Pixel ⟨0, 0, area.w, area.h⟩ u v → InArray b.w b.h (s.x + area.x + u) (s.y + area.y + v) := by
    intro u v hp
    obtain ⟨q1, q2, q3, q4⟩ := pixel_iff.mp hp
    exact ⟨by omega, by omega, by omega, by omega⟩
  have ha : ∀ (u v : Int) (c : Nat), addr (((⟨b.data, comps ch al, comps ch al * b.w⟩ : Iter).plus s.x s.y).plus area.x area.y) u v c =
      b.data + index (comps ch al) b.w (s.x + area.x + u) (s.y + area.y + v) c := by
    intro u v c; rw [addr_plus, addr_plus, addr_index, add_assoc, add_assoc]
  have hgb := block_grid (n := comps ch al) (b := b) (m := m) hm
  have hg : Grid (((⟨b.data, comps ch al, comps ch al * b.w⟩ : Iter).plus s.x s.y).plus area.x area.y) (comps ch al) ⟨0, 0, area.w, area.h⟩ m := by
    constructor
    · intro u v c hp hcn
      rw [ha]
      have := index_range (hin u v hp) hcn
      exact hm _ this.1 this.2
    · intro u v c u' v' c' hp hcn hp' hcn' e
      rw [ha, ha, ← addr_index, ← addr_index] at e
      have := hgb.distinct _ _ _ _ _ _ (pixel_iff.mpr (hin u v hp)) hcn (pixel_iff.mpr (hin u' v' hp')) hcn' e
      omega
  obtain ⟨m', e, a2, a1⟩ := C91_fill I (((⟨b.data, comps ch al, comps ch al * b.w⟩ : Iter).plus s.x s.y).plus area.x area.y) (comps ch al)
    ⟨0, 0, area.w, area.h⟩ color m (by simp only [PixelBox.Spec.Exists, Rep]; omega) (by simp only [Valid, Rep]; omega) hg hl
  have hpx : ∀ u v : Int, Pixel area u v ↔ Pixel ⟨0, 0, area.w, area.h⟩ (u - area.x) (v - area.y) := by
    intro u v; simp only [Pixel]; omega
  refine ⟨m', ?_, fun u v c hcn hp => ?_, fun a hna => a2 a fun u v c hp hcn => ?_⟩
  · unfold TrayImage.fill
    rw [contained_true (by omega) (by omega) hx hy haw hah hxw hyh]
    simp only [Option.bind_eq_bind, Option.bind_some, if_true, Tray.subtray]
    rw [ImageIter.sub_ok (by omega) (by omega), ImageIter.sub_ok (by omega) (by omega)]
    simp only [Option.bind_some, sub_zero]
    unfold TrayImage.numComps
    rw [comps_eq]
    exact e
  · have := a1 (u - area.x) (v - area.y) c (hl ▸ hcn) ((hpx u v).mp hp)
    rw [ha] at this
    rw [← this]; congr 3 <;> omega
  · have := hna (area.x + u) (area.y + v) c ((hpx _ _).mpr (by simpa using hp)) hcn
    rw [ha]
    rwa [← add_assoc, ← add_assoc] at this

/-- Access outside the image is not possible. -/
theorem C191_outside (I : Nat) (img : TrayImage) (x y : Int) (t : Tray) (m : Mem α) (hx1 : -2 ^ I < x) (hy1 : -2 ^ I < y) (hx2 : x < 2 ^ I)
    (hy2 : y < 2 ^ I) (hw0 : 0 ≤ img.tray.w) (hh0 : 0 ≤ img.tray.h) (hw : img.tray.w < 2 ^ I) (hh : img.tray.h < 2 ^ I) (htw : 0 ≤ t.w) (hth : 0 ≤ t.h)
    (ho : ¬ (0 ≤ x ∧ 0 ≤ y ∧ x + t.w ≤ img.size.1 ∧ y + t.h ≤ img.size.2)) :
    img.read I x y t m = none ∧ img.write I x y t m = none ∧ ∀ color, img.fill I ⟨x, y, t.w, t.h⟩ color m = none := by
  have hpI : (0 : Int) < 2 ^ I := by positivity
  have hc : (⟨x, y, t.w, t.h⟩ : Box).containedIn I ⟨0, 0, img.tray.w, img.tray.h⟩ = some false := by
    obtain ⟨r, e, hr⟩ := contains_eq (I := I) (a := ⟨0, 0, img.tray.w, img.tray.h⟩) (b := ⟨x, y, t.w, t.h⟩) ⟨htw, hth⟩
      (by simp only [PixelBox.Spec.Exists, Rep]; omega)
      ⟨by show |0 - x| ≤ _; rw [abs_le]; omega, by show |0 - y| ≤ _; rw [abs_le]; omega⟩
    unfold Box.containedIn
    rw [e]
    cases r
    · rfl
    · exfalso
      have := hr.mp rfl
      simp only at this
      apply ho
      simp only [TrayImage.size]; omega
  refine ⟨?_, ?_, fun color => ?_⟩
  · unfold TrayImage.read; rw [hc]; rfl
  · unfold TrayImage.write; rw [hc]; rfl
  · unfold TrayImage.fill; rw [hc]; rfl

/-- An image that refers to the right half of a block of 4 by 2 pixels with one component: one column is read, another is written. -/
example : (TrayImage.ofBlock 31 63 ⟨4, 2, 0, 8⟩ ⟨2, 0, 2, 2⟩ 1 false).bind (fun img => dump (img.read 31 1 0 ⟨⟨8, 1, 1⟩, 1, 2⟩
    (cells [some 1, some 2, some 3, some 4, some 5, some 6, some 7, some 8, none, none])) 10) =
    some [some 1, some 2, some 3, some 4, some 5, some 6, some 7, some 8, some 4, some 8] := by decide
example : (TrayImage.ofBlock 31 63 ⟨4, 2, 0, 8⟩ ⟨2, 0, 2, 2⟩ 1 false).bind (fun img => dump (img.write 31 0 0 ⟨⟨8, 1, 1⟩, 1, 2⟩
    (cells [some 1, some 2, some 3, some 4, some 5, some 6, some 7, some 8, some 0, some 9])) 10) =
    some [some 1, some 2, some 0, some 4, some 5, some 6, some 9, some 8, some 0, some 9] := by decide
example : (TrayImage.ofBlock 31 63 ⟨4, 2, 0, 8⟩ ⟨2, 0, 2, 2⟩ 1 false).bind (fun img => dump (img.fill 31 ⟨0, 1, 2, 1⟩ [0]
    (cells [some 1, some 2, some 3, some 4, some 5, some 6, some 7, some 8])) 8) =
    some [some 1, some 2, some 3, some 4, some 5, some 6, some 0, some 0] := by decide

end Verif.PixelBlock
