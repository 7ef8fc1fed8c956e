import Verif.PaletteMap.Model
import Verif.KdTree.Props

/-!
# Properties of the palette map (C185 - C187)
-/

namespace Verif.PaletteMap

open KdTree.Spec (sqdist NthElement Organized)

/-! ## C185: lookup of colors -/

section
variable {R : Type} [CommRing R] [LinearOrder R] [IsStrictOrderedRing R]

theorem flatMap_block {α : Type} (f : Nat → Nat → α) (ext n : Nat) :
    ((List.range n).flatMap fun i => (List.range ext).map (f i)).length = n * ext ∧
    ∀ i c, i < n → c < ext →
      ((List.range n).flatMap fun i => (List.range ext).map (f i))[i * ext + c]? = some (f i c) := by
  induction n with
  | zero => simp
  | succ n ih =>
    obtain ⟨h1, h2⟩ := ih
    rw [List.range_succ, List.flatMap_append]
    simp only [List.flatMap_cons, List.flatMap_nil, List.append_nil]
    refine ⟨by rw [List.length_append, h1, List.length_map, List.length_range, Nat.succ_mul], ?_⟩
    intro i c hi hc
    by_cases h : i < n
    · rw [List.getElem?_append_left, h2 i c h hc]
      rw [h1]
      calc i * ext + c < i * ext + ext := by omega
        _ = (i + 1) * ext := by rw [Nat.succ_mul]
        _ ≤ n * ext := Nat.mul_le_mul_right _ h
    · have : i = n := by omega
      subst this
      rw [List.getElem?_append_right (by omega), h1, Nat.add_sub_cancel_left]
      simp [hc]

/-- The color with the specified index, in floating point form. -/
def colorOf {C : Type} [Inhabited C] (conv : (Nat → C) → Nat → R) (ext : Nat) (native : List C)
    (i : Nat) : Nat → R :=
  conv fun c => native.getD (i * ext + c) default

theorem getComp_convert {C : Type} [Inhabited C] (conv : (Nat → C) → Nat → R) (ext size : Nat)
    (native : List C) (i c : Nat) (hi : i < size) (hc : c < ext) :
    getComp ext (convert conv ext size native) i c = colorOf conv ext native i c := by
  unfold getComp convert
  rw [List.getD_eq_getElem?_getD, (flatMap_block _ ext size).2 i c hi hc]
  rfl

theorem inBounds_convert {C : Type} [Inhabited C] (conv : (Nat → C) → Nat → R) (k ext size : Nat)
    (native : List C) (colors : List Nat) (hk : k ≤ ext) (hc : ∀ p ∈ colors, p < size) :
    inBounds k ext (convert conv ext size native) colors = true := by
  unfold inBounds convert
  rw [List.all_eq_true]
  intro p hp
  rw [List.all_eq_true]
  intro i hi
  have hi := List.mem_range.1 hi
  rw [decide_eq_true_eq, (flatMap_block _ ext size).1]
  calc p * ext + i < p * ext + ext := by omega
    _ = (p + 1) * ext := by rw [Nat.succ_mul]
    _ ≤ size * ext := Nat.mul_le_mul_right _ (hc p hp)

theorem sqdist_congr (k : Nat) (comp comp' : Nat → Nat → R) (q : Nat → R) (p : Nat)
    (h : ∀ i, i < k → comp p i = comp' p i) : sqdist k comp q p = sqdist k comp' q p := by
  unfold sqdist
  apply Finset.sum_congr rfl
  intro i hi
  rw [h i (Finset.mem_range.1 hi)]

/-- Construction succeeds, and a lookup then produces the index of a color that is as close as any other
color of the palette, unless the palette is empty. Only those channels are considered that count. -/
theorem C185_lookup {C : Type} [Inhabited C] (conv : (Nat → C) → Nat → R)
    (nth : Nat → Nat → Nat → List Nat → List Nat) (maxLevels numChannels numChannelsExt size : Nat)
    (address : Nat) (native : List C) (hlen : native.length = numChannelsExt * size)
    (hk : numChannels ≤ numChannelsExt) (hk0 : numChannels ≠ 0) (hsize : size < 2 ^ maxLevels)
    (hn : ∀ call dim n l, n < l.length →
      NthElement (getComp numChannelsExt (convert conv numChannelsExt size native)) dim n l
        (nth call dim n l)) (color : Nat → R) :
    ∃ m r, init conv nth maxLevels numChannels numChannelsExt size address native = some (some m) ∧
      m.numChannels = numChannels ∧ m.size = size ∧ lookup maxLevels m color = some r ∧
      (r = none ↔ size = 0) ∧
      ∀ i, r = some i → i < size ∧ ∀ j, j < size →
        sqdist numChannels (colorOf conv numChannelsExt native) color i ≤
        sqdist numChannels (colorOf conv numChannelsExt native) color j := by
  set comps := convert conv numChannelsExt size native with hcomps
  obtain ⟨tree, t1, t2, t3⟩ := KdTree.C42_sort
    (⟨numChannels, getComp numChannelsExt comps, maxLevels⟩ : KdTree.Env Nat R) nth (List.range size)
    (fun _ => hk0) (by rw [List.length_range]; exact hsize) hn
  have hmem : ∀ p, p ∈ tree ↔ p < size := fun p => by rw [t2.mem_iff, List.mem_range]
  have hlt : tree.length < 2 ^ maxLevels := by rw [t2.length_eq, List.length_range]; exact hsize
  have hd : ∀ p, p < size → sqdist numChannels (getComp numChannelsExt comps) color p =
      sqdist numChannels (colorOf conv numChannelsExt native) color p := fun p hp =>
    sqdist_congr _ _ _ _ _ fun i hi => getComp_convert conv _ _ _ _ _ hp (by omega)
  have hinit : init conv nth maxLevels numChannels numChannelsExt size address native =
      some (some ⟨numChannels, numChannelsExt, size, some address, some comps, some tree⟩) := by
    unfold init setupKdtree
    rw [if_neg (by simpa using hlen)]
    simp only [← hcomps]
    rw [if_pos (inBounds_convert conv _ _ _ _ _ hk fun p hp => List.mem_range.1 hp), t1]
    rfl
  have hlook : ∀ x, KdTree.find (⟨numChannels, getComp numChannelsExt comps, maxLevels⟩ :
      KdTree.Env Nat R) id tree color none = x →
      lookup maxLevels (⟨numChannels, numChannelsExt, size, some address, some comps, some tree⟩ :
        Map R) color =
        x.map (Option.map Prod.fst) := by
    intro x hx
    unfold lookup
    simp only
    rw [if_pos (inBounds_convert conv _ _ _ _ _ hk fun p hp => (hmem p).1 hp), hx]
  rcases KdTree.C41_find (⟨numChannels, getComp numChannelsExt comps, maxLevels⟩ : KdTree.Env Nat R) id
    tree color none (fun _ => hk0) hlt t3 with ⟨p, g1, g2, g3, _⟩ | ⟨g1, g2⟩
  · refine ⟨_, some p, hinit, rfl, rfl, by rw [hlook _ g1]; rfl, ?_, ?_⟩
    · have := (hmem p).1 g2
      simp only [reduceCtorEq, false_iff]
      omega
    · intro i hi
      obtain rfl := Option.some.inj hi
      refine ⟨(hmem p).1 g2, ?_⟩
      intro j hj
      have := g3 j ((hmem j).2 hj)
      simp only at this
      rwa [hd p ((hmem p).1 g2), hd j hj] at this
  · refine ⟨_, none, hinit, rfl, rfl, by rw [hlook _ g1]; rfl, ?_, by simp⟩
    simp only [true_iff]
    by_contra hc
    obtain ⟨m, hm, _⟩ := g2 0 ((hmem 0).2 (by omega))
    cases hm

/-- A map that was moved works as before if the target was constructed with the same number of channels.
The full statement is without that condition. -/
theorem C185_move_partial (maxLevels : Nat) (target origin : Map R) (color : Nat → R)
    (h : target.numChannelsExt = origin.numChannelsExt) :
    lookup maxLevels (moveFrom target origin).1 color = lookup maxLevels origin color := by
  unfold lookup moveFrom
  simp only [h]

/-- No color is found in a map that was constructed without colors. -/
theorem C185_default (maxLevels : Nat) (color : Nat → R) : lookup maxLevels ({} : Map R) color = some none := by
  unfold lookup
  simp

/-- Precisely one of the two maps has the colors after a move. A lookup in the map that was moved from is undefined
behavior, unless it had no colors. -/
theorem C185_moved_from (maxLevels : Nat) (target origin : Map R) (color : Nat → R) :
    (moveFrom target origin).1.native = origin.native ∧ (moveFrom target origin).2.native = none ∧
    lookup maxLevels (moveFrom target origin).2 color = if origin.size = 0 then some none else none := by
  refine ⟨rfl, rfl, ?_⟩
  unfold lookup moveFrom
  simp

/-- The number of components is checked. -/
theorem C185_wrong_number {C : Type} [Inhabited C] (conv : (Nat → C) → Nat → R)
    (nth : Nat → Nat → Nat → List Nat → List Nat) (maxLevels numChannels numChannelsExt size : Nat)
    (address : Nat) (native : List C) (hlen : native.length ≠ numChannelsExt * size) :
    init conv nth maxLevels numChannels numChannelsExt size address native = some none := by
  unfold init
  rw [if_pos hlen]

end

/-- A way to do what `std::nth_element()` does. -/
def nthBySorting (comp : Nat → Nat → ℤ) (_call dim _n : Nat) (l : List Nat) : List Nat :=
  l.foldr (fun p s => s.takeWhile (fun x => comp x dim < comp p dim) ++
    p :: s.dropWhile (fun x => comp x dim < comp p dim)) []

/-- Three opaque colors: a medium gray, black, and white. -/
def grays : List Nat := [5, 5, 5, 1, 0, 0, 0, 1, 9, 9, 9, 1]

/-- The palette map for those colors. -/
def grayMap : Option (Option (Map ℤ)) :=
  init (fun f c => (f c : ℤ)) (nthBySorting (getComp 4 (grays.map fun x => (x : ℤ)))) 31 3 4 3 77 grays

/-- A new map gives wrong answers after having been assigned to by moving. White is no longer found. -/
theorem C185_move_violated :
    (grayMap.bind fun m => m.map fun m => (lookup 31 m (fun _ => 9),
      lookup 31 (moveFrom {} m).1 (fun _ => 9))) = some (some (some 2), some (some 0)) := by
  decide +kernel

example : (grayMap.bind fun m => m.map fun m => [lookup 31 m (fun _ => 1), lookup 31 m (fun _ => 4),
    lookup 31 m (fun i => if i = 0 then 8 else 7)]) =
    some [some (some 1), some (some 0), some (some 2)] := by decide +kernel

/-! ## C186: reading of the palette -/

section
variable {C : Type}

theorem perform_spec (n : Nat) (F : Nat → C) (l : List (Nat × C)) (a : Nat → C)
    (hv : ∀ p ∈ l, p.2 = F p.1) (hb : ∀ p ∈ l, p.1 < n) :
    ∃ b, perform n l a = some b ∧ (∀ k, (∃ v, (k, v) ∈ l) → b k = F k) ∧
      ∀ k, (∀ v, (k, v) ∉ l) → b k = a k := by
  induction l generalizing a with
  | nil => exact ⟨a, rfl, by simp, by simp⟩
  | cons p l ih =>
    obtain ⟨k0, v0⟩ := p
    obtain ⟨b, h1, h2, h3⟩ := ih (fun j => if j = k0 then v0 else a j)
      (fun p hp => hv p (List.mem_cons_of_mem _ hp)) (fun p hp => hb p (List.mem_cons_of_mem _ hp))
    refine ⟨b, ?_, ?_, ?_⟩
    · unfold perform
      rw [if_pos (hb (k0, v0) List.mem_cons_self), h1]
    · rintro k ⟨v, hk⟩
      by_cases he : ∃ v, (k, v) ∈ l
      · exact h2 k he
      · have hne : ∀ v, (k, v) ∉ l := fun v hv => he ⟨v, hv⟩
        rcases List.mem_cons.1 hk with heq | hk
        · simp only [Prod.mk.injEq] at heq
          rw [h3 k hne, if_pos heq.1, heq.1]
          exact hv (k0, v0) List.mem_cons_self
        · exact absurd hk (hne v)
    · intro k hk
      rw [h3 k (fun v hv => hk v (List.mem_cons_of_mem _ hv)), if_neg]
      rintro rfl
      exact hk v0 List.mem_cons_self

theorem mem_blockWrites (r : Reader C) (stride y w h k : Nat) (v : C) :
    (k, v) ∈ blockWrites r stride y w h ↔ ∃ j i c, j < h ∧ i < w ∧ c < r.numChannelsExt ∧
      k = ((y + j) * stride + i) * r.numChannelsExt + c ∧ v = r.comp i (y + j) c := by
  unfold blockWrites
  simp only [List.mem_flatMap, List.mem_range, List.mem_map, Prod.mk.injEq]
  constructor
  · rintro ⟨j, hj, i, hi, c, hc, h1, h2⟩
    exact ⟨j, i, c, hj, hi, hc, h1.symm, h2.symm⟩
  · rintro ⟨j, i, c, hj, hi, hc, h1, h2⟩
    exact ⟨j, hj, i, hi, c, hc, h1.symm, h2.symm⟩

/-- The component that belongs at a position. -/
def expected (r : Reader C) (width k : Nat) : C :=
  r.comp (k / r.numChannelsExt % width) (k / r.numChannelsExt / width) (k % r.numChannelsExt)

theorem expected_at (r : Reader C) (width i y c : Nat) (hi : i < width) (hc : c < r.numChannelsExt) :
    expected r width ((y * width + i) * r.numChannelsExt + c) = r.comp i y c := by
  unfold expected
  have e1 : ((y * width + i) * r.numChannelsExt + c) / r.numChannelsExt = y * width + i := by
    rw [Nat.mul_comm, Nat.mul_add_div (by omega), Nat.div_eq_of_lt hc, Nat.add_zero]
  have e2 : ((y * width + i) * r.numChannelsExt + c) % r.numChannelsExt = c := by
    rw [Nat.mul_comm, Nat.mul_add_mod, Nat.mod_eq_of_lt hc]
  have e3 : (y * width + i) / width = y := by
    rw [Nat.mul_comm, Nat.mul_add_div (by omega), Nat.div_eq_of_lt hi, Nat.add_zero]
  have e4 : (y * width + i) % width = i := by
    rw [Nat.mul_comm, Nat.mul_add_mod, Nat.mod_eq_of_lt hi]
  rw [e1, e2, e3, e4]

theorem write_lt {width i y c ext size : Nat} (h : y * width + i < size) (hc : c < ext) :
    (y * width + i) * ext + c < ext * size := by
  calc (y * width + i) * ext + c < (y * width + i) * ext + ext := by omega
    _ = (y * width + i + 1) * ext := by rw [Nat.succ_mul]
    _ ≤ size * ext := Nat.mul_le_mul_right _ h
    _ = ext * size := Nat.mul_comm _ _

/-- The colors of a palette image that is not empty are read row by row, until the palette is full. -/
theorem C186_read_partial [Inhabited C] (r : Reader C) (maxSize : Option Nat) (hw : 0 < r.width)
    (hsmall : r.width * r.height ≤ 2 ^ 31 - 1) (hh : 0 < r.height) :
    ∃ size comps, readPalette r maxSize = some (size, r.numChannelsExt * size, comps) ∧
      (size : Int) = (match maxSize with
        | some n => min (r.width * r.height) n
        | none => r.width * r.height) ∧
      ∀ x y c, x < r.width.toNat → y * r.width.toNat + x < size → c < r.numChannelsExt →
        comps ((y * r.width.toNat + x) * r.numChannelsExt + c) = r.comp x y c := by
  obtain ⟨w, hw'⟩ : ∃ w : Nat, r.width = w := ⟨r.width.toNat, by omega⟩
  obtain ⟨h, hh'⟩ : ∃ h : Nat, r.height = h := ⟨r.height.toNat, by omega⟩
  unfold readPalette
  simp only
  rw [hw', hh'] at hsmall ⊢
  rw [hw'] at hw
  rw [hh'] at hh
  simp only [Int.toNat_natCast]
  have hmul : w * h ≤ 2 ^ 31 - 1 := by
    have : ((w * h : Nat) : Int) ≤ 2 ^ 31 - 1 := by rw [Nat.cast_mul]; exact hsmall
    omega
  have hwle : w ≤ w * h := Nat.le_mul_of_pos_right _ (by omega)
  have hsz : (paletteSize w h maxSize : Int) = (match maxSize with
      | some n => min ((w : Int) * h) n
      | none => (w : Int) * h) := by
    unfold paletteSize intMax
    rw [if_pos ⟨by omega, hmul⟩]
    cases maxSize with
    | none => simp
    | some n =>
      simp only
      have hc : ((w * h : Nat) : Int) = (w : Int) * h := Nat.cast_mul _ _
      rw [← hc]
      split_ifs with hgt
      · rw [min_eq_right (by omega)]
      · rw [min_eq_left (by omega)]
  generalize paletteSize w h maxSize = size at hsz
  rw [if_neg (by omega)]
  have hfull : size / w * w ≤ size := Nat.div_mul_le_self _ _
  have hrem : size - size / w * w < w := by
    have h1 := Nat.div_add_mod size w
    have h2 := Nat.mod_lt size (show 0 < w by omega)
    rw [Nat.mul_comm] at h1
    omega
  have hrow : ∀ j i, j < size / w → i < w → j * w + i < size := by
    intro j i hj hi
    calc j * w + i < j * w + w := by omega
      _ = (j + 1) * w := by rw [Nat.succ_mul]
      _ ≤ size / w * w := Nat.mul_le_mul_right _ hj
      _ ≤ size := hfull
  obtain ⟨a, a1, a2, _⟩ := perform_spec (r.numChannelsExt * size) (expected r w)
    (blockWrites r w 0 w (size / w)) (fun _ => default)
    (by
      rintro ⟨k, v⟩ hp
      obtain ⟨j, i, c, hj, hi, hc, rfl, rfl⟩ := (mem_blockWrites _ _ _ _ _ _ _).1 hp
      exact (expected_at r w i (0 + j) c hi hc).symm)
    (by
      rintro ⟨k, v⟩ hp
      obtain ⟨j, i, c, hj, hi, hc, rfl, rfl⟩ := (mem_blockWrites _ _ _ _ _ _ _).1 hp
      rw [Nat.zero_add]
      exact write_lt (hrow j i hj hi) hc)
  rw [a1]
  simp only
  by_cases hr : size - size / w * w > 0
  · rw [if_pos hr]
    obtain ⟨b, b1, b2, b3⟩ := perform_spec (r.numChannelsExt * size) (expected r w)
      (blockWrites r w (size / w) (size - size / w * w) 1) a
      (by
        rintro ⟨k, v⟩ hp
        obtain ⟨j, i, c, hj, hi, hc, rfl, rfl⟩ := (mem_blockWrites _ _ _ _ _ _ _).1 hp
        exact (expected_at r w i (size / w + j) c (by omega) hc).symm)
      (by
        rintro ⟨k, v⟩ hp
        obtain ⟨j, i, c, hj, hi, hc, rfl, rfl⟩ := (mem_blockWrites _ _ _ _ _ _ _).1 hp
        have : j = 0 := by omega
        subst this
        rw [Nat.add_zero]
        exact write_lt (by omega) hc)
    rw [b1]
    refine ⟨size, b, rfl, hsz, ?_⟩
    intro x y c hx hxy hc
    rw [← expected_at r w x y c hx hc]
    by_cases hw2 : ∃ v, ((y * w + x) * r.numChannelsExt + c, v) ∈
        blockWrites r w (size / w) (size - size / w * w) 1
    · exact b2 _ hw2
    · rw [b3 _ fun v hv => hw2 ⟨v, hv⟩]
      apply a2
      refine ⟨_, (mem_blockWrites _ _ _ _ _ _ _).2 ⟨y, x, c, ?_, hx, hc, by rw [Nat.zero_add], rfl⟩⟩
      by_contra hy
      apply hw2
      have hyeq : y = size / w := by
        apply Nat.le_antisymm _ (by omega)
        rw [Nat.le_div_iff_mul_le (by omega)]
        omega
      subst hyeq
      exact ⟨_, (mem_blockWrites _ _ _ _ _ _ _).2 ⟨0, x, c, by omega, by omega, hc, by rw [Nat.add_zero],
        rfl⟩⟩
  · rw [if_neg hr]
    refine ⟨size, a, rfl, hsz, ?_⟩
    intro x y c hx hxy hc
    rw [← expected_at r w x y c hx hc]
    apply a2
    refine ⟨_, (mem_blockWrites _ _ _ _ _ _ _).2 ⟨y, x, c, ?_, hx, hc, by rw [Nat.zero_add], rfl⟩⟩
    by_contra hy
    have : size / w * w ≤ y * w := Nat.mul_le_mul_right _ (by omega)
    omega

/-- The behavior is undefined when the palette image is empty (division by zero). -/
theorem C186_empty [Inhabited C] (r : Reader C) (maxSize : Option Nat) (hw : r.width ≤ 0) :
    readPalette r maxSize = none := by
  unfold readPalette
  simp only
  rw [if_pos (by omega)]

end

example : (readPalette (C := Nat) ⟨3, 2, 2, fun x y c => 100 * y + 10 * x + c⟩ (some 5)).map
    (fun p => (p.1, p.2.1, (List.range 10).map p.2.2)) =
    some (5, 10, [0, 1, 10, 11, 20, 21, 100, 101, 110, 111]) := by decide

/-! ## C187: ownership -/

/-- Every owned array exists, and has only one owner. -/
structure Sound (s : State) : Prop where
  nodup : s.live.Nodup
  live : ∀ v a, s.vars v = some (some a) → a ∈ s.live
  unique : ∀ v w a, s.vars v = some (some a) → s.vars w = some (some a) → v = w

/-- Every array that exists is owned. -/
def NoLeak (s : State) : Prop := ∀ a ∈ s.live, ∃ v, s.vars v = some (some a)

/-- A constructor that does not fail after it has taken over an array of native components. -/
def Proper : Op → Prop
  | .construct _ _ isFloat fails failsTree => isFloat = true ∨ (fails = false ∧ failsTree = false)
  | _ => True

theorem free_spec (s : State) (v : Nat) (q : Option Nat) (hs : Sound s) (hv : s.vars v = some q) :
    ∃ live, free s.live q = some live ∧ live.Nodup ∧
      ∀ a, a ∈ live ↔ a ∈ s.live ∧ q ≠ some a := by
  cases q with
  | none => exact ⟨s.live, rfl, hs.nodup, fun a => by simp⟩
  | some x =>
    have hx := hs.live v x hv
    refine ⟨s.live.erase x, by simp only [free]; rw [if_pos hx], hs.nodup.erase x, ?_⟩
    intro a
    rw [hs.nodup.mem_erase_iff]
    constructor
    · rintro ⟨h1, h2⟩
      exact ⟨h2, fun h => h1 (Option.some.inj h).symm⟩
    · rintro ⟨h1, h2⟩
      exact ⟨fun h => h2 (by rw [h]), h1⟩

theorem step_sound (s : State) (op : Op) (hs : Sound s) :
    ∃ s', step s op = some s' ∧ Sound s' ∧ (Proper op → NoLeak s → NoLeak s') := by
  cases op with
  | default v =>
    cases hv : s.vars v with
    | some p => exact ⟨s, by simp only [step, hv], hs, fun _ h => h⟩
    | none =>
      refine ⟨{ s with vars := set s.vars v (some none) }, by simp only [step, hv], ⟨hs.nodup, ?_, ?_⟩, ?_⟩
      · intro w a h
        simp only [set] at h
        split_ifs at h
        · simp at h
        · exact hs.live w a h
      · intro w x a h1 h2
        simp only [set] at h1 h2
        split_ifs at h1 h2
        · simp at h1
        · simp at h1
        · simp at h2
        · exact hs.unique w x a h1 h2
      · intro _ hl a ha
        obtain ⟨w, hw⟩ := hl a ha
        refine ⟨w, ?_⟩
        simp only [set]
        rw [if_neg (by rintro rfl; rw [hv] at hw; cases hw)]
        exact hw
  | construct v address isFloat fails failsTree =>
    cases hv : s.vars v with
    | some p => exact ⟨s, by simp only [step, hv], hs, fun _ h => h⟩
    | none =>
      simp only [step, hv]
      by_cases ha : address ∈ s.live
      · rw [if_pos ha]; exact ⟨s, rfl, hs, fun _ h => h⟩
      · rw [if_neg ha]
        cases isFloat with
        | true =>
          simp only [if_true]
          cases failsTree with
          | true => exact ⟨s, rfl, hs, fun _ h => h⟩
          | false =>
            refine ⟨_, rfl, ⟨hs.nodup, ?_, ?_⟩, ?_⟩
            · intro w a h
              simp only [set] at h
              split_ifs at h
              · simp at h
              · exact hs.live w a h
            · intro w x a h1 h2
              simp only [set] at h1 h2
              split_ifs at h1 h2
              · simp at h1
              · simp at h1
              · simp at h2
              · exact hs.unique w x a h1 h2
            · intro _ hl a ha
              obtain ⟨w, hw⟩ := hl a ha
              refine ⟨w, ?_⟩
              simp only [set]
              rw [if_neg (by rintro rfl; rw [hv] at hw; cases hw)]
              exact hw
        | false =>
          simp only [Bool.false_eq_true, if_false]
          by_cases hf : (fails || failsTree) = true
          · rw [if_pos hf]
            refine ⟨_, rfl, ⟨List.nodup_cons.2 ⟨ha, hs.nodup⟩, ?_, hs.unique⟩, ?_⟩
            · intro w a h
              exact List.mem_cons_of_mem _ (hs.live w a h)
            · intro hp
              simp only [Proper, Bool.false_eq_true, false_or] at hp
              rw [hp.1, hp.2] at hf
              cases hf
          · rw [if_neg hf]
            refine ⟨_, rfl, ⟨List.nodup_cons.2 ⟨ha, hs.nodup⟩, ?_, ?_⟩, ?_⟩
            · intro w a h
              simp only [set] at h
              split_ifs at h
              · simp only [Option.some.injEq] at h
                subst h
                exact List.mem_cons_self
              · exact List.mem_cons_of_mem _ (hs.live w a h)
            · intro w x a h1 h2
              simp only [set] at h1 h2
              split_ifs at h1 h2 with c1 c2 c2
              · rw [c1, c2]
              · simp only [Option.some.injEq] at h1
                subst h1
                exact absurd (hs.live x _ h2) ha
              · simp only [Option.some.injEq] at h2
                subst h2
                exact absurd (hs.live w _ h1) ha
              · exact hs.unique w x a h1 h2
            · intro _ hl a hm
              rcases List.mem_cons.1 hm with rfl | hm
              · exact ⟨v, by simp [set]⟩
              · obtain ⟨w, hw⟩ := hl a hm
                refine ⟨w, ?_⟩
                simp only [set]
                rw [if_neg (by rintro rfl; rw [hv] at hw; cases hw)]
                exact hw
  | moveConstruct v w =>
    cases hv : s.vars v with
    | some p => exact ⟨s, by cases hw : s.vars w <;> simp only [step, hv, hw], hs, fun _ h => h⟩
    | none =>
      cases hw : s.vars w with
      | none => exact ⟨s, by simp only [step, hv, hw], hs, fun _ h => h⟩
      | some p =>
        have hne : v ≠ w := by rintro rfl; rw [hv] at hw; cases hw
        refine ⟨{ s with vars := set (set s.vars v (some p)) w (some none) },
          by simp only [step, hv, hw], ⟨hs.nodup, ?_, ?_⟩, ?_⟩
        · intro x a h
          simp only [set] at h
          split_ifs at h with c1 c2
          · simp at h
          · simp only [Option.some.injEq] at h
            subst h
            exact hs.live w a hw
          · exact hs.live x a h
        · intro x y a h1 h2
          simp only [set] at h1 h2
          split_ifs at h1 h2 with c1 c2 c3 c4 c5 c6 c7 c8
          all_goals first
            | (simp at h1; done)
            | (simp at h2; done)
            | (rw [c2, c4]; done)
            | skip
          all_goals simp_all
          · exact absurd (hs.unique w y a hw h2).symm (by assumption)
          · exact absurd (hs.unique w x a hw h1).symm (by assumption)
          · exact hs.unique x y a h1 h2
        · intro _ hl a ha
          obtain ⟨x, hx⟩ := hl a ha
          by_cases hxw : x = w
          · subst hxw
            refine ⟨v, ?_⟩
            simp only [set]
            rw [if_neg hne, if_pos trivial, ← hw, hx]
          · refine ⟨x, ?_⟩
            simp only [set]
            rw [if_neg hxw, if_neg (by rintro rfl; rw [hv] at hx; cases hx)]
            exact hx
  | moveAssign v w =>
    cases hv : s.vars v with
    | none => exact ⟨s, by cases hw : s.vars w <;> simp only [step, hv, hw], hs, fun _ h => h⟩
    | some q =>
      cases hw : s.vars w with
      | none => exact ⟨s, by simp only [step, hv, hw], hs, fun _ h => h⟩
      | some p =>
        obtain ⟨live, f1, f2, f3⟩ := free_spec s v q hs hv
        refine ⟨⟨live, set (set s.vars v (some p)) w (some none)⟩, by simp only [step, hv, hw, f1],
          ⟨f2, ?_, ?_⟩, ?_⟩
        · intro x a h
          simp only [set] at h
          split_ifs at h with c1 c2
          · simp at h
          · simp only [Option.some.injEq] at h
            subst h
            refine (f3 a).2 ⟨hs.live w a hw, ?_⟩
            intro hq
            subst hq
            exact c1 (c2.trans (hs.unique v w a hv hw))
          · refine (f3 a).2 ⟨hs.live x a h, ?_⟩
            intro hq
            subst hq
            exact c2 (hs.unique x v a h hv)
        · intro x y a h1 h2
          simp only [set] at h1 h2
          split_ifs at h1 h2 with c1 c2 c3 c4 c5 c6 c7 c8
          all_goals first
            | (simp at h1; done)
            | (simp at h2; done)
            | (rw [c2, c4]; done)
            | skip
          all_goals simp_all
          · exact absurd (hs.unique w y a hw h2).symm (by assumption)
          · exact absurd (hs.unique w x a hw h1).symm (by assumption)
          · exact hs.unique x y a h1 h2
        · intro _ hl a ha
          obtain ⟨ha1, ha2⟩ := (f3 a).1 ha
          obtain ⟨x, hx⟩ := hl a ha1
          have hxv : x ≠ v := by
            rintro rfl
            rw [hx] at hv
            exact ha2 (Option.some.inj hv).symm
          by_cases hxw : x = w
          · subst hxw
            refine ⟨v, ?_⟩
            simp only [set]
            rw [if_neg (Ne.symm hxv), if_pos trivial, ← hw, hx]
          · refine ⟨x, ?_⟩
            simp only [set]
            rw [if_neg hxw, if_neg hxv]
            exact hx
  | destroy v =>
    cases hv : s.vars v with
    | none => exact ⟨s, by simp only [step, hv], hs, fun _ h => h⟩
    | some q =>
      obtain ⟨live, f1, f2, f3⟩ := free_spec s v q hs hv
      refine ⟨⟨live, set s.vars v none⟩, by simp only [step, hv, f1], ⟨f2, ?_, ?_⟩, ?_⟩
      · intro x a h
        simp only [set] at h
        split_ifs at h with c1
        refine (f3 a).2 ⟨hs.live x a h, ?_⟩
        intro hq
        subst hq
        exact c1 (hs.unique x v a h hv)
      · intro x y a h1 h2
        simp only [set] at h1 h2
        split_ifs at h1 h2
        exact hs.unique x y a h1 h2
      · intro _ hl a ha
        obtain ⟨ha1, ha2⟩ := (f3 a).1 ha
        obtain ⟨x, hx⟩ := hl a ha1
        refine ⟨x, ?_⟩
        simp only [set]
        rw [if_neg]
        · exact hx
        · rintro rfl
          rw [hx] at hv
          exact ha2 (Option.some.inj hv).symm

theorem run_sound (ops : List Op) (s : State) (hs : Sound s) :
    ∃ s', run s ops = some s' ∧ Sound s' ∧ ((∀ op ∈ ops, Proper op) → NoLeak s → NoLeak s') := by
  induction ops generalizing s with
  | nil => exact ⟨s, rfl, hs, fun _ h => h⟩
  | cons op ops ih =>
    obtain ⟨s1, a1, a2, a3⟩ := step_sound s op hs
    obtain ⟨s2, b1, b2, b3⟩ := ih s1 a2
    refine ⟨s2, by unfold run; rw [a1]; exact b1, b2, ?_⟩
    intro hp hl
    exact b3 (fun o ho => hp o (List.mem_cons_of_mem _ ho)) (a3 (hp op List.mem_cons_self) hl)

/-- No array is released twice, whatever is done with palette maps: no sequence of operations has undefined
behavior. An array that is owned exists, and has only one owner. -/
theorem C187_no_double_free (ops : List Op) : ∃ s, run .empty ops = some s ∧ Sound s := by
  obtain ⟨s, h1, h2, _⟩ := run_sound ops .empty ⟨List.nodup_nil, by simp [State.empty], by simp [State.empty]⟩
  exact ⟨s, h1, h2⟩

/-- If no constructor fails after having taken over an array, then all arrays have been released when there
are no palette maps anymore. The full statement is without that condition. -/
theorem C187_no_leak_partial (ops : List Op) (hp : ∀ op ∈ ops, Proper op) (s : State)
    (h : run .empty ops = some s) (hv : ∀ v, s.vars v = none) : s.live = [] := by
  obtain ⟨s', h1, _, h3⟩ := run_sound ops .empty
    ⟨List.nodup_nil, by simp [State.empty], by simp [State.empty]⟩
  rw [h] at h1
  obtain rfl := Option.some.inj h1
  have hl := h3 hp (by intro a ha; simp [State.empty] at ha)
  cases hlive : s.live with
  | nil => rfl
  | cons a l =>
    obtain ⟨v, hva⟩ := hl a (by rw [hlive]; exact List.mem_cons_self)
    rw [hv v] at hva
    cases hva

/-- The array of native components is leaked when the conversion of components fails. -/
theorem C187_leak : ∃ s, run .empty [.construct 0 77 false true false] = some s ∧ s.live = [77] ∧
    ∀ v, s.vars v = none :=
  ⟨⟨[77], fun _ => none⟩, rfl, rfl, fun _ => rfl⟩

example : (run .empty [.construct 0 77 false false false, .default 1, .moveAssign 1 0,
    .construct 2 78 false false false, .moveAssign 1 2, .moveAssign 1 1, .destroy 0, .destroy 2]).map
    (fun s => (s.live, s.vars 0, s.vars 1)) = some ([], none, some none) := by decide

end Verif.PaletteMap
