import Verif.CssColor.Model
import Verif.CssColor.Spec
import Verif.StableSort.Props
import Mathlib.Tactic.Ring

/-!
# Lookup of named colors
-/

namespace Verif.CssColor

open StableSort.Spec (IsOrder IsStableSort Tied)

/-! ### Packing -/

theorem or_eq_add {x y : Nat} (k n : Nat) (hx : x = k * 2 ^ n) (hy : y < 2 ^ n) : x ||| y = x + y := by
  subst hx
  rw [← Nat.shiftLeft_eq, Nat.shiftLeft_add_eq_or_of_lt hy]

theorem byte_mask (v n : Nat) : (v >>> n) &&& 0xFF = v / 2 ^ n % 256 := by
  rw [Nat.shiftRight_eq_div_pow]
  exact Nat.and_two_pow_sub_one_eq_mod (v / 2 ^ n) 8

theorem pack4 {r g b a : Nat} (hg : g < 256) (hb : b < 256) (ha : a < 256) :
    (r <<< 24) ||| (g <<< 16) ||| (b <<< 8) ||| (a <<< 0) = r * 16777216 + g * 65536 + b * 256 + a := by
  simp only [Nat.shiftLeft_eq]
  have h1 : r * 2 ^ 24 ||| g * 2 ^ 16 = r * 2 ^ 24 + g * 2 ^ 16 := or_eq_add r 24 rfl (by omega)
  have h2 : r * 2 ^ 24 + g * 2 ^ 16 ||| b * 2 ^ 8 = r * 2 ^ 24 + g * 2 ^ 16 + b * 2 ^ 8 :=
    or_eq_add (r * 256 + g) 16 (by omega) (by omega)
  have h3 : r * 2 ^ 24 + g * 2 ^ 16 + b * 2 ^ 8 ||| a * 2 ^ 0 = r * 2 ^ 24 + g * 2 ^ 16 + b * 2 ^ 8 + a * 2 ^ 0 :=
    or_eq_add (r * 65536 + g * 256 + b) 8 (by omega) (by omega)
  rw [h1, h2, h3]
  omega

/-- Components are at most 255. -/
def Color.Valid (c : Color) : Prop := c.r ≤ 255 ∧ c.g ≤ 255 ∧ c.b ≤ 255 ∧ c.a ≤ 255

instance (c : Color) : Decidable c.Valid := by unfold Color.Valid; infer_instance

theorem fromTrgb_valid (v : Nat) : (Color.fromTrgb v).Valid := by
  unfold Color.fromTrgb Color.Valid
  simp only [byte_mask]
  omega

theorem toRgba_inj {c d : Color} (hc : c.Valid) (hd : d.Valid)
    (h : toRgba c.r c.g c.b c.a = toRgba d.r d.g d.b d.a) : c = d := by
  obtain ⟨r, g, b, a⟩ := c
  obtain ⟨r', g', b', a'⟩ := d
  unfold Color.Valid at hc hd
  unfold toRgba at h
  simp only at hc hd h
  rw [pack4 (by omega) (by omega) (by omega), pack4 (by omega) (by omega) (by omega)] at h
  simp only [Color.mk.injEq]
  omega

/-! ### Order of strings -/

theorem strLt_irrefl : ∀ s, strLt s s = false
  | [] => rfl
  | x :: s => by unfold strLt; rw [if_neg (by omega), if_neg (by omega)]; exact strLt_irrefl s

theorem char_eq {x y : Char} (h : x.toNat = y.toNat) : x = y := by
  have := congrArg Char.ofNat h
  simpa [Char.ofNat_toNat] using this

theorem strLt_conn : ∀ s t, strLt s t = false → strLt t s = false → s = t
  | [], [], _, _ => rfl
  | [], _ :: _, h, _ => by simp [strLt] at h
  | _ :: _, [], _, h => by simp [strLt] at h
  | x :: s, y :: t, h1, h2 => by
    unfold strLt at h1 h2
    split at h1
    · simp at h1
    · split at h1
      · rename_i h3 h4
        rw [if_pos h4] at h2
        simp at h2
      · rename_i h3 h4
        rw [if_neg h4, if_neg h3] at h2
        rw [char_eq (show x.toNat = y.toNat by omega), strLt_conn s t h1 h2]

theorem strLt_trans : ∀ s t u, strLt s t = true → strLt t u = true → strLt s u = true
  | _, [], _, h, _ => by simp [strLt] at h
  | _, _ :: _, [], _, h => by simp [strLt] at h
  | [], _ :: _, _ :: _, _, _ => by simp [strLt]
  | x :: s, y :: t, z :: u, h1, h2 => by
    unfold strLt at h1 h2 ⊢
    by_cases a1 : x.toNat < y.toNat
    · by_cases a2 : y.toNat < z.toNat
      · rw [if_pos (by omega)]
      · rw [if_neg a2] at h2
        split at h2
        · simp at h2
        · rw [if_pos (by omega)]
    · rw [if_neg a1] at h1
      split at h1
      · simp at h1
      · by_cases a2 : y.toNat < z.toNat
        · rw [if_pos (by omega)]
        · rw [if_neg a2] at h2
          split at h2
          · simp at h2
          · rw [if_neg (by omega), if_neg (by omega)]
            exact strLt_trans s t u h1 h2

/-- Total order. -/
structure IsTotal {K : Type} (lt : K → K → Bool) : Prop where
  irrefl : ∀ a, lt a a = false
  trans : ∀ a b c, lt a b = true → lt b c = true → lt a c = true
  conn : ∀ a b, lt a b = false → lt b a = false → a = b

theorem strLt_total : IsTotal strLt := ⟨strLt_irrefl, strLt_trans, strLt_conn⟩

theorem natLt_total : IsTotal (fun a b : Nat => decide (a < b)) := by
  constructor
  · intro a; simp
  · intro a b c h1 h2; simp only [decide_eq_true_eq] at h1 h2 ⊢; omega
  · intro a b h1 h2; simp only [decide_eq_false_iff_not] at h1 h2; omega

theorem IsTotal.order {K V : Type} {lt : K → K → Bool} (w : IsTotal lt) :
    IsOrder (fun a b : K × V => lt a.1 b.1) := by
  constructor
  · intro a; exact w.irrefl _
  · intro a b c; exact w.trans _ _ _
  · intro a b c h1 h2 h3 h4
    have e1 := w.conn _ _ h1 h2
    have e2 := w.conn _ _ h3 h4
    simp only [e1, e2]
    exact ⟨w.irrefl _, w.irrefl _⟩

/-! ### Lookup in a sorted map -/

/-- The index that is found by the lookup functions. -/
def lookupIn {K : Type} [DecidableEq K] (lt : K → K → Bool) (map : List (K × Nat)) (key : K) : Option Nat :=
  match map[lowerBound (fun a => lt a.1 key) map]? with
  | none => none
  | some (k, index) => if k = key then some index else none

theorem getElem?_takeWhile {α : Type} (p : α → Bool) : ∀ l : List α,
    l[(l.takeWhile p).length]? = (l.dropWhile p).head?
  | [] => rfl
  | x :: l => by
    by_cases h : p x = true
    · simp only [List.takeWhile_cons, List.dropWhile_cons, h, if_true, List.length_cons, List.getElem?_cons_succ]
      exact getElem?_takeWhile p l
    · simp [h]

theorem lookup_filter {K : Type} [DecidableEq K] {lt : K → K → Bool} (w : IsTotal lt) (key : K) :
    ∀ m : List (K × Nat), m.Pairwise (fun a b => lt b.1 a.1 = false) →
      lookupIn lt m key = ((m.filter (fun a => decide (a.1 = key))).head?).map (·.2) := by
  intro m hs
  unfold lookupIn lowerBound
  rw [getElem?_takeWhile]
  induction m with
  | nil => rfl
  | cons x m ih =>
    obtain ⟨h1, h2⟩ := List.pairwise_cons.mp hs
    by_cases hx : lt x.1 key = true
    · have hne : ¬ x.1 = key := by rintro rfl; rw [w.irrefl] at hx; simp at hx
      simp only [List.dropWhile_cons, hx, if_true, List.filter_cons, hne, decide_false, Bool.false_eq_true, if_false]
      exact ih h2
    · simp only [List.dropWhile_cons, hx, Bool.false_eq_true, if_false, List.head?_cons, List.filter_cons]
      by_cases he : x.1 = key
      · simp [he]
      · simp only [he, decide_false, if_false, Bool.false_eq_true]
        have : m.filter (fun a => decide (a.1 = key)) = [] := by
          rw [List.filter_eq_nil_iff]
          intro y hy hk
          simp only [decide_eq_true_eq] at hk
          have h3 := h1 y hy
          rw [hk] at h3
          exact he (w.conn _ _ (by simpa using hx) h3)
        rw [this]
        rfl

theorem first_index {K : Type} [DecidableEq K] (key : K) (keys : List K) (i : Nat) :
    (((keys.mapIdx fun i k => (k, i)).filter (fun a => decide (a.1 = key))).head?).map (·.2) = some i ↔
      keys[i]? = some key ∧ ∀ j < i, keys[j]? ≠ some key := by
  rw [List.head?_filter, Option.map_eq_some_iff]
  constructor
  · rintro ⟨⟨k, i'⟩, h1, rfl⟩
    rw [List.find?_eq_some_iff_getElem] at h1
    obtain ⟨h2, n, hn, h3, h4⟩ := h1
    simp only [decide_eq_true_eq] at h2
    subst h2
    rw [List.length_mapIdx] at hn
    rw [List.getElem_mapIdx] at h3
    simp only [Prod.mk.injEq] at h3
    obtain ⟨h5, rfl⟩ := h3
    refine ⟨by rw [List.getElem?_eq_getElem hn, h5], fun j hj hc => ?_⟩
    have := h4 j hj
    rw [List.getElem_mapIdx] at this
    rw [List.getElem?_eq_getElem (by omega)] at hc
    simp only [Option.some.injEq] at hc
    simp [hc] at this
  · rintro ⟨h1, h2⟩
    obtain ⟨hi, h3⟩ := List.getElem?_eq_some_iff.mp h1
    refine ⟨(key, i), ?_, rfl⟩
    rw [List.find?_eq_some_iff_getElem]
    refine ⟨by simp, i, by rw [List.length_mapIdx]; exact hi, by rw [List.getElem_mapIdx, h3], fun j hj => ?_⟩
    rw [List.getElem_mapIdx]
    have := h2 j hj
    rw [List.getElem?_eq_getElem (by omega)] at this
    simpa using this

theorem lookup_spec {K : Type} [DecidableEq K] {lt : K → K → Bool} (w : IsTotal lt) (keys : List K) :
    ∃ m, StableSort.stableSort (fun a b : K × Nat => lt a.1 b.1) (keys.mapIdx fun i k => (k, i)) = some m ∧
      ∀ key i, lookupIn lt m key = some i ↔ keys[i]? = some key ∧ ∀ j < i, keys[j]? ≠ some key := by
  obtain ⟨m, h1, h2⟩ := StableSort.C106_stable_sort (w.order (V := Nat)) (keys.mapIdx fun i k => (k, i))
  refine ⟨m, h1, fun key i => ?_⟩
  have hs : m.Pairwise (fun a b => lt b.1 a.1 = false) := by
    rw [List.pairwise_iff_getElem]
    intro i j hi hj hij
    exact h2.sorted i j _ _ hij (List.getElem?_eq_getElem hi) (List.getElem?_eq_getElem hj)
  rw [lookup_filter w key m hs]
  have e : (fun a : K × Nat => decide (a.1 = key)) = Tied (fun a b : K × Nat => lt a.1 b.1) (key, 0) := by
    funext a
    unfold Tied
    by_cases h : a.1 = key
    · simp [h, w.irrefl]
    · simp only [h, decide_false]
      symm
      by_contra hc
      simp only [Bool.not_eq_false, Bool.and_eq_true, Bool.not_eq_true'] at hc
      exact h (w.conn _ _ hc.2 hc.1)
  rw [e, h2.stable (key, 0), ← e]
  exact first_index key keys i

theorem mapIdx_map {α K : Type} (f : α → K) (l : List α) :
    (l.mapIdx fun i e => (f e, i)) = (l.map f).mapIdx fun i k => (k, i) := by
  apply List.ext_getElem
  · simp
  · intro i h1 h2
    simp

theorem findByName_spec (s : Str) : ∃ r, findByName s = some r ∧
    ∀ i, r = some i ↔ (named.map Named.name)[i]? = some s ∧ ∀ j < i, (named.map Named.name)[j]? ≠ some s := by
  obtain ⟨m, h1, h2⟩ := lookup_spec strLt_total (named.map Named.name)
  refine ⟨lookupIn strLt m s, ?_, h2 s⟩
  unfold findByName nameMap
  rw [mapIdx_map Named.name, h1]
  simp only [Option.bind_eq_bind, Option.bind_some, lookupIn]
  split <;> rename_i h
  · rw [h]
  · rw [h]; simp only; split <;> rfl

/-- The color of an entry of the table of named colors. -/
def Named.color (e : Named) : Color := Color.fromTrgb e.trgb

theorem findByValue_spec {c : Color} (hc : c.Valid) : ∃ r, findByValue c = some r ∧
    ∀ i, r = some i ↔ (named.map Named.color)[i]? = some c ∧ ∀ j < i, (named.map Named.color)[j]? ≠ some c := by
  obtain ⟨m, h1, h2⟩ := lookup_spec natLt_total
    (named.map fun e => toRgba e.color.r e.color.g e.color.b e.color.a)
  refine ⟨lookupIn (fun a b => decide (a < b)) m (toRgba c.r c.g c.b c.a), ?_, fun i => ?_⟩
  · have hv : valueMap = some m := by
      unfold valueMap
      rw [← h1, ← mapIdx_map]
      rfl
    unfold findByValue
    rw [hv]
    simp only [Option.bind_eq_bind, Option.bind_some, lookupIn]
    split <;> rename_i h
    · rw [h]
    · rw [h]; simp only; split <;> rfl
  · rw [h2]
    have key : ∀ j : Nat, (named.map fun e => toRgba e.color.r e.color.g e.color.b e.color.a)[j]? =
        some (toRgba c.r c.g c.b c.a) ↔ (named.map Named.color)[j]? = some c := by
      intro j
      rw [List.getElem?_map, List.getElem?_map]
      cases named[j]? with
      | none => simp
      | some e =>
        simp only [Option.map_some, Option.some.injEq]
        exact ⟨fun h => toRgba_inj (fromTrgb_valid _) hc h, fun h => by rw [h]⟩
    simp only [ne_eq, key]

end Verif.CssColor
