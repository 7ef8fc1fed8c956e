import Verif.RandInt.Main
/-!
Generation of random multiple precision integers (C70).
-/
namespace Verif.RandInt
open Verif.MulPrec Verif.MulPrec.Spec Spec

variable {I w N : Nat} {S : Bool} (hp : I ≠ w) (hI : 1 ≤ I) (hw : 1 ≤ w) (hN : 0 < N)
include hp hI hw hN

/-- Provided that the random numbers of the part type are in the requested ranges, the result is determined by the first attempt whose
number does not exceed the size of the range, and it is in the range. There is no undefined behavior. -/
theorem C70_result {min max : List Nat} (hmin : Valid w N min) (hmax : Valid w N max) (h : value w N S min ≤ value w N S max) :
    ∃ b, numBits I w N S min max = some b ∧
      ∀ (pre post : List (List Nat)) (xs : List Nat), (∀ ys ∈ xs :: pre, Drawn (requests (reprWidth I w) b) ys) →
        (∀ ys ∈ pre, value w N S max < value w N S min + uval (reprWidth I w) ys) →
        value w N S min + uval (reprWidth I w) xs ≤ value w N S max →
        ∃ r, randInt I w N S min max (pre ++ xs :: post) = some r ∧ Valid w N r ∧
          value w N S r = value w N S min + uval (reprWidth I w) xs ∧ value w N S min ≤ value w N S r ∧ value w N S r ≤ value w N S max := by
  obtain ⟨_, _, b, _, _, _, _, _, _, hb, _, _⟩ := prep hp hI hw hN (S := S) (D_iff.1 hmin) (D_iff.1 hmax) h
  refine ⟨b, hb, fun pre post xs h1 h2 h3 => ?_⟩
  obtain ⟨r, e1, e2, e3⟩ := randInt_spec hp hI hw hN (D_iff.1 hmin) (D_iff.1 hmax) h hb (pre := pre) (post := post) (xs := xs)
    (fun ys hys => ⟨h1 ys (List.mem_cons_of_mem _ hys), by have := h2 ys hys; omega⟩) (h1 xs List.mem_cons_self) (by omega)
  exact ⟨r, e1, D_iff.2 e2, e3, by omega, by omega⟩

/-- Every value in the range is the result of exactly one of the possible outcomes of an attempt. So, if these are equally likely, the values
in the range are equally likely. -/
theorem C70_uniform {min max : List Nat} (hmin : Valid w N min) (hmax : Valid w N max) (h : value w N S min ≤ value w N S max) :
    ∃ b, numBits I w N S min max = some b ∧ ∀ v, value w N S min ≤ v → v ≤ value w N S max →
      ∃! xs, Drawn (requests (reprWidth I w) b) xs ∧ ∃ r, randInt I w N S min max [xs] = some r ∧ value w N S r = v := by
  obtain ⟨min2, max2, b, _, _, _, _, c1, c2, hb, c4, c5⟩ := prep hp hI hw hN (S := S) (D_iff.1 hmin) (D_iff.1 hmax) h
  refine ⟨b, hb, fun v h1 h2 => ?_⟩
  have hW := reprWidth_pos hp hw
  have hx : (v - value w N S min).toNat < 2 ^ (reprWidth I w * (b / reprWidth I w) + b % reprWidth I w) := by
    rw [Nat.div_add_mod]
    have := c4.1
    omega
  obtain ⟨xs, e1, e2⟩ := fit_exists _ _ _ _ hx
  refine ⟨xs, ⟨e1, ?_⟩, ?_⟩
  · obtain ⟨r, f1, _, f3⟩ := randInt_spec hp hI hw hN (D_iff.1 hmin) (D_iff.1 hmax) h hb (pre := []) (post := []) (xs := xs)
      (by simp) e1 (by omega)
    exact ⟨r, f1, by omega⟩
  · rintro ys ⟨hys, r, g1, g2⟩
    have hlen : ys.length = xs.length := hys.length_eq.trans (List.Forall₂.length_eq e1).symm
    refine uval_inj hW hlen (fit_digits hW hys) (fit_digits hW e1) ?_
    rcases lt_or_ge (value w N S max - value w N S min) (uval (reprWidth I w) ys) with g | g
    · rw [randInt_reject hp hI hw hN (D_iff.1 hmin) (D_iff.1 hmax) h hb [ys] (by simpa using ⟨hys, g⟩)] at g1
      cases g1
    · obtain ⟨r', f1, _, f3⟩ := randInt_spec hp hI hw hN (D_iff.1 hmin) (D_iff.1 hmax) h hb (pre := []) (post := []) (xs := ys)
        (by simp) hys g
      rw [List.nil_append, g1] at f1
      cases f1
      omega

/-- The outcomes of an attempt are in one to one correspondence with the numbers below a power of two that is less than twice the number of values
in the range. So more than half of the outcomes are accepted. -/
theorem C70_attempts {min max : List Nat} (hmin : Valid w N min) (hmax : Valid w N max) (h : value w N S min ≤ value w N S max) :
    ∃ b, numBits I w N S min max = some b ∧ (2 : Int) ^ b < 2 * (value w N S max - value w N S min + 1) ∧
      (∀ xs, Drawn (requests (reprWidth I w) b) xs → uval (reprWidth I w) xs < 2 ^ b ∧
        (randInt I w N S min max [xs] = none ↔ value w N S max < value w N S min + uval (reprWidth I w) xs)) ∧
      ∀ x < 2 ^ b, ∃! xs, Drawn (requests (reprWidth I w) b) xs ∧ uval (reprWidth I w) xs = x := by
  obtain ⟨min2, max2, b, _, _, _, _, c1, c2, hb, c4, c5⟩ := prep hp hI hw hN (S := S) (D_iff.1 hmin) (D_iff.1 hmax) h
  have hW := reprWidth_pos hp hw
  refine ⟨b, hb, ?_, fun xs hxs => ⟨?_, ?_, ?_⟩, fun x hx => ?_⟩
  · rw [← cast_pow, ← c2]
    obtain ⟨_, h2⟩ := c4
    rcases h2 with rfl | h2
    · simp; omega
    · have : 2 ^ b ≤ 2 * 2 ^ (b - 1) := by
        rcases Nat.eq_zero_or_pos b with rfl | hb'
        · simp
        · rw [← Nat.pow_succ', Nat.succ_eq_add_one, Nat.sub_add_cancel hb']
      omega
  · have := fit_lt (reprWidth I w) (b % reprWidth I w) (Nat.mod_lt _ hW) (b / reprWidth I w) xs hxs
    rwa [Nat.div_add_mod] at this
  · intro hn
    by_contra hc
    obtain ⟨r', f1, _, f3⟩ := randInt_spec hp hI hw hN (D_iff.1 hmin) (D_iff.1 hmax) h hb (pre := []) (post := []) (xs := xs)
      (by simp) hxs (by omega)
    rw [List.nil_append, hn] at f1
    cases f1
  · intro hlt
    exact randInt_reject hp hI hw hN (D_iff.1 hmin) (D_iff.1 hmax) h hb [xs] (by
      have : value w N S max - value w N S min < uval (reprWidth I w) xs := by omega
      simpa using ⟨hxs, this⟩)
  · obtain ⟨xs, e1, e2⟩ := fit_exists (reprWidth I w) (b % reprWidth I w) (b / reprWidth I w) x (by rwa [Nat.div_add_mod])
    refine ⟨xs, ⟨e1, e2⟩, fun ys ⟨hys, h3⟩ => ?_⟩
    exact uval_inj hW (hys.length_eq.trans (List.Forall₂.length_eq e1).symm) (fit_digits hW hys) (fit_digits hW e1) (by omega)

omit hp hI hw hN

/-- Two attempts for a signed type of three parts of 8 bits (parts in the exchange representation are of 32 bits): -70000 to 70000. The first attempt
is rejected. -/
example : numBits 31 8 3 true [0x90, 0xEE, 0xFE] [0x70, 0x11, 0x01] = some 18 ∧ requests 32 18 = [2 ^ 18 - 1] ∧
    (randInt 31 8 3 true [0x90, 0xEE, 0xFE] [0x70, 0x11, 0x01] [[200000], [70005]]).map (value 8 3 true) = some 5 := by decide +kernel

/-- A range that crosses part boundaries, with parts of 64 bits. -/
example : numBits 31 64 2 false [2 ^ 64 - 1, 0] [1, 5] = some 67 ∧ requests 64 67 = [2 ^ 64 - 1, 7] ∧
    randInt 31 64 2 false [2 ^ 64 - 1, 0] [1, 5] [[5, 7], [1, 4]] = some [0, 5] := by decide +kernel

end Verif.RandInt
