import Verif.RandInt.Lemmas
import Verif.RandInt.Spec
/-!
The result of generating a random multiple precision integer.
-/
namespace Verif.RandInt
open Verif.MulPrec Verif.MulPrec.Spec Spec

theorem reprWidth_pos {I w : Nat} (hp : I ≠ w) (hw : 1 ≤ w) : 1 ≤ reprWidth I w := by
  rcases reprWidth_cases hp with ⟨_, e⟩ | ⟨_, e⟩ <;> omega

theorem D_of_digits {w n : Nat} {a : List Nat} (h1 : a.length = n) (h2 : Digits w a) : D (2 ^ w) n a := D_digits.2 ⟨h1, h2⟩

theorem diff_spec {w n : Nat} {S : Bool} {a b : List Nat} (hw : 1 ≤ w) (hn : 0 < n) (ha : D (2 ^ w) n a) (hb : D (2 ^ w) n b)
    (h : value w n S b ≤ value w n S a) : D (2 ^ w) n (sub w a b false) ∧ (uval w (sub w a b false) : Int) = value w n S a - value w n S b := by
  obtain ⟨la, da⟩ := D_digits.1 ha
  obtain ⟨lb, db⟩ := D_digits.1 hb
  obtain ⟨e1, e2, k, e3⟩ := sub_spec hw (c := false) (la.trans lb.symm) da db
  have hD := D_of_digits (e1.trans la) e2
  refine ⟨hD, ?_⟩
  have hW : 0 < w * n := Nat.mul_pos (by omega) hn
  have hlt := uval_lt hD
  rw [la] at e3
  have e3' : (uval w (sub w a b false) : Int) + uval w b = uval w a + k * 2 ^ (w * n) := by
    rw [← cast_pow]
    have : uval w (sub w a b false) + uval w b = uval w a + k * 2 ^ (w * n) := by simpa using e3
    exact_mod_cast this
  obtain ⟨ka, ga⟩ := value_dvd w n S a
  obtain ⟨kb, gb⟩ := value_dvd w n S b
  have fa := value_fits (S := S) hW ha
  have fb := value_fits (S := S) hW hb
  have hd : (2 : Int) ^ (w * n) ∣ (uval w (sub w a b false) : Int) - (value w n S a - value w n S b) :=
    ⟨k - ka + kb, by linear_combination e3' - ga + gb⟩
  have hr : value w n S a - value w n S b < 2 ^ (w * n) := by
    have := half hW
    unfold Fits at fa fb
    cases S
    · simp only [Bool.false_eq_true, if_false] at fa fb; omega
    · simp only [if_true] at fa fb; omega
  have hlt' : (uval w (sub w a b false) : Int) < 2 ^ (w * n) := by rw [← cast_pow]; exact_mod_cast hlt
  have := Int.eq_zero_of_abs_lt_dvd hd (by rw [abs_lt]; constructor <;> omega)
  omega

variable {I w N : Nat} {S : Bool} (hp : I ≠ w) (hI : 1 ≤ I) (hw : 1 ≤ w) (hN : 0 < N)
include hp hI hw hN

theorem prep {min max : List Nat} (hmin : D (2 ^ w) N min) (hmax : D (2 ^ w) N max) (h : value w N S min ≤ value w N S max) :
    ∃ min2 max2 b, getParts I w N S min = some min2 ∧ getParts I w N S max = some max2 ∧
      D (2 ^ reprWidth I w) (reprParts I w N) min2 ∧ value (reprWidth I w) (reprParts I w N) S min2 = value w N S min ∧
      D (2 ^ reprWidth I w) (reprParts I w N) (sub (reprWidth I w) max2 min2 false) ∧
      (uval (reprWidth I w) (sub (reprWidth I w) max2 min2 false) : Int) = value w N S max - value w N S min ∧
      numBits I w N S min max = some b ∧ BitLength (uval (reprWidth I w) (sub (reprWidth I w) max2 min2 false)) b ∧
      b ≤ reprParts I w N * reprWidth I w := by
  obtain ⟨min2, a1, a2, a3⟩ := getParts_spec hp hI hw hN (S := S) hmin
  obtain ⟨max2, b1, b2, b3⟩ := getParts_spec hp hI hw hN (S := S) hmax
  have hW := reprWidth_pos hp hw
  have hn := reprParts_pos hp hw hN
  obtain ⟨c1, c2⟩ := diff_spec hW hn b2 a2 (S := S) (by rw [a3, b3]; exact h)
  obtain ⟨b, d1, d2, d3⟩ := findMsbPos_spec hW c1 (reprParts I w N) le_rfl
  rw [← uval_D c1] at d2
  refine ⟨min2, max2, b, a1, b1, a2, a3, c1, by rw [c2, a3, b3], ?_, d2, d3⟩
  simp only [numBits, a1, b1, d1, Option.bind_eq_bind, Option.bind_some]
  congr 1; omega

theorem randInt_spec {min max : List Nat} {b : Nat} (hmin : D (2 ^ w) N min) (hmax : D (2 ^ w) N max) (h : value w N S min ≤ value w N S max)
    (hb : numBits I w N S min max = some b) {pre post : List (List Nat)} {xs : List Nat}
    (hpre : ∀ ys ∈ pre, Fit ys (requests (reprWidth I w) b) ∧ value w N S max - value w N S min < uval (reprWidth I w) ys)
    (hxs : Fit xs (requests (reprWidth I w) b)) (hle : (uval (reprWidth I w) xs : Int) ≤ value w N S max - value w N S min) :
    ∃ r, randInt I w N S min max (pre ++ xs :: post) = some r ∧ D (2 ^ w) N r ∧ value w N S r = value w N S min + uval (reprWidth I w) xs := by
  obtain ⟨min2, max2, b', a1, b1, a2, a3, c1, c2, c3, c4, c5⟩ := prep hp hI hw hN hmin hmax h
  rw [hb] at c3; cases c3
  have hW := reprWidth_pos hp hw
  obtain ⟨p, e1, e2, e3, e4⟩ := attempts_spec hW c1 c5 pre (zero (reprParts I w N)) xs post (zero_length _)
    ⟨zero (requests (reprWidth I w) b).length, by
      have := requests_length hW c5
      simp only [zero, List.replicate_append_replicate]
      congr 1; omega⟩
    (fun ys hys => ⟨(hpre ys hys).1, by have := (hpre ys hys).2; omega⟩) hxs (by omega)
  obtain ⟨l1, d1⟩ := D_digits.1 a2
  obtain ⟨f1, f2, k, f3⟩ := add_spec hW (c := false) (l1.trans e2.symm) d1 e3
  obtain ⟨r, g1, g2, g3⟩ := fromParts_spec hp hI hw hN (S := S) (D_of_digits (f1.trans l1) f2)
  refine ⟨r, ?_, g2, ?_⟩
  · simp only [randInt, a1, b1, e1, g1, Option.bind_eq_bind, Option.bind_some]
  · have hW' : 0 < w * N := Nat.mul_pos (by omega) hN
    rw [← wrap_of_fits (S := S) hW' (x := value w N S min + uval (reprWidth I w) xs)]
    · refine value_eq_wrap hW' g2 ?_
      have hdv : (2 : Int) ^ (w * N) ∣ 2 ^ (reprWidth I w * reprParts I w N) := pow_dvd_pow _ (repr_le hp)
      have h1 := Int.dvd_trans hdv (value_dvd (reprWidth I w) (reprParts I w N) S min2)
      have h2 : (2 : Int) ^ (w * N) ∣ k * 2 ^ (reprWidth I w * reprParts I w N) := Dvd.dvd.mul_left hdv _
      have f3' : (uval (reprWidth I w) (add (reprWidth I w) min2 p false) : Int) + k * 2 ^ (reprWidth I w * reprParts I w N) =
          uval (reprWidth I w) min2 + uval (reprWidth I w) xs := by
        rw [← cast_pow, ← e4]
        rw [l1] at f3
        simp only [Bool.toNat_false, Nat.add_zero] at f3
        exact_mod_cast f3
      rw [a3] at h1
      have := Int.dvd_sub (Int.dvd_sub g3 h1) h2
      have e : (uval w r : Int) - (value w N S min + uval (reprWidth I w) xs) = uval w r - uval (reprWidth I w) (add (reprWidth I w) min2 p false) -
          (value w N S min - uval (reprWidth I w) min2) - k * 2 ^ (reprWidth I w * reprParts I w N) := by linear_combination f3'
      rw [e]; exact this
    · have h1 := value_fits (S := S) hW' hmin
      have h2 := value_fits (S := S) hW' hmax
      unfold Fits at h1 h2 ⊢
      cases S
      · simp only [Bool.false_eq_true, if_false] at h1 h2 ⊢; omega
      · simp only [if_true] at h1 h2 ⊢; omega

omit hp hI hw hN in
theorem uval_inj {v : Nat} (hv : 1 ≤ v) : ∀ {xs ys : List Nat}, xs.length = ys.length → Digits v xs → Digits v ys → uval v xs = uval v ys → xs = ys
  | [], [], _, _, _, _ => rfl
  | x :: xs, y :: ys, hl, hx, hy, h => by
    rw [digits_cons] at hx hy
    rw [uval_cons, uval_cons] at h
    have h1 : x = y := by
      have := congrArg (· % 2 ^ v) h
      simpa [Nat.add_mul_mod_self_left, Nat.mod_eq_of_lt hx.1, Nat.mod_eq_of_lt hy.1] using this
    subst h1
    rw [uval_inj hv (by simpa using hl) hx.2 hy.2 (Nat.eq_of_mul_eq_mul_left (two_pos v) (by omega))]
  | [], _ :: _, hl, _, _, _ => by simp at hl
  | _ :: _, [], hl, _, _, _ => by simp at hl

theorem randInt_reject {min max : List Nat} {b : Nat} (hmin : D (2 ^ w) N min) (hmax : D (2 ^ w) N max) (h : value w N S min ≤ value w N S max)
    (hb : numBits I w N S min max = some b) : ∀ (xss : List (List Nat)),
    (∀ ys ∈ xss, Fit ys (requests (reprWidth I w) b) ∧ value w N S max - value w N S min < uval (reprWidth I w) ys) →
    randInt I w N S min max xss = none := by
  intro xss hxss
  obtain ⟨min2, max2, b', a1, b1, a2, a3, c1, c2, c3, c4, c5⟩ := prep hp hI hw hN hmin hmax h
  rw [hb] at c3; cases c3
  have hW := reprWidth_pos hp hw
  have := attempts_none hW c1 c5 xss (zero (reprParts I w N)) (zero_length _)
    ⟨zero (requests (reprWidth I w) b).length, by
      have := requests_length hW c5
      simp only [zero, List.replicate_append_replicate]
      congr 1; omega⟩
    (fun ys hys => ⟨(hxss ys hys).1, by have := (hxss ys hys).2; omega⟩)
  simp only [randInt, a1, b1, this, Option.bind_eq_bind, Option.bind_some, Option.bind_none]

end Verif.RandInt
