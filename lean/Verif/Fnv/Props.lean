import Verif.Fnv.Model
import Verif.Fnv.Spec
import Verif.Integer.Props
import Mathlib.Data.Nat.ModEq
import Mathlib.Tactic.Ring
/-!
Property C39: /repo/src/archon/core/hash_fnv.hpp.
-/
namespace Verif.Fnv
open Verif.Integer

/-- One step of the published function, for any number of bits. -/
def step (N h o : Nat) : Nat := ((h ^^^ o) * 16777619) % 2 ^ N

theorem mod_mod {W k : Nat} (hW : k ≤ W) (v : Nat) : v % 2 ^ W % 2 ^ k = v % 2 ^ k :=
  Nat.mod_mod_of_dvd _ (Nat.pow_dvd_pow 2 hW)

theorem mulxor (N p m v : Nat) : (m ^^^ v) * p % 2 ^ N = (m % 2 ^ N ^^^ v % 2 ^ N) * p % 2 ^ N := by
  rw [← Nat.xor_mod_two_pow, Nat.mod_mul_mod]

theorem addOctet_mod {N W : Nat} (hW : N ≤ W) (m v : Nat) :
    addOctet W m v % 2 ^ N = step N (m % 2 ^ N) (v % 2 ^ N) := by
  unfold addOctet step
  rw [mod_mod hW, mulxor]

/-- The octets that are digested for a value that is not masked: all but the last one are octets. -/
def digested : Nat → (n v : Nat) → List Nat
  | 0, _, v => [v]
  | fuel + 1, n, v => if n > 8 then v % 256 :: digested fuel (n - 8) (v / 256) else [v]

theorem and255 (v : Nat) : v &&& 0xFF = v % 256 := Nat.and_two_pow_sub_one_eq_mod v 8
theorem shr8 (v : Nat) : v >>> 8 = v / 256 := Nat.shiftRight_eq_div_pow v 8

theorem addLoop_mod {N W : Nat} (hW : N ≤ W) (fuel n v m : Nat) :
    addLoop W fuel n v m % 2 ^ N = ((digested fuel n v).map (· % 2 ^ N)).foldl (step N) (m % 2 ^ N) := by
  induction fuel generalizing n v m with
  | zero =>
    rw [addLoop, digested, List.map_cons, List.map_nil, List.foldl_cons, List.foldl_nil, addOctet_mod hW, mod_mod hW]
  | succ fuel ih =>
    rw [addLoop, digested]
    split_ifs with h
    · rw [ih, List.map_cons, List.foldl_cons, addOctet_mod hW, mod_mod hW, shr8, and255]
    · rw [List.map_cons, List.map_nil, List.foldl_cons, List.foldl_nil, addOctet_mod hW, mod_mod hW]

theorem octets_step {width v : Nat} (h : 8 < width) : Spec.octets width v = v % 256 :: Spec.octets (width - 8) (v / 256) := by
  unfold Spec.octets
  rw [show (width + 7) / 8 = (width - 8 + 7) / 8 + 1 by omega, List.range_succ_eq_map, List.map_cons, List.map_map]
  congr 1
  · simp
  · apply List.map_congr_left
    intro k _
    simp only [Function.comp, Nat.succ_eq_add_one]
    rw [Nat.pow_succ', Nat.div_div_eq_div_mul]

theorem octets_last {width v : Nat} (h : width ≤ 8) (h0 : 0 < width) : Spec.octets width v = [v % 256] := by
  unfold Spec.octets
  rw [show (width + 7) / 8 = 1 by omega]
  simp

theorem digested_eq {fuel n v : Nat} (hf : n ≤ fuel) (h0 : 0 < n) (hv : v < 2 ^ n) : digested fuel n v = Spec.octets n v := by
  induction fuel generalizing n v with
  | zero => omega
  | succ fuel ih =>
    rw [digested]
    split_ifs with h
    · rw [octets_step h, ih (by omega) (by omega)]
      rw [show n = (n - 8) + 8 by omega, pow_add] at hv
      omega
    · rw [octets_last (by omega) h0]
      have : 2 ^ n ≤ 2 ^ 8 := Nat.pow_le_pow_right (by omega) (by omega)
      rw [Nat.mod_eq_of_lt (by omega)]

theorem octets_lt {n v o : Nat} (h : o ∈ Spec.octets n v) : o < 256 := by
  obtain ⟨k, -, rfl⟩ := List.mem_map.1 h
  exact Nat.mod_lt _ (by omega)

theorem map_mod {N : Nat} (hN : 8 ≤ N) (l : List Nat) (h : ∀ o ∈ l, o < 256) : l.map (· % 2 ^ N) = l := by
  have h1 : 2 ^ 8 ≤ 2 ^ N := Nat.pow_le_pow_right (by omega) hN
  conv_rhs => rw [← List.map_id l]
  exact List.map_congr_left fun o ho => Nat.mod_eq_of_lt (by have := h o ho; omega)

theorem addByte_mod {N B W : Nat} (hN : 8 ≤ N) (hW : N ≤ W) (hB : 0 < B) (m b : Nat) (hb : b < 2 ^ B) :
    addByte B W m b % 2 ^ N = (Spec.octets B b).foldl (step N) (m % 2 ^ N) := by
  rw [addByte, addLoop_mod hW, digested_eq (Nat.le_refl _) hB hb, map_mod hN _ fun o => octets_lt]

theorem addObj_mod {N B W : Nat} (hN : 8 ≤ N) (hW : N ≤ W) (hB : 0 < B) (m : Nat) (bytes : List Nat)
    (hb : ∀ b ∈ bytes, b < 2 ^ B) :
    addObj B W m bytes % 2 ^ N = (bytes.flatMap (Spec.octets B)).foldl (step N) (m % 2 ^ N) := by
  unfold addObj
  induction bytes generalizing m with
  | nil => rfl
  | cons b bs ih =>
    rw [List.foldl_cons, ih _ fun x hx => hb x (by simp [hx]), addByte_mod hN hW hB m b (hb b (by simp)),
      List.flatMap_cons, List.foldl_append]

theorem natPow (n : Nat) : ((2 ^ n : Nat) : Int) = 2 ^ n := by push_cast; rfl

theorem addInt_mod {N I W : Nat} (hN : 8 ≤ N) (hW : N ≤ W) (T : Ty) (hT : 0 < T.width) (m : Nat) (x : Int)
    (hx : T.In x) (hok : 0 ≤ x ∨ I ≤ T.bits) :
    addInt I W T m x % 2 ^ N = (Spec.octets T.width (x % 2 ^ T.width).toNat).foldl (step N) (m % 2 ^ N) := by
  have p1 := p_pos T.width
  have hm0 : 0 ≤ x % 2 ^ T.width := Int.emod_nonneg _ (by omega)
  have hm1 : x % 2 ^ T.width < 2 ^ T.width := Int.emod_lt_of_pos _ p1
  have hv : toUnsigned (promote I T) x = x % 2 ^ T.width := by
    unfold toUnsigned
    rcases hok with h0 | hI
    · have h1 := (In_nonneg h0).1 hx
      have h2 : (2 : Int) ^ T.bits ≤ 2 ^ T.width := p_le (by unfold Ty.width; omega)
      rw [Int.emod_eq_of_lt h0 (by omega)]
      apply cast_id
      rw [In_nonneg h0]
      refine lt_of_lt_of_le h1 (p_le ?_)
      unfold promote unsignedOf intTy
      split_ifs <;> simp_all <;> omega
    · rcases T with ⟨s, b⟩
      have hb : promote I ⟨s, b⟩ = if b ≤ I then intTy I else ⟨s, b⟩ := rfl
      cases s
      · have h0 : 0 ≤ x := by rw [In_u] at hx; exact hx.1
        have h1 := (In_nonneg h0).1 hx
        rw [hb]
        simp only at hI h1
        simp only [Ty.width, Bool.false_eq_true, if_false, Nat.add_zero] at *
        rw [Int.emod_eq_of_lt h0 h1]
        apply cast_id
        rw [In_nonneg h0]
        refine lt_of_lt_of_le h1 (p_le ?_)
        unfold unsignedOf intTy
        split_ifs <;> simp_all <;> omega
      · have : promote I ⟨true, b⟩ = ⟨true, b⟩ := by
          rw [hb]
          simp only at hI
          split_ifs with h
          · unfold intTy; congr; omega
          · rfl
        rw [this]
        simp [unsignedOf, cast_u, Ty.width]
  rw [addInt, addLoop_mod hW, hv, digested_eq (Nat.le_refl _) hT, map_mod hN _ fun o => octets_lt]
  have := natPow T.width
  omega

/-- Digest everything. -/
def run (B I W : Nat) (m : Nat) (calls : List Spec.Call) : Nat :=
  calls.foldl (fun m c => match c with
    | .byte b => addByte B W m b
    | .int T x => addInt I W T m x
    | .obj bytes => addObj B W m bytes) m

theorem run_mod {N B I W : Nat} (hN : 8 ≤ N) (hW : N ≤ W) (hB : 0 < B) (m : Nat) (calls : List Spec.Call)
    (hv : ∀ c ∈ calls, c.Valid B) (hok : ∀ T x, Spec.Call.int T x ∈ calls → 0 ≤ x ∨ I ≤ T.bits) :
    run B I W m calls % 2 ^ N = (calls.flatMap (Spec.Call.octets B)).foldl (step N) (m % 2 ^ N) := by
  unfold run
  induction calls generalizing m with
  | nil => rfl
  | cons c cs ih =>
    rw [List.foldl_cons, ih _ (fun c hc => hv c (by simp [hc])) (fun T x h => hok T x (by simp [h])),
      List.flatMap_cons, List.foldl_append]
    congr 1
    have hc := hv c (by simp)
    cases c with
    | byte b => exact addByte_mod hN hW hB m b hc
    | int T x => exact addInt_mod hN hW T hc.1 m x (fits_iff.1 hc.2) (hok T x (by simp))
    | obj bytes => exact addObj_mod hN hW hB m bytes hc

theorem get_eq (m : Nat) : get m = m % 2 ^ 32 := Nat.and_two_pow_sub_one_eq_mod m 32

/-- C39, partial: whatever is digested, and however it is split into calls, the result is the published hash of the
sequence of octets, provided that negative integers are of a type that is at least as wide as `int`. What is missing:
negative integers of narrower types (see `C39_defect`). -/
theorem C39_hash_partial (B I W : Nat) (hB : 0 < B) (hW : 32 ≤ W) (calls : List Spec.Call)
    (hv : ∀ c ∈ calls, c.Valid B) (hok : ∀ T x, Spec.Call.int T x ∈ calls → 0 ≤ x ∨ I ≤ T.bits) :
    get (run B I W init calls) = Spec.fnv1a (calls.flatMap (Spec.Call.octets B)) := by
  rw [get_eq, run_mod (by omega) hW hB _ _ hv hok]
  rfl

theorem step_inj {N h o o' : Nat} (hh : h < 2 ^ N) (ho : o < 2 ^ N) (ho' : o' < 2 ^ N)
    (e : step N h o = step N h o') : o = o' := by
  have h1 : (h ^^^ o) * 16777619 ≡ (h ^^^ o') * 16777619 [MOD 2 ^ N] := e
  have h2 : Nat.gcd (2 ^ N) 16777619 = 1 := Nat.Coprime.pow_left N (by decide +kernel)
  have h3 := Nat.ModEq.cancel_right_of_coprime h2 h1
  have h4 : h ^^^ o = h ^^^ o' := by
    have a := Nat.xor_lt_two_pow hh ho
    have b := Nat.xor_lt_two_pow hh ho'
    unfold Nat.ModEq at h3
    rwa [Nat.mod_eq_of_lt a, Nat.mod_eq_of_lt b] at h3
  have h5 := congrArg (h ^^^ ·) h4
  simpa [← Nat.xor_assoc] using h5

theorem digested_neg {fuel n v : Nat} (hf : n ≤ fuel) (h0 : 0 < n) (h8 : 8 ∣ n) :
    ∃ l, digested fuel n v = l ++ [v / 2 ^ (n - 8)] ∧ Spec.octets n v = l ++ [v / 2 ^ (n - 8) % 256] := by
  induction fuel generalizing n v with
  | zero => omega
  | succ fuel ih =>
    obtain ⟨k, rfl⟩ := h8
    rw [digested]
    split_ifs with h
    · rw [octets_step h]
      obtain ⟨l, h1, h2⟩ := ih (n := 8 * k - 8) (v := v / 256) (by omega) (by omega) ⟨k - 1, by omega⟩
      have e : v / 256 / 2 ^ (8 * k - 8 - 8) = v / 2 ^ (8 * k - 8) := by
        rw [Nat.div_div_eq_div_mul]
        congr 1
        rw [show 8 * k - 8 = 8 + (8 * k - 8 - 8) by omega, Nat.pow_add]
        simp
      rw [e] at h1 h2
      exact ⟨v % 256 :: l, by rw [h1]; rfl, by rw [h2]; rfl⟩
    · have : k = 1 := by omega
      subst this
      rw [octets_last (by omega) h0]
      exact ⟨[], by simp, by simp⟩

theorem octets_congr {n v v' : Nat} (h8 : 8 ∣ n) (h : v % 2 ^ n = v' % 2 ^ n) : Spec.octets n v = Spec.octets n v' := by
  obtain ⟨k, rfl⟩ := h8
  unfold Spec.octets
  apply List.map_congr_left
  intro j hj
  have hj : j < k := by have := List.mem_range.1 hj; omega
  have key : ∀ v : Nat, v / 256 ^ j % 256 = v % 2 ^ (8 * k) / 256 ^ j % 256 := by
    intro v
    rw [show 8 * k = 8 * j + (8 * (k - j)) by omega, Nat.pow_add, Nat.pow_mul, show 2 ^ 8 = 256 by rfl,
      Nat.mod_mul_right_div_self]
    rw [show 8 * (k - j) = 8 + 8 * (k - j - 1) by omega, Nat.pow_add, show 2 ^ 8 = 256 by rfl, Nat.mod_mul_right_mod]
  rw [key v, key v', h]

theorem lt256 {N : Nat} (hN : 8 ≤ N) (u : Nat) : u % 256 < 2 ^ N := by
  have h1 : 2 ^ 8 ≤ 2 ^ N := Nat.pow_le_pow_right (by omega) hN
  have := Nat.mod_lt u (show 0 < 256 by omega)
  omega

theorem foldl_lt {N : Nat} (l : List Nat) (m : Nat) : l.foldl (step N) (m % 2 ^ N) < 2 ^ N := by
  have hp : 0 < 2 ^ N := Nat.pow_pos (by omega)
  have : ∀ h, h < 2 ^ N → l.foldl (step N) h < 2 ^ N := by
    induction l with
    | nil => intro h hh; exact hh
    | cons o os ih => intro h _; exact ih _ (Nat.mod_lt _ hp)
  exact this _ (Nat.mod_lt _ hp)

theorem foldl_snoc (N h o : Nat) (l : List Nat) :
    (l ++ [o]).foldl (step N) h = step N (l.foldl (step N) h) o := by
  rw [List.foldl_append, List.foldl_cons, List.foldl_nil]

theorem last_ne {N J u : Nat} (hN : 9 ≤ N) (hu : ∃ z, 0 < z ∧ z ≤ 128 ∧ u + z = 512 * 2 ^ J) : u % 2 ^ N ≠ u % 256 := by
  obtain ⟨z, hz0, hz1, hz⟩ := hu
  intro e
  have e2 : u % 2 ^ N % 512 = u % 256 % 512 := by rw [e]
  rw [show N = 9 + (N - 9) by omega, Nat.pow_add, show 2 ^ 9 = 512 by rfl, Nat.mod_mul_right_mod] at e2
  generalize 2 ^ J = q at hz
  omega

theorem u_form {I b v : Nat} {x : Int} (hT : b < I) (h8 : 8 ∣ b + 1) (hx : -2 ^ b ≤ x) (hneg : x < 0)
    (hv : (v : Int) = 2 ^ (I + 1) + x) :
    ∃ z, 0 < z ∧ z ≤ 128 ∧ v / 2 ^ (b + 1 - 8) + z = 512 * 2 ^ (I - b - 1) := by
  obtain ⟨s, rfl⟩ : ∃ s, b = 7 + s := ⟨b - 7, by omega⟩
  obtain ⟨J, rfl⟩ : ∃ J, I = J + 1 + (7 + s) := ⟨I - (7 + s) - 1, by omega⟩
  rw [show 7 + s + 1 - 8 = s by omega, show J + 1 + (7 + s) - (7 + s) - 1 = J by omega]
  have e1 : (2 : Int) ^ (J + 1 + (7 + s) + 1) = ((512 * 2 ^ J * 2 ^ s : Nat) : Int) := by
    push_cast
    rw [show J + 1 + (7 + s) + 1 = 9 + J + s by omega, pow_add, pow_add]
    norm_num
  have e2 : (2 : Int) ^ (7 + s) = ((128 * 2 ^ s : Nat) : Int) := by
    push_cast
    rw [pow_add]
    norm_num
  rw [e1] at hv
  rw [e2] at hx
  have hp : 0 < 2 ^ s := Nat.pow_pos (by omega)
  have hq : 0 < 2 ^ J := Nat.pow_pos (by omega)
  have a1 : v < 512 * 2 ^ J * 2 ^ s := by omega
  have a2 : 512 * 2 ^ J * 2 ^ s ≤ v + 128 * 2 ^ s := by omega
  have b1 : v / 2 ^ s < 512 * 2 ^ J := (Nat.div_lt_iff_lt_mul hp).2 a1
  have b2 : 512 * 2 ^ J - 128 ≤ v / 2 ^ s := by
    rw [Nat.le_div_iff_mul_le hp, Nat.sub_mul]
    omega
  exact ⟨512 * 2 ^ J - v / 2 ^ s, by omega, by omega, by omega⟩

theorem defect_gen {N : Nat} (hN : 9 ≤ N) (I W : Nat) (hW : N ≤ W) (T : Ty) (hs : T.signed = true) (h8 : 8 ∣ T.width)
    (hT : T.bits < I) (m : Nat) (x : Int) (hx : T.In x) (hneg : x < 0) :
    addInt I W T m x % 2 ^ N ≠ (Spec.octets T.width (x % 2 ^ T.width).toNat).foldl (step N) (m % 2 ^ N) := by
  rcases T with ⟨s, b⟩
  simp only at hs hT
  subst hs
  have hw : (⟨true, b⟩ : Ty).width = b + 1 := rfl
  rw [hw] at h8 ⊢
  rw [In_s] at hx
  have hv : toUnsigned (promote I ⟨true, b⟩) x = 2 ^ (I + 1) + x := by
    have hp : promote I ⟨true, b⟩ = intTy I := by unfold promote; rw [if_pos (by simp only; omega)]
    rw [hp]
    unfold toUnsigned
    simp only [unsignedOf, intTy, if_true]
    rw [cast_u]
    have h1 : (2 : Int) ^ b ≤ 2 ^ (I + 1) := p_le (by omega)
    rw [← Int.add_emod_left, Int.emod_eq_of_lt (by omega) (by omega)]
  have p0 : (2 : Int) ^ b ≤ 2 ^ (I + 1) := p_le (by omega)
  have p1 := p_pos (b + 1)
  have hv0 : 0 ≤ (2 : Int) ^ (I + 1) + x := by omega
  generalize hvn : (2 ^ (I + 1) + x : Int).toNat = v at *
  have hvc : (v : Int) = 2 ^ (I + 1) + x := by omega
  have hoct : Spec.octets (b + 1) (x % 2 ^ (b + 1)).toNat = Spec.octets (b + 1) v := by
    apply octets_congr h8
    have e1 : (2 : Int) ^ (I + 1) = 2 ^ (b + 1) * 2 ^ (I - b) := by rw [← pow_add]; congr 1; omega
    zify
    rw [Int.toNat_of_nonneg (Int.emod_nonneg _ (by omega)), Int.emod_emod, hvc, e1, Int.mul_add_emod_self_left]
  rw [hoct, addInt, hw, hv, hvn, addLoop_mod hW]
  obtain ⟨l, h1, h2⟩ := digested_neg (v := v) (Nat.le_refl (b + 1)) (by omega) h8
  have hl : l.map (· % 2 ^ N) = l := map_mod (by omega) _ fun o ho => octets_lt (n := b + 1) (v := v) (by rw [h2]; simp [ho])
  rw [h1, h2, List.map_append, List.map_singleton, foldl_snoc, foldl_snoc, hl]
  intro e
  exact last_ne (J := I - b - 1) (by omega) (u_form hT h8 hx.1 hneg hvc) (step_inj (foldl_lt l m) (Nat.mod_lt _ (Nat.pow_pos (by omega))) (lt256 (by omega) _) e)

/-- C39 fails for every negative value of every integer type that is narrower than `int`: the result is never that of
digesting the octets of the value. -/
theorem C39_defect (B I W : Nat) (hB : 0 < B) (hW : 32 ≤ W) (calls : List Spec.Call)
    (hv : ∀ c ∈ calls, c.Valid B) (hok : ∀ T x, Spec.Call.int T x ∈ calls → 0 ≤ x ∨ I ≤ T.bits)
    (T : Ty) (hs : T.signed = true) (h8 : 8 ∣ T.width) (hT : T.bits < I) (x : Int) (hx : T.In x) (hneg : x < 0) :
    get (run B I W init (calls ++ [.int T x])) ≠
      Spec.fnv1a ((calls ++ [Spec.Call.int T x]).flatMap (Spec.Call.octets B)) := by
  rw [get_eq]
  have h := defect_gen (N := 32) (by omega) I W hW T hs h8 hT (run B I W init calls) x hx hneg
  rw [run_mod (by omega) hW hB _ _ hv hok] at h
  rw [List.flatMap_append, run, List.foldl_append]
  have e : ∀ l l' : List Nat, Spec.fnv1a (l ++ l') = l'.foldl (step 32) (l.foldl (step 32) init) := fun l l' =>
    List.foldl_append
  rw [e, List.flatMap_cons, List.flatMap_nil, List.append_nil]
  exact h

/-- C39, the defect, for the type `signed char`: -1 is digested as if it were the number `2^32 - 1`. -/
theorem C39_defect_example :
    get (run 8 31 32 init [.int ⟨true, 7⟩ (-1)]) ≠ Spec.fnv1a (Spec.Call.octets 8 (.int ⟨true, 7⟩ (-1))) := by
  decide +kernel

/-- Published test vectors: the empty string, "a", and "foobar". -/
example : Spec.fnv1a [] = 0x811c9dc5 ∧ Spec.fnv1a [0x61] = 0xe40c292c ∧
    Spec.fnv1a [0x66, 0x6f, 0x6f, 0x62, 0x61, 0x72] = 0xbf9cf968 := by decide +kernel

example : get (run 8 31 64 init [.byte 0x66, .int ⟨false, 16⟩ 0x6f6f, .obj [0x62, 0x61], .byte 0x72]) = 0xbf9cf968 := by
  decide +kernel

example : get (run 8 31 64 init [.int ⟨true, 31⟩ (-2)]) = Spec.fnv1a [0xFE, 0xFF, 0xFF, 0xFF] := by decide +kernel

end Verif.Fnv
