import Verif.PixelLoops.Model
import Verif.PixelLoops.Spec
import Mathlib.Tactic.Ring
/-!
Correctness of the loops, given correctness of the functions that access units and pixels in units.
-/
namespace Verif.PixelLoops

/-- Pixels `b`, ..., `b + n - 1` are replaced. -/
def upd (s : Nat → Nat) (b n : Nat) (f : Nat → Nat) (i : Nat) : Nat := if b ≤ i ∧ i < b + n then f (i - b) else s i

theorem upd_zero (s : Nat → Nat) (b : Nat) (f : Nat → Nat) : upd s b 0 f = s := by
  funext i; unfold upd; rw [if_neg (by omega)]

theorem upd_append (s : Nat → Nat) (b n n' : Nat) (f : Nat → Nat) :
    upd (upd s b n f) (b + n) n' (fun j => f (n + j)) = upd s b (n + n') f := by
  funext i; unfold upd
  by_cases h1 : b + n ≤ i ∧ i < b + n + n'
  · rw [if_pos h1, if_pos (by omega)]
    show f _ = f _
    congr 1; omega
  · rw [if_neg h1]
    by_cases h2 : b ≤ i ∧ i < b + n
    · rw [if_pos h2, if_pos (by omega)]
    · rw [if_neg h2, if_neg (by omega)]

theorem upd_valid {V : Nat → Prop} {s : Nat → Nat} {b n : Nat} {f : Nat → Nat} (hs : ∀ i, V (s i)) (hf : ∀ j, j < n → V (f j)) (i : Nat) :
    V (upd s b n f i) := by
  unfold upd; split
  · exact hf _ (by omega)
  · exact hs i

/-- What is required of the functions that access units. `E s` is the buffer with pixels `s`; it has `m` units. `uv s k` is the
value of unit `k`. `V` is the set of valid pixel values. -/
structure Sem (U : Units) (m : Nat) (E : (Nat → Nat) → List Int) (uv : (Nat → Nat) → Nat → Int) (V : Nat → Prop) : Prop where
  pos : 0 < U.perUnit
  read : ∀ s k, (∀ i, V (s i)) → k < m → U.read (E s) k = some (uv s k)
  write : ∀ s s' k, (∀ i, V (s i)) → (∀ i, V (s' i)) → k < m → (∀ i, i / U.perUnit ≠ k → s' i = s i) →
    U.write (uv s' k) (E s) k = some (E s')
  congr : ∀ s s' k, (∀ i, i / U.perUnit = k → s i = s' i) → uv s k = uv s' k
  zero : ∀ k, uv (fun _ => 0) k = 0
  vzero : V 0

variable {U : Units} {m : Nat} {E : (Nat → Nat) → List Int} {uv : (Nat → Nat) → Nat → Int} {V : Nat → Prop} {Px : Type}

theorem div_of {D k p : Nat} (hp : p < D) : (k * D + p) / D = k := by
  rw [Nat.mul_comm, Nat.mul_add_div (by omega), Nat.div_eq_of_lt hp]; rfl

/-! ### Reading -/

theorem readSlots_spec {get : Int → Nat → Option Px} {dv : Nat → Px} {s : Nat → Nat}
    (hget : ∀ k p, p < U.perUnit → get (uv s k) p = some (dv (s (k * U.perUnit + p)))) (k : Nat) :
    ∀ n p, p + n ≤ U.perUnit →
      readSlots get (uv s k) n p = some ((List.range n).map fun j => dv (s (k * U.perUnit + p + j))) := by
  intro n
  induction n with
  | zero => intro p _; rfl
  | succ n ih =>
    intro p hp
    unfold readSlots
    rw [hget k p (by omega), ih (p + 1) (by omega)]
    simp only [Option.bind_eq_bind, Option.bind_some, List.range_succ_eq_map, List.map_cons, List.map_map]
    congr 2
    apply List.map_congr_left
    intro j _
    simp only [Function.comp]
    congr 2; omega

theorem range_append (a b : Nat) (f : Nat → Px) :
    (List.range a).map f ++ (List.range b).map (fun j => f (a + j)) = (List.range (a + b)).map f := by
  rw [List.range_add, List.map_append, List.map_map]; rfl

theorem readUnits_spec (hU : Sem U m E uv V) {get : Int → Nat → Option Px} {dv : Nat → Px} {s : Nat → Nat} (hs : ∀ i, V (s i))
    (hget : ∀ k p, p < U.perUnit → get (uv s k) p = some (dv (s (k * U.perUnit + p)))) :
    ∀ n k, k + n ≤ m →
      readUnits U get (E s) n k = some ((List.range (n * U.perUnit)).map fun j => dv (s (k * U.perUnit + j))) := by
  intro n
  induction n with
  | zero => intro k _; simp [readUnits]
  | succ n ih =>
    intro k hk
    unfold readUnits
    rw [hU.read s k hs (by omega)]
    simp only [Option.bind_eq_bind, Option.bind_some]
    rw [readSlots_spec hget k U.perUnit 0 (by omega), ih (k + 1) (by omega)]
    simp only [Option.bind_some]
    congr 1
    rw [show (n + 1) * U.perUnit = U.perUnit + n * U.perUnit by ring, ← range_append]
    congr 1
    apply List.map_congr_left
    intro j _
    congr 2; ring

theorem readLast_spec (hU : Sem U m E uv V) {get : Int → Nat → Option Px} {dv : Nat → Px} {s : Nat → Nat} (hs : ∀ i, V (s i))
    (hget : ∀ k p, p < U.perUnit → get (uv s k) p = some (dv (s (k * U.perUnit + p)))) {k bp ep : Nat} (hle : bp ≤ ep)
    (hep : ep < U.perUnit) (hk : k * U.perUnit + ep ≤ m * U.perUnit) :
    readLast U get (E s) k bp ep = some ((List.range (ep - bp)).map fun j => dv (s (k * U.perUnit + bp + j))) := by
  unfold readLast
  by_cases h : ep > bp
  · rw [if_pos h]
    have hk' : k < m := by
      by_contra hc
      have : m * U.perUnit ≤ k * U.perUnit := Nat.mul_le_mul_right _ (by omega)
      omega
    rw [hU.read s k hs hk']
    simp only [Option.bind_eq_bind, Option.bind_some]
    rw [readSlots_spec hget k _ _ (by omega)]
  · rw [if_neg h, show ep - bp = 0 by omega]; rfl

theorem readRow_spec (hU : Sem U m E uv V) {get : Int → Nat → Option Px} {dv : Nat → Px} {s : Nat → Nat} (hs : ∀ i, V (s i))
    (hget : ∀ k p, p < U.perUnit → get (uv s k) p = some (dv (s (k * U.perUnit + p)))) {b w : Nat}
    (hb : b + w ≤ m * U.perUnit) :
    readRow U get (E s) (b / U.perUnit, b % U.perUnit) ((b + w) / U.perUnit, (b + w) % U.perUnit) =
      some ((List.range w).map fun x => dv (s (b + x))) := by
  have hD := hU.pos
  have d1 := Nat.div_add_mod' b U.perUnit
  have d2 := Nat.div_add_mod' (b + w) U.perUnit
  have m1 := Nat.mod_lt b hD
  have m2 := Nat.mod_lt (b + w) hD
  have hle : b / U.perUnit ≤ (b + w) / U.perUnit := Nat.div_le_div_right (by omega)
  generalize hbk : b / U.perUnit = bk at *
  generalize hbp : b % U.perUnit = bp at *
  generalize hek : (b + w) / U.perUnit = ek at *
  generalize hep : (b + w) % U.perUnit = ep at *
  unfold readRow
  simp only
  by_cases h : ek > bk
  · rw [if_pos h]
    have hkm : ek ≤ m := by
      by_contra hc
      have : (m + 1) * U.perUnit ≤ ek * U.perUnit := Nat.mul_le_mul_right _ (by omega)
      rw [Nat.add_mul] at this; omega
    rw [hU.read s bk hs (by omega)]
    simp only [Option.bind_eq_bind, Option.bind_some]
    rw [readSlots_spec hget bk _ _ (by omega)]
    simp only [Option.bind_some]
    rw [readUnits_spec hU hs hget _ _ (by omega)]
    simp only [Option.bind_some]
    rw [show bk + 1 + (ek - bk - 1) = ek by omega, readLast_spec hU hs hget (by omega) m2 (by omega)]
    simp only [Option.bind_some]
    obtain ⟨n, rfl⟩ : ∃ n, ek = bk + 1 + n := ⟨ek - bk - 1, by omega⟩
    rw [show bk + 1 + n - bk - 1 = n by omega]
    have hw : w = (U.perUnit - bp) + n * U.perUnit + ep := by
      have : (bk + 1 + n) * U.perUnit = bk * U.perUnit + U.perUnit + n * U.perUnit := by ring
      omega
    rw [hw, ← range_append, ← range_append]
    congr 2
    · congr 1
      · apply List.map_congr_left; intro j _; congr 2; omega
      · apply List.map_congr_left; intro j _; congr 2
        have : (bk + 1) * U.perUnit = bk * U.perUnit + U.perUnit := by ring
        omega
    · apply List.map_congr_left; intro j _; congr 2
      have : (bk + 1 + n) * U.perUnit = bk * U.perUnit + U.perUnit + n * U.perUnit := by ring
      omega
  · have he : ek = bk := by omega
    rw [if_neg h, if_pos he]
    subst he
    rw [readLast_spec hU hs hget (by omega) m2 (by omega), show ep - bp = w by omega, d1]

/-! ### Positions -/

theorem stride_eq (D : Nat) (hD : 0 < D) (W : Nat) : Spec.stride D true W = (W + (D - 1)) / D * D := by
  unfold Spec.stride
  simp only [if_true]
  have h := Nat.div_add_mod' W D
  have h2 := Nat.mod_lt W hD
  generalize W / D = q at *
  generalize W % D = r at *
  split
  · rw [show W + (D - 1) = q * D + (D - 1) by omega, div_of (by omega)]; omega
  · rw [show W + (D - 1) = (q + 1) * D + (r - 1) by rw [Nat.add_mul]; omega, div_of (by omega)]

theorem pixelPos_eq {D : Nat} (hD : 0 < D) (aligned : Bool) (W x y : Nat) :
    pixelPos D aligned W x y =
      (Spec.index (Spec.stride D aligned W) x y / D, Spec.index (Spec.stride D aligned W) x y % D) := by
  unfold pixelPos Spec.index
  cases aligned
  · rfl
  · simp only [if_true]
    rw [stride_eq D hD]
    congr 1
    · rw [← Nat.mul_assoc, Nat.mul_comm _ D, Nat.mul_add_div hD]
    · rw [← Nat.mul_assoc, Nat.mul_comm _ D, Nat.mul_add_mod]

theorem width_le_stride {D : Nat} (hD : 0 < D) (aligned : Bool) (W : Nat) : W ≤ Spec.stride D aligned W := by
  unfold Spec.stride
  have h := Nat.div_add_mod' W D
  have h2 := Nat.mod_lt W hD
  cases aligned
  · exact Nat.le_refl _
  · simp only [if_true]
    split
    · exact Nat.le_refl _
    · rw [Nat.add_mul]; omega

/-! ### Reading rows -/

theorem readRows_spec (hU : Sem U m E uv V) {get : Int → Nat → Option Px} {dv : Nat → Px} {s : Nat → Nat} (hs : ∀ i, V (s i))
    (hget : ∀ k p, p < U.perUnit → get (uv s k) p = some (dv (s (k * U.perUnit + p)))) {aligned : Bool} {W px py w : Nat}
    (hx : px + w ≤ W) :
    ∀ n y, Spec.stride U.perUnit aligned W * (py + y + n) ≤ m * U.perUnit →
      readRows U get aligned W (E s) px py w n y = some ((List.range n).map fun j => (List.range w).map fun x =>
        dv (s (Spec.index (Spec.stride U.perUnit aligned W) (px + x) (py + (y + j))))) := by
  intro n
  induction n with
  | zero => intro y _; rfl
  | succ n ih =>
    intro y hy
    unfold readRows
    have hst := width_le_stride hU.pos aligned W
    simp only [pixelPos_eq hU.pos]
    have e : Spec.index (Spec.stride U.perUnit aligned W) (px + w) (py + y) =
        Spec.index (Spec.stride U.perUnit aligned W) px (py + y) + w := by unfold Spec.index; omega
    rw [e, readRow_spec hU hs hget]
    · simp only [Option.bind_eq_bind, Option.bind_some]
      rw [ih (y + 1) (by rw [show py + (y + 1) + n = py + y + (n + 1) by omega]; exact hy)]
      simp only [Option.bind_some, List.range_succ_eq_map, List.map_cons, List.map_map]
      congr 2
      · apply List.map_congr_left
        intro x _
        unfold Spec.index
        rw [Nat.add_zero, Nat.add_assoc]
      · apply List.map_congr_left
        intro j _
        simp only [Function.comp]
        apply List.map_congr_left
        intro x _
        congr 3; omega
    · unfold Spec.index
      generalize Spec.stride U.perUnit aligned W = S at *
      have h1 : S * (py + y + (n + 1)) = (py + y) * S + S + S * n := by ring
      have : 0 ≤ S * n := Nat.zero_le _
      omega

theorem read_spec (hU : Sem U m E uv V) {get : Int → Nat → Option Px} {dv : Nat → Px} {s : Nat → Nat} (hs : ∀ i, V (s i))
    (hget : ∀ k p, p < U.perUnit → get (uv s k) p = some (dv (s (k * U.perUnit + p)))) {aligned : Bool} {W H px py w h : Nat}
    (hm : Spec.stride U.perUnit aligned W * H ≤ m * U.perUnit) (hx : px + w ≤ W) (hy : py + h ≤ H) :
    read U get aligned (E s) W H px py w h =
      some (Spec.crop (Spec.stride U.perUnit aligned W) px py w h (fun i => dv (s i))) := by
  unfold read contained
  rw [if_pos (by simp; omega), Int.toNat_natCast, Int.toNat_natCast]
  rw [readRows_spec hU hs hget hx h 0
    (Nat.le_trans (Nat.mul_le_mul_left _ (by omega)) hm)]
  unfold Spec.crop
  congr 1
  apply List.map_congr_left
  intro y _
  rw [Nat.zero_add]

/-! ### Writing -/

theorem writeSlots_spec (hU : Sem U m E uv V) {set : Px → Int → Nat → Option Int} {cv : Px → Nat} {ok : Px → Prop}
    (hcv : ∀ a, ok a → V (cv a))
    (hset : ∀ s k p a, (∀ i, V (s i)) → p < U.perUnit → ok a →
      set a (uv s k) p = some (uv (upd s (k * U.perUnit + p) 1 (fun _ => cv a)) k))
    {src : Nat → Option Px} {f : Nat → Px} (k : Nat) :
    ∀ n p x s, (∀ i, V (s i)) → p + n ≤ U.perUnit → (∀ j, j < n → src (x + j) = some (f (x + j)) ∧ ok (f (x + j))) →
      writeSlots set src n p x (uv s k) = some (uv (upd s (k * U.perUnit + p) n (fun j => cv (f (x + j)))) k) := by
  intro n
  induction n with
  | zero => intro p x s _ _ _; rw [upd_zero]; rfl
  | succ n ih =>
    intro p x s hs hp hsrc
    have h0 := hsrc 0 (by omega)
    rw [Nat.add_zero] at h0
    unfold writeSlots
    rw [h0.1]
    simp only [Option.bind_eq_bind, Option.bind_some]
    rw [hset s k p _ hs (by omega) h0.2]
    simp only [Option.bind_some]
    rw [ih (p + 1) (x + 1) _ (upd_valid hs (fun j _ => hcv _ h0.2)) (by omega)]
    · congr 1
      apply hU.congr
      intro i _
      have := congrFun (upd_append s (k * U.perUnit + p) 1 n (fun j => cv (f (x + j)))) i
      rw [Nat.add_comm 1 n] at this
      rw [← this]
      have e1 : upd s (k * U.perUnit + p) 1 (fun _ => cv (f x)) = upd s (k * U.perUnit + p) 1 (fun j => cv (f (x + j))) := by
        funext i; unfold upd; split
        · rw [show i - (k * U.perUnit + p) = 0 by omega]; rfl
        · rfl
      rw [e1, Nat.add_assoc (k * U.perUnit)]
      simp only [Nat.add_assoc]
    · intro j hj
      have := hsrc (j + 1) (by omega)
      rw [show x + 1 + j = x + (j + 1) by omega]; exact this

theorem upd_outside {s : Nat → Nat} {D k p n : Nat} {f : Nat → Nat} (hp : p + n ≤ D) :
    ∀ i, i / D ≠ k → upd s (k * D + p) n f i = s i := by
  intro i hi
  unfold upd
  rw [if_neg]
  intro hc
  apply hi
  rw [show i = k * D + (i - k * D) by omega, div_of (by omega)]

theorem writeUnits_spec (hU : Sem U m E uv V) {set : Px → Int → Nat → Option Int} {cv : Px → Nat} {ok : Px → Prop}
    (hcv : ∀ a, ok a → V (cv a))
    (hset : ∀ s k p a, (∀ i, V (s i)) → p < U.perUnit → ok a →
      set a (uv s k) p = some (uv (upd s (k * U.perUnit + p) 1 (fun _ => cv a)) k))
    {src : Nat → Option Px} {f : Nat → Px} :
    ∀ n k x s, (∀ i, V (s i)) → k + n ≤ m →
      (∀ j, j < n * U.perUnit → src (x + j) = some (f (x + j)) ∧ ok (f (x + j))) →
      writeUnits U set src n k x (E s) = some (E (upd s (k * U.perUnit) (n * U.perUnit) (fun j => cv (f (x + j))))) := by
  intro n
  induction n with
  | zero => intro k x s _ _ _; rw [Nat.zero_mul, upd_zero]; rfl
  | succ n ih =>
    intro k x s hs hk hsrc
    have hn : (n + 1) * U.perUnit = U.perUnit + n * U.perUnit := by ring
    rw [hn] at hsrc ⊢
    have hD := hU.pos
    have hsrc1 : ∀ j, j < U.perUnit → src (x + j) = some (f (x + j)) ∧ ok (f (x + j)) := fun j hj => hsrc j (by omega)
    unfold writeUnits
    rw [← hU.zero k, writeSlots_spec hU hcv hset k U.perUnit 0 x (fun _ => 0) (fun _ => hU.vzero) (by omega) hsrc1]
    simp only [Option.bind_eq_bind, Option.bind_some]
    have hc : uv (upd (fun _ => 0) (k * U.perUnit + 0) U.perUnit fun j => cv (f (x + j))) k =
        uv (upd s (k * U.perUnit + 0) U.perUnit fun j => cv (f (x + j))) k := by
      apply hU.congr
      intro i hi
      have d := Nat.div_add_mod' i U.perUnit
      have l := Nat.mod_lt i hD
      rw [hi] at d
      unfold upd
      rw [if_pos (by omega), if_pos (by omega)]
    have hs1 : ∀ i, V (upd s (k * U.perUnit + 0) U.perUnit (fun j => cv (f (x + j))) i) :=
      upd_valid hs (fun j hj => hcv _ (hsrc1 j hj).2)
    rw [hc, hU.write s _ k hs hs1 (by omega) (upd_outside (by omega))]
    simp only [Option.bind_some]
    rw [ih (k + 1) (x + U.perUnit) _ hs1 (by omega)]
    · congr 2
      have := upd_append s (k * U.perUnit) U.perUnit (n * U.perUnit) (fun j => cv (f (x + j)))
      rw [← this]
      simp only [Nat.add_assoc, Nat.add_zero]
      rw [show (k + 1) * U.perUnit = k * U.perUnit + U.perUnit by ring]
    · intro j hj
      have := hsrc (U.perUnit + j) (by omega)
      rw [show x + U.perUnit + j = x + (U.perUnit + j) by omega]; exact this

theorem writeLast_spec (hU : Sem U m E uv V) {set : Px → Int → Nat → Option Int} {cv : Px → Nat} {ok : Px → Prop}
    (hcv : ∀ a, ok a → V (cv a))
    (hset : ∀ s k p a, (∀ i, V (s i)) → p < U.perUnit → ok a →
      set a (uv s k) p = some (uv (upd s (k * U.perUnit + p) 1 (fun _ => cv a)) k))
    {src : Nat → Option Px} {f : Nat → Px} {s : Nat → Nat} (hs : ∀ i, V (s i)) {k bp ep x : Nat} (hle : bp ≤ ep)
    (hep : ep < U.perUnit) (hk : k * U.perUnit + ep ≤ m * U.perUnit)
    (hsrc : ∀ j, j < ep - bp → src (x + j) = some (f (x + j)) ∧ ok (f (x + j))) :
    writeLast U set src (E s) k bp ep x = some (E (upd s (k * U.perUnit + bp) (ep - bp) (fun j => cv (f (x + j))))) := by
  unfold writeLast
  by_cases h : ep > bp
  · rw [if_pos h]
    have hk' : k < m := by
      by_contra hc
      have : m * U.perUnit ≤ k * U.perUnit := Nat.mul_le_mul_right _ (by omega)
      omega
    rw [hU.read s k hs hk']
    simp only [Option.bind_eq_bind, Option.bind_some]
    rw [writeSlots_spec hU hcv hset k _ _ _ _ hs (by omega) hsrc]
    simp only [Option.bind_some]
    exact hU.write s _ k hs (upd_valid hs (fun j hj => hcv _ (hsrc j hj).2)) hk' (upd_outside (by omega))
  · rw [if_neg h, show ep - bp = 0 by omega, upd_zero]

theorem writeRow_spec (hU : Sem U m E uv V) {set : Px → Int → Nat → Option Int} {cv : Px → Nat} {ok : Px → Prop}
    (hcv : ∀ a, ok a → V (cv a))
    (hset : ∀ s k p a, (∀ i, V (s i)) → p < U.perUnit → ok a →
      set a (uv s k) p = some (uv (upd s (k * U.perUnit + p) 1 (fun _ => cv a)) k))
    {src : Nat → Option Px} {f : Nat → Px} {s : Nat → Nat} (hs : ∀ i, V (s i)) {b w : Nat} (hb : b + w ≤ m * U.perUnit)
    (hsrc : ∀ j, j < w → src j = some (f j) ∧ ok (f j)) :
    writeRow U set src (E s) (b / U.perUnit, b % U.perUnit) ((b + w) / U.perUnit, (b + w) % U.perUnit) =
      some (E (upd s b w (fun j => cv (f j)))) := by
  have hD := hU.pos
  have d1 := Nat.div_add_mod' b U.perUnit
  have d2 := Nat.div_add_mod' (b + w) U.perUnit
  have m1 := Nat.mod_lt b hD
  have m2 := Nat.mod_lt (b + w) hD
  have hle : b / U.perUnit ≤ (b + w) / U.perUnit := Nat.div_le_div_right (by omega)
  generalize hbk : b / U.perUnit = bk at *
  generalize hbp : b % U.perUnit = bp at *
  generalize hek : (b + w) / U.perUnit = ek at *
  generalize hep : (b + w) % U.perUnit = ep at *
  unfold writeRow
  simp only
  by_cases h : ek > bk
  · rw [if_pos h]
    have hkm : ek ≤ m := by
      by_contra hc
      have : (m + 1) * U.perUnit ≤ ek * U.perUnit := Nat.mul_le_mul_right _ (by omega)
      rw [Nat.add_mul] at this; omega
    obtain ⟨n, rfl⟩ : ∃ n, ek = bk + 1 + n := ⟨ek - bk - 1, by omega⟩
    have e1 : (bk + 1 + n) * U.perUnit = bk * U.perUnit + U.perUnit + n * U.perUnit := by ring
    have e2 : (bk + 1) * U.perUnit = bk * U.perUnit + U.perUnit := by ring
    have hw : w = (U.perUnit - bp) + n * U.perUnit + ep := by omega
    rw [show bk + 1 + n - bk - 1 = n by omega]
    rw [hU.read s bk hs (by omega)]
    simp only [Option.bind_eq_bind, Option.bind_some]
    rw [writeSlots_spec hU hcv hset (f := f) bk _ _ _ _ hs (by omega)
      (fun j hj => by rw [Nat.zero_add]; exact hsrc j (by omega))]
    simp only [Option.bind_some, Nat.zero_add]
    have v1 : ∀ i, V (upd s (bk * U.perUnit + bp) (U.perUnit - bp) (fun j => cv (f j)) i) :=
      upd_valid hs (fun j hj => hcv _ (hsrc j (by omega)).2)
    rw [hU.write s _ bk hs v1 (by omega) (upd_outside (by omega))]
    simp only [Option.bind_some]
    rw [writeUnits_spec hU hcv hset (f := f) _ _ _ _ v1 (by omega) (fun j hj => hsrc _ (by omega))]
    simp only [Option.bind_some]
    have c1 := upd_append s b (U.perUnit - bp) (n * U.perUnit) (fun j => cv (f j))
    rw [show b + (U.perUnit - bp) = (bk + 1) * U.perUnit by omega, ← d1] at c1
    rw [c1]
    rw [writeLast_spec hU hcv hset (f := f) (upd_valid hs (fun j hj => hcv _ (hsrc j (by omega)).2)) (by omega) m2
      (by omega) (fun j hj => hsrc _ (by omega))]
    have c2 := upd_append s b (U.perUnit - bp + n * U.perUnit) ep (fun j => cv (f j))
    rw [show b + (U.perUnit - bp + n * U.perUnit) = (bk + 1 + n) * U.perUnit + 0 by omega, ← hw] at c2
    rw [← c2, ← d1]; rfl
  · have he : ek = bk := by omega
    rw [if_neg h, if_pos he]
    subst he
    rw [writeLast_spec hU hcv hset (f := f) hs (by omega) m2 (by omega)
      (fun j hj => by rw [Nat.zero_add]; exact hsrc j (by omega))]
    rw [show ep - bp = w by omega, d1]
    simp only [Nat.zero_add]

/-- Rows `y`, ..., `y + n - 1` of the area are replaced. -/
theorem draw_step {S px py w n y : Nat} {src : Nat → Nat → Nat} {s : Nat → Nat} (hx : px + w ≤ S) :
    Spec.draw S px (py + (y + 1)) w n (fun x j => src x (y + 1 + j))
      (upd s (Spec.index S px (py + y)) w (fun j => src j y)) =
    Spec.draw S px (py + y) w (n + 1) (fun x j => src x (y + j)) s := by
  funext i
  unfold Spec.draw Spec.inside upd Spec.index
  by_cases hS : S = 0
  · have hw : w = 0 := by omega
    subst hw
    simp only [Nat.add_zero]
    rw [if_neg (by simp), if_neg (by omega), if_neg (by simp)]
  have d := Nat.div_add_mod' i S
  have l := Nat.mod_lt i (by omega : 0 < S)
  generalize i / S = q at *
  generalize i % S = r at *
  have hiff : ((py + y) * S + px ≤ i ∧ i < (py + y) * S + px + w) ↔ (q = py + y ∧ px ≤ r ∧ r < px + w) := by
    constructor
    · rintro ⟨h1, h2⟩
      have : q = py + y := by
        rcases Nat.lt_trichotomy q (py + y) with hc | hc | hc
        · have : (q + 1) * S ≤ (py + y) * S := Nat.mul_le_mul_right _ hc
          rw [Nat.add_mul] at this; omega
        · exact hc
        · have : (py + y + 1) * S ≤ q * S := Nat.mul_le_mul_right _ hc
          rw [Nat.add_mul (py + y)] at this; omega
      subst this; omega
    · rintro ⟨rfl, h1, h2⟩; omega
  by_cases h1 : q = py + y ∧ px ≤ r ∧ r < px + w
  · rw [if_neg (by simp; omega), if_pos (hiff.2 h1), if_pos (by simp; omega)]
    obtain ⟨rfl, h1, h2⟩ := h1
    show src _ _ = src _ _
    congr 1 <;> omega
  · have h1' := fun hc => h1 (hiff.1 hc)
    by_cases h2 : py + (y + 1) ≤ q ∧ q < py + (y + 1) + n ∧ px ≤ r ∧ r < px + w
    · rw [if_pos (by simpa using h2), if_pos (by simp; omega)]
      show src _ _ = src _ _
      congr 1; omega
    · rw [if_neg (by simpa using h2), if_neg h1', if_neg (by simp; omega)]

theorem draw_zero {S px py w : Nat} {src : Nat → Nat → Nat} {s : Nat → Nat} : Spec.draw S px py w 0 src s = s := by
  funext i; unfold Spec.draw Spec.inside; rw [if_neg (by simp; omega)]

theorem writeRows_spec (hU : Sem U m E uv V) {set : Px → Int → Nat → Option Int} {cv : Px → Nat} {ok : Px → Prop}
    (hcv : ∀ a, ok a → V (cv a))
    (hset : ∀ s k p a, (∀ i, V (s i)) → p < U.perUnit → ok a →
      set a (uv s k) p = some (uv (upd s (k * U.perUnit + p) 1 (fun _ => cv a)) k))
    {tray : Nat → Nat → Option Px} {f : Nat → Nat → Px} {aligned : Bool} {W px py w : Nat} (hx : px + w ≤ W) :
    ∀ n y s, (∀ i, V (s i)) → Spec.stride U.perUnit aligned W * (py + y + n) ≤ m * U.perUnit →
      (∀ x j, x < w → j < n → tray x (y + j) = some (f x (y + j)) ∧ ok (f x (y + j))) →
      writeRows U set aligned W px py w tray n y (E s) =
        some (E (Spec.draw (Spec.stride U.perUnit aligned W) px (py + y) w n (fun x j => cv (f x (y + j))) s)) := by
  intro n
  induction n with
  | zero => intro y s _ _ _; rw [draw_zero]; rfl
  | succ n ih =>
    intro y s hs hy hsrc
    unfold writeRows
    have hst := width_le_stride hU.pos aligned W
    simp only [pixelPos_eq hU.pos]
    have e : Spec.index (Spec.stride U.perUnit aligned W) (px + w) (py + y) =
        Spec.index (Spec.stride U.perUnit aligned W) px (py + y) + w := by unfold Spec.index; omega
    have h0 : ∀ x, x < w → tray x y = some (f x y) ∧ ok (f x y) := fun x hx => hsrc x 0 hx (by omega)
    rw [e, writeRow_spec hU hcv hset (f := fun x => f x y) hs ?_ h0]
    · simp only [Option.bind_eq_bind, Option.bind_some]
      rw [ih (y + 1) _ (upd_valid hs (fun j hj => hcv _ (h0 j hj).2))
        (by rw [show py + (y + 1) + n = py + y + (n + 1) by omega]; exact hy)]
      · congr 2
        exact draw_step (src := fun x j => cv (f x j)) (by omega)
      · intro x j hx hj
        have := hsrc x (j + 1) hx (by omega)
        rw [show y + 1 + j = y + (j + 1) by omega]; exact this
    · unfold Spec.index
      generalize Spec.stride U.perUnit aligned W = S at *
      have h1 : S * (py + y + (n + 1)) = (py + y) * S + S + S * n := by ring
      have : 0 ≤ S * n := Nat.zero_le _
      omega

theorem write_spec (hU : Sem U m E uv V) {set : Px → Int → Nat → Option Int} {cv : Px → Nat} {ok : Px → Prop}
    (hcv : ∀ a, ok a → V (cv a))
    (hset : ∀ s k p a, (∀ i, V (s i)) → p < U.perUnit → ok a →
      set a (uv s k) p = some (uv (upd s (k * U.perUnit + p) 1 (fun _ => cv a)) k))
    {tray : Nat → Nat → Option Px} {f : Nat → Nat → Px} {aligned : Bool} {W H px py w h : Nat} {s : Nat → Nat}
    (hs : ∀ i, V (s i)) (hm : Spec.stride U.perUnit aligned W * H ≤ m * U.perUnit) (hx : px + w ≤ W) (hy : py + h ≤ H)
    (hsrc : ∀ x y, x < w → y < h → tray x y = some (f x y) ∧ ok (f x y)) :
    write U set aligned (E s) W H px py w h tray =
      some (E (Spec.draw (Spec.stride U.perUnit aligned W) px py w h (fun x y => cv (f x y)) s)) := by
  unfold write contained
  rw [if_pos (by simp; omega)]
  simp only [Int.toNat_natCast]
  rw [writeRows_spec hU hcv hset (f := f) hx h 0 s hs (Nat.le_trans (Nat.mul_le_mul_left _ (by omega)) hm)
    (fun x j hx hj => by rw [Nat.zero_add]; exact hsrc x j hx hj)]
  simp only [Nat.zero_add, Nat.add_zero]

/-! ### Filling -/

theorem fillSlots_eq (set : Int → Nat → Option Int) : ∀ n p x u,
    fillSlots set n p u = writeSlots (fun (_ : Unit) => set) (fun _ => some ()) n p x u := by
  intro n
  induction n with
  | zero => intro p x u; rfl
  | succ n ih =>
    intro p x u
    unfold fillSlots writeSlots
    simp only [Option.bind_eq_bind, Option.bind_some]
    congr 1; funext u'
    exact ih _ _ _

theorem fillUnits_eq (U : Units) (set : Int → Nat → Option Int) : ∀ n k x buf,
    fillUnits U set n k buf = writeUnits U (fun (_ : Unit) => set) (fun _ => some ()) n k x buf := by
  intro n
  induction n with
  | zero => intro k x buf; rfl
  | succ n ih =>
    intro k x buf
    unfold fillUnits writeUnits
    rw [fillSlots_eq set _ _ x]
    congr 1; funext u
    congr 1; funext b
    exact ih _ _ _

theorem fillLast_eq (U : Units) (set : Int → Nat → Option Int) (buf : List Int) (k bp ep x : Nat) :
    fillLast U set buf k bp ep = writeLast U (fun (_ : Unit) => set) (fun _ => some ()) buf k bp ep x := by
  unfold fillLast writeLast
  simp only [fillSlots_eq set _ _ x]

theorem fillRow_eq (U : Units) (set : Int → Nat → Option Int) (buf : List Int) (b e : Nat × Nat) :
    fillRow U set buf b e = writeRow U (fun (_ : Unit) => set) (fun _ => some ()) buf b e := by
  unfold fillRow writeRow
  rw [fillLast_eq U set buf _ _ _ 0]
  simp only [fillSlots_eq set _ _ 0, fillUnits_eq U set _ _ (U.perUnit - b.2),
    fillLast_eq U set _ _ _ _ ((U.perUnit - b.2) + (e.1 - b.1 - 1) * U.perUnit)]

theorem fillRows_eq (U : Units) (set : Int → Nat → Option Int) (aligned : Bool) (W px py w : Nat) : ∀ n y buf,
    fillRows U set aligned W px w n (py + y) buf =
      writeRows U (fun (_ : Unit) => set) aligned W px py w (fun _ _ => some ()) n y buf := by
  intro n
  induction n with
  | zero => intro y buf; rfl
  | succ n ih =>
    intro y buf
    unfold fillRows writeRows
    simp only [fillRow_eq]
    congr 1; funext b
    exact ih (y + 1) b

theorem fill_eq (U : Units) (set : Int → Nat → Option Int) (aligned : Bool) (buf : List Int) (W H : Nat) (x y : Int) (w h : Nat) :
    fill U set aligned buf W H x y w h =
      write U (fun (_ : Unit) => set) aligned buf W H x y w h (fun _ _ => some ()) := by
  unfold fill write
  rw [← fillRows_eq U set aligned W x.toNat y.toNat w h 0 buf, Nat.add_zero]

theorem fill_spec (hU : Sem U m E uv V) {set : Int → Nat → Option Int} {c : Nat} (hc : V c)
    (hset : ∀ s k p, (∀ i, V (s i)) → p < U.perUnit →
      set (uv s k) p = some (uv (upd s (k * U.perUnit + p) 1 (fun _ => c)) k))
    {aligned : Bool} {W H px py w h : Nat} {s : Nat → Nat}
    (hs : ∀ i, V (s i)) (hm : Spec.stride U.perUnit aligned W * H ≤ m * U.perUnit) (hx : px + w ≤ W) (hy : py + h ≤ H) :
    fill U set aligned (E s) W H px py w h =
      some (E (Spec.draw (Spec.stride U.perUnit aligned W) px py w h (fun _ _ => c) s)) := by
  rw [fill_eq]
  exact write_spec hU (set := fun (_ : Unit) => set) (cv := fun _ => c) (ok := fun _ => True) (fun _ _ => hc)
    (fun s k p _ hs hp _ => hset s k p hs hp) (f := fun _ _ => ()) hs hm hx hy (fun _ _ _ _ => ⟨rfl, trivial⟩)

/-! ### Drawing and then looking -/

theorem draw_inside {α : Type} {S px py w h x y : Nat} {src : Nat → Nat → α} {img : Nat → α} (hx : x < w) (hy : y < h)
    (hS : px + w ≤ S) : Spec.draw S px py w h src img (Spec.index S (px + x) (py + y)) = src x y := by
  have hpos : 0 < S := by omega
  unfold Spec.draw Spec.inside Spec.index
  have e1 : ((py + y) * S + (px + x)) / S = py + y := div_of (by omega)
  have e2 : ((py + y) * S + (px + x)) % S = px + x := by
    rw [Nat.mul_comm, Nat.mul_add_mod, Nat.mod_eq_of_lt (by omega)]
  rw [e1, e2, if_pos (by simp; omega)]
  congr 1 <;> omega

theorem draw_outside {α : Type} {S px py w h x y : Nat} {src : Nat → Nat → α} {img : Nat → α} (hx : x < S)
    (hxy : ¬ (px ≤ x ∧ x < px + w ∧ py ≤ y ∧ y < py + h)) :
    Spec.draw S px py w h src img (Spec.index S x y) = img (Spec.index S x y) := by
  unfold Spec.draw Spec.inside Spec.index
  have e1 : (y * S + x) / S = y := div_of (by omega)
  have e2 : (y * S + x) % S = x := by
    rw [Nat.mul_comm, Nat.mul_add_mod, Nat.mod_eq_of_lt (by omega)]
  rw [e1, e2, if_neg (by simp; omega)]

theorem draw_comp {α β : Type} (g : α → β) {S px py w h : Nat} {src : Nat → Nat → α} {img : Nat → α} (i : Nat) :
    g (Spec.draw S px py w h src img i) = Spec.draw S px py w h (fun x y => g (src x y)) (fun i => g (img i)) i := by
  unfold Spec.draw; split <;> rfl

theorem draw_congr {α : Type} {S px py w h : Nat} {src src' : Nat → Nat → α} {img : Nat → α}
    (he : ∀ x y, x < w → y < h → src x y = src' x y) : Spec.draw S px py w h src img = Spec.draw S px py w h src' img := by
  funext i
  unfold Spec.draw
  split
  · rename_i hi
    unfold Spec.inside at hi
    rw [decide_eq_true_iff] at hi
    exact he _ _ (by omega) (by omega)
  · rfl

/-- What holds for the old pixels and for the source holds after drawing. -/
theorem draw_all {α : Type} {P : α → Prop} {S px py w h : Nat} {src : Nat → Nat → α} {img : Nat → α} (himg : ∀ i, P (img i))
    (hsrc : ∀ x y, x < w → y < h → P (src x y)) (i : Nat) : P (Spec.draw S px py w h src img i) := by
  unfold Spec.draw
  split
  · rename_i hi
    unfold Spec.inside at hi
    rw [decide_eq_true_iff] at hi
    exact hsrc _ _ (by omega) (by omega)
  · exact himg i

end Verif.PixelLoops
