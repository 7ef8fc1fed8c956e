import Verif.PixelGrid.Model
import Verif.PixelGrid.Spec
import Verif.SubwordPixel.Props
/-!
Correctness of the loops over pixels that are stored in a fixed number of words.
-/
namespace Verif.PixelGrid
open Verif.PixelLoops

variable {α Px : Type} {words : α → Nat → Int} {wpp m : Nat}

theorem encode_length (img : Nat → α) : (Spec.encode words wpp m img).length = m * wpp := by
  unfold Spec.encode; simp

theorem encode_get (img : Nat → α) {j : Nat} (hj : j < m * wpp) :
    (Spec.encode words wpp m img)[j]? = some (words (img (j / wpp)) (j % wpp)) := by
  unfold Spec.encode
  rw [List.getElem?_map, List.getElem?_range hj]; rfl

theorem encode_get' (img : Nat → α) {k i : Nat} (hk : k < m) (hi : i < wpp) :
    (Spec.encode words wpp m img)[k * wpp + i]? = some (words (img k) i) := by
  have hle : (k + 1) * wpp ≤ m * wpp := Nat.mul_le_mul_right _ hk
  rw [Nat.add_mul] at hle
  rw [encode_get img (by omega), div_of hi, show (k * wpp + i) % wpp = i by
    rw [Nat.mul_comm, Nat.mul_add_mod, Nat.mod_eq_of_lt hi]]

/-- The image with pixel `k` replaced. -/
def setPx (img : Nat → α) (b n : Nat) (f : Nat → α) (i : Nat) : α := if b ≤ i ∧ i < b + n then f (i - b) else img i

/-- A buffer in which the words of pixel `k` are replaced. -/
theorem encode_set {img : Nat → α} {k : Nat} (hk : k < m) (hw : 0 < wpp) {a : α} {buf' : List Int}
    (h : ∀ j, buf'[j]? = if k * wpp ≤ j ∧ j < k * wpp + wpp then some (words a (j - k * wpp)) else (Spec.encode words wpp m img)[j]?) :
    buf' = Spec.encode words wpp m (setPx img k 1 (fun _ => a)) := by
  apply List.ext_getElem?
  intro j
  rw [h j]
  have hle : (k + 1) * wpp ≤ m * wpp := Nat.mul_le_mul_right _ hk
  rw [Nat.add_mul] at hle
  have hdm := Nat.div_add_mod' j wpp
  have hml := Nat.mod_lt j hw
  by_cases hj : j < m * wpp
  · rw [encode_get (setPx img k 1 fun _ => a) hj]
    unfold setPx
    by_cases c : k * wpp ≤ j ∧ j < k * wpp + wpp
    · have hjk : j / wpp = k := by rw [show j = k * wpp + (j - k * wpp) by omega, div_of (by omega)]
      rw [hjk] at hdm ⊢
      rw [if_pos c, if_pos (by omega), show j - k * wpp = j % wpp by omega]
    · have hjk : j / wpp ≠ k := by intro hjk; rw [hjk] at hdm; omega
      rw [if_neg c, if_neg (by omega), encode_get _ hj]
  · rw [if_neg (by omega), List.getElem?_eq_none (by rw [encode_length]; omega),
      List.getElem?_eq_none (by rw [encode_length]; omega)]

/-- Contract of `read_pixel()`. -/
def Reads (words : α → Nat → Int) (wpp : Nat) (ok : α → Prop) (readPixel : List Int → Nat → Option Px) (dv : α → Px) : Prop :=
  ∀ buf source a, ok a → (∀ i, i < wpp → buf[source + i]? = some (words a i)) → readPixel buf source = some (dv a)

/-- Contract of `write_pixel()`. -/
def Writes (words : α → Nat → Int) (wpp : Nat) (ok : Px → Prop) (writePixel : Px → List Int → Nat → Option (List Int)) (cv : Px → α) :
    Prop :=
  ∀ buf target c, ok c → target + wpp ≤ buf.length → ∃ buf', writePixel c buf target = some buf' ∧ buf'.length = buf.length ∧
    ∀ j, buf'[j]? = if target ≤ j ∧ j < target + wpp then some (words (cv c) (j - target)) else buf[j]?

theorem readRow_spec {ok : α → Prop} {readPixel : List Int → Nat → Option Px} {dv : α → Px} (hr : Reads words wpp ok readPixel dv)
    {img : Nat → α} (himg : ∀ i, ok (img i)) : ∀ n k, k + n ≤ m →
    readRow readPixel wpp (Spec.encode words wpp m img) n (k * wpp) = some ((List.range n).map fun j => dv (img (k + j))) := by
  intro n
  induction n with
  | zero => intro k _; rfl
  | succ n ih =>
    intro k hk
    unfold readRow
    rw [hr _ _ (img k) (himg k) (fun i hi => encode_get' img (by omega) hi),
      show k * wpp + wpp = (k + 1) * wpp by rw [Nat.add_mul, Nat.one_mul], ih (k + 1) (by omega)]
    simp only [Option.bind_eq_bind, Option.bind_some, List.range_succ_eq_map, List.map_cons, List.map_map]
    congr 2
    apply List.map_congr_left
    intro j _
    simp only [Function.comp, Nat.succ_eq_add_one, show k + 1 + j = k + (j + 1) by omega]

theorem readRows_spec {ok : α → Prop} {readPixel : List Int → Nat → Option Px} {dv : α → Px} (hr : Reads words wpp ok readPixel dv)
    {img : Nat → α} (himg : ∀ i, ok (img i)) {W px py w : Nat} (hx : px + w ≤ W) : ∀ n y, W * (py + y + n) ≤ m →
    readRows readPixel wpp W (Spec.encode words wpp m img) px py w n y =
      some ((List.range n).map fun j => (List.range w).map fun x => dv (img (PixelLoops.Spec.index W (px + x) (py + (y + j))))) := by
  intro n
  induction n with
  | zero => intro y _; rfl
  | succ n ih =>
    intro y hy
    unfold readRows pixelPtr
    have hle : W * (py + y + 1) ≤ W * (py + y + (n + 1)) := Nat.mul_le_mul_left _ (by omega)
    rw [Nat.mul_add, Nat.mul_one, Nat.mul_comm W (py + y)] at hle
    rw [readRow_spec hr himg w ((py + y) * W + px) (by omega), ih (y + 1) (by rw [show py + (y + 1) + n = py + y + (n + 1) by omega]; exact hy)]
    simp only [Option.bind_eq_bind, Option.bind_some, List.range_succ_eq_map, List.map_cons, List.map_map, Nat.add_zero]
    unfold PixelLoops.Spec.index
    congr 2
    · apply List.map_congr_left
      intro x _
      rw [Nat.add_assoc]
    · apply List.map_congr_left
      intro j _
      simp only [Function.comp, Nat.succ_eq_add_one, show y + 1 + j = y + (j + 1) by omega]

theorem read_spec {ok : α → Prop} {readPixel : List Int → Nat → Option Px} {dv : α → Px} (hr : Reads words wpp ok readPixel dv)
    {img : Nat → α} (himg : ∀ i, ok (img i)) {W H px py w h : Nat} (hm : W * H ≤ m) (hx : px + w ≤ W) (hy : py + h ≤ H) :
    read readPixel wpp (Spec.encode words wpp m img) W H px py w h =
      some (PixelLoops.Spec.crop W px py w h (fun i => dv (img i))) := by
  unfold read contained
  rw [if_pos (by simp; omega), Int.toNat_natCast, Int.toNat_natCast,
    readRows_spec hr himg hx h 0 (Nat.le_trans (Nat.mul_le_mul_left _ (by omega)) hm)]
  unfold PixelLoops.Spec.crop
  congr 1
  apply List.map_congr_left
  intro y _
  rw [Nat.zero_add]

theorem setPx_zero (img : Nat → α) (b : Nat) (f : Nat → α) : setPx img b 0 f = img := by
  funext i; unfold setPx; rw [if_neg (by omega)]

theorem setPx_cons (img : Nat → α) (b n : Nat) (f : Nat → α) :
    setPx (setPx img b 1 (fun _ => f 0)) (b + 1) n (fun j => f (j + 1)) = setPx img b (n + 1) f := by
  funext i; unfold setPx
  by_cases h1 : b + 1 ≤ i ∧ i < b + 1 + n
  · rw [if_pos h1, if_pos (by omega)]
    show f _ = f _
    congr 1; omega
  · rw [if_neg h1]
    by_cases h2 : b ≤ i ∧ i < b + 1
    · rw [if_pos h2, if_pos (by omega)]
      show f _ = f _
      congr 1; omega
    · rw [if_neg h2, if_neg (by omega)]

theorem writeRow_spec {ok : Px → Prop} {writePixel : Px → List Int → Nat → Option (List Int)} {cv : Px → α}
    (hw : Writes words wpp ok writePixel cv) (hwpp : 0 < wpp) {src : Nat → Option Px} {f : Nat → Px} : ∀ n x k img, k + n ≤ m →
    (∀ j, j < n → src (x + j) = some (f (x + j)) ∧ ok (f (x + j))) →
    writeRow writePixel wpp src n x (k * wpp) (Spec.encode words wpp m img) =
      some (Spec.encode words wpp m (setPx img k n (fun j => cv (f (x + j))))) := by
  intro n
  induction n with
  | zero => intro x k img _ _; rw [setPx_zero]; rfl
  | succ n ih =>
    intro x k img hk hsrc
    unfold writeRow
    have h0 := hsrc 0 (by omega)
    rw [Nat.add_zero] at h0
    have hle : (k + 1) * wpp ≤ m * wpp := Nat.mul_le_mul_right _ (by omega)
    rw [Nat.add_mul, Nat.one_mul] at hle
    obtain ⟨buf', e1, _, e3⟩ := hw (Spec.encode words wpp m img) (k * wpp) (f x) h0.2 (by rw [encode_length]; omega)
    rw [h0.1]
    simp only [Option.bind_eq_bind, Option.bind_some]
    rw [e1, encode_set (by omega) hwpp e3]
    simp only [Option.bind_some]
    rw [show k * wpp + wpp = (k + 1) * wpp by rw [Nat.add_mul, Nat.one_mul], ih (x + 1) (k + 1) _ (by omega)]
    · rw [← setPx_cons img k n, show (fun j => cv (f (x + 1 + j))) = fun j => cv (f (x + (j + 1))) by
        funext j; rw [show x + 1 + j = x + (j + 1) by omega]]
      rfl
    · intro j hj
      have := hsrc (j + 1) (by omega)
      rw [show x + (j + 1) = x + 1 + j by omega] at this
      exact this

theorem draw_step {S px py w n y : Nat} {src : Nat → Nat → α} {s : Nat → α} (hx : px + w ≤ S) :
    PixelLoops.Spec.draw S px (py + (y + 1)) w n (fun x j => src x (y + 1 + j))
      (setPx s (PixelLoops.Spec.index S px (py + y)) w (fun j => src j y)) =
    PixelLoops.Spec.draw S px (py + y) w (n + 1) (fun x j => src x (y + j)) s := by
  funext i
  unfold PixelLoops.Spec.draw PixelLoops.Spec.inside setPx PixelLoops.Spec.index
  by_cases hS : S = 0
  · have hw : w = 0 := by omega
    subst hw
    simp only [Nat.add_zero]
    rw [if_neg (by simp), if_neg (by omega), if_neg (by simp)]
  have d := Nat.div_add_mod' i S
  have l := Nat.mod_lt i (by omega : 0 < S)
  generalize i / S = q at *
  generalize i % S = r at *
  by_cases h1 : py + (y + 1) ≤ q ∧ q < py + (y + 1) + n ∧ px ≤ r ∧ r < px + w
  · rw [if_pos (by simpa using h1), if_pos (by simp; omega)]
    show src (r - px) (y + 1 + (q - (py + (y + 1)))) = src (r - px) (y + (q - (py + y)))
    rw [show y + 1 + (q - (py + (y + 1))) = y + (q - (py + y)) by omega]
  · rw [if_neg (by simpa using h1)]
    by_cases h2 : q = py + y
    · subst h2
      by_cases h3 : px ≤ r ∧ r < px + w
      · rw [if_pos (by omega), if_pos (by simp; omega)]
        show src (i - ((py + y) * S + px)) y = src (r - px) (y + (py + y - (py + y)))
        rw [show i - ((py + y) * S + px) = r - px by omega, Nat.sub_self, Nat.add_zero]
      · rw [if_neg (by omega), if_neg (by simp; omega)]
    · rw [if_neg (c := (py + y) * S + px ≤ i ∧ i < (py + y) * S + px + w), if_neg (by simp; omega)]
      intro hc
      apply h2
      have hq : (py + y) * S ≤ i ∧ i < (py + y) * S + S := by omega
      have := div_of (D := S) (k := py + y) (p := i - (py + y) * S) (by omega)
      rw [show (py + y) * S + (i - (py + y) * S) = q * S + r by omega, div_of l] at this
      exact this

theorem draw_zero {S px py w : Nat} {src : Nat → Nat → α} {s : Nat → α} : PixelLoops.Spec.draw S px py w 0 src s = s := by
  funext i; unfold PixelLoops.Spec.draw PixelLoops.Spec.inside; rw [if_neg (by simp; omega)]

theorem writeRows_spec {ok : Px → Prop} {writePixel : Px → List Int → Nat → Option (List Int)} {cv : Px → α}
    (hw : Writes words wpp ok writePixel cv) (hwpp : 0 < wpp) {tray : Nat → Nat → Option Px} {f : Nat → Nat → Px} {W px py w : Nat}
    (hx : px + w ≤ W) : ∀ n y img, W * (py + y + n) ≤ m →
    (∀ x j, x < w → j < n → tray x (y + j) = some (f x (y + j)) ∧ ok (f x (y + j))) →
    writeRows writePixel wpp W px py w tray n y (Spec.encode words wpp m img) =
      some (Spec.encode words wpp m (PixelLoops.Spec.draw W px (py + y) w n (fun x j => cv (f x (y + j))) img)) := by
  intro n
  induction n with
  | zero => intro y img _ _; rw [draw_zero]; rfl
  | succ n ih =>
    intro y img hy hsrc
    unfold writeRows pixelPtr
    have hle : W * (py + y + 1) ≤ W * (py + y + (n + 1)) := Nat.mul_le_mul_left _ (by omega)
    rw [Nat.mul_add, Nat.mul_one, Nat.mul_comm W (py + y)] at hle
    rw [writeRow_spec hw hwpp (f := fun x => f x y) w 0 ((py + y) * W + px) img (by omega) (by
      intro j hj
      have := hsrc j 0 hj (by omega)
      rw [Nat.zero_add]
      exact this)]
    simp only [Option.bind_eq_bind, Option.bind_some, Nat.zero_add]
    rw [ih (y + 1) _ (by rw [show py + (y + 1) + n = py + y + (n + 1) by omega]; exact hy) (by
      intro x j hx hj
      have := hsrc x (j + 1) hx (by omega)
      rw [show y + (j + 1) = y + 1 + j by omega] at this
      exact this)]
    congr 2
    exact draw_step (src := fun x y => cv (f x y)) hx

theorem write_spec {ok : Px → Prop} {writePixel : Px → List Int → Nat → Option (List Int)} {cv : Px → α}
    (hw : Writes words wpp ok writePixel cv) (hwpp : 0 < wpp) {tray : Nat → Nat → Option Px} {f : Nat → Nat → Px}
    {W H px py w h : Nat} {img : Nat → α} (hm : W * H ≤ m) (hx : px + w ≤ W) (hy : py + h ≤ H)
    (hsrc : ∀ x y, x < w → y < h → tray x y = some (f x y) ∧ ok (f x y)) :
    write writePixel wpp (Spec.encode words wpp m img) W H px py w h tray =
      some (Spec.encode words wpp m (PixelLoops.Spec.draw W px py w h (fun x y => cv (f x y)) img)) := by
  unfold write contained
  rw [if_pos (by simp; omega)]
  simp only [Int.toNat_natCast]
  rw [writeRows_spec hw hwpp (f := f) hx h 0 img (Nat.le_trans (Nat.mul_le_mul_left _ (by omega)) hm)
    (fun x j hx hj => by simpa using hsrc x j hx hj)]
  simp only [Nat.zero_add, Nat.add_zero]

/-! ### Filling -/

theorem copyN_spec {color : List Int} {target : Nat} {c : Nat → Int} : ∀ n i buf, (∀ j, j < n → color[i + j]? = some (c (i + j))) →
    target + i + n ≤ buf.length → ∃ buf', copyN color target n i buf = some buf' ∧ buf'.length = buf.length ∧
      ∀ j, buf'[j]? = if target + i ≤ j ∧ j < target + i + n then some (c (j - target)) else buf[j]? := by
  intro n
  induction n with
  | zero => intro i buf _ _; exact ⟨buf, rfl, rfl, fun j => by rw [if_neg (by omega)]⟩
  | succ n ih =>
    intro i buf hc hb
    unfold copyN
    have h0 := hc 0 (by omega)
    rw [Nat.add_zero] at h0
    rw [h0]
    simp only [Option.bind_eq_bind, Option.bind_some]
    rw [if_pos (by omega)]
    obtain ⟨buf', h1, h2, h3⟩ := ih (i + 1) (buf.set (target + i) (c i))
      (fun j hj => by have := hc (j + 1) (by omega); rw [show i + (j + 1) = i + 1 + j by omega] at this; exact this)
      (by rw [List.length_set]; omega)
    refine ⟨buf', h1, by rw [h2, List.length_set], fun j => ?_⟩
    rw [h3 j]
    by_cases c1 : target + (i + 1) ≤ j ∧ j < target + (i + 1) + n
    · rw [if_pos c1, if_pos (by omega)]
    · rw [if_neg c1]
      by_cases c2 : j = target + i
      · subst c2
        rw [if_pos (by omega), List.getElem?_set_self (by omega), Nat.add_sub_cancel_left]
      · rw [if_neg (by omega), List.getElem?_set_ne (by omega)]

theorem fillRow_eq (wpp : Nat) (color : List Int) (x : Nat) : ∀ n target buf,
    fillRow wpp color n target buf =
      writeRow (fun (_ : Unit) buf target => copyN color target wpp 0 buf) wpp (fun _ => some ()) n x target buf := by
  intro n
  induction n generalizing x with
  | zero => intro target buf; rfl
  | succ n ih =>
    intro target buf
    unfold fillRow writeRow
    simp only [Option.bind_eq_bind, Option.bind_some]
    congr 1; funext b
    exact ih _ _ _

theorem fillRows_eq (wpp W px py w : Nat) (color : List Int) : ∀ n y buf,
    fillRows wpp W px w color n (py + y) buf =
      writeRows (fun (_ : Unit) buf target => copyN color target wpp 0 buf) wpp W px py w (fun _ _ => some ()) n y buf := by
  intro n
  induction n with
  | zero => intro y buf; rfl
  | succ n ih =>
    intro y buf
    unfold fillRows writeRows
    rw [fillRow_eq wpp color 0]
    congr 1; funext b
    exact ih (y + 1) b

theorem fill_spec {ok : Px → Prop} {writePixel : Px → List Int → Nat → Option (List Int)} {cv : Px → α}
    (hw : Writes words wpp ok writePixel cv) (hwpp : 0 < wpp) {W H px py w h : Nat} {img : Nat → α} (hm : W * H ≤ m)
    (hx : px + w ≤ W) (hy : py + h ≤ H) {c : Px} (hc : ok c) (init : List Int) (hinit : init.length = wpp) :
    fill writePixel wpp init (Spec.encode words wpp m img) W H px py w h c =
      some (Spec.encode words wpp m (PixelLoops.Spec.draw W px py w h (fun _ _ => cv c) img)) := by
  unfold fill
  rw [if_pos (by unfold contained; simp; omega)]
  obtain ⟨col, h1, h2, h3⟩ := hw init 0 c hc (by omega)
  rw [h1]
  simp only [Option.bind_eq_bind, Option.bind_some, Int.toNat_natCast]
  have hcol : ∀ j, j < wpp → col[0 + j]? = some (words (cv c) (0 + j)) := by
    intro j hj
    rw [h3, if_pos (by omega), Nat.zero_add, Nat.sub_zero]
  have hw' : Writes words wpp (fun _ => True) (fun (_ : Unit) buf target => copyN col target wpp 0 buf) (fun _ => cv c) := by
    intro buf target _ _ hb
    obtain ⟨buf', e1, e2, e3⟩ := copyN_spec (target := target) (c := words (cv c)) wpp 0 buf hcol (by omega)
    exact ⟨buf', e1, e2, e3⟩
  have := fillRows_eq wpp W px py w col h 0 (Spec.encode words wpp m img)
  rw [Nat.add_zero] at this
  rw [this, writeRows_spec hw' hwpp (f := fun _ _ => ()) hx h 0 img (Nat.le_trans (Nat.mul_le_mul_left _ (by omega)) hm)
    (fun _ _ _ _ => ⟨rfl, trivial⟩), Nat.add_zero]

theorem outside {W H : Nat} {x y : Int} {w h : Nat} (hout : ¬ (0 ≤ x ∧ 0 ≤ y ∧ x + w ≤ W ∧ y + h ≤ H)) :
    contained W H x y w h = false := by
  unfold contained
  simp only [decide_eq_false_iff_not]
  omega

/-- The buffer size. -/
theorem getBufferSize_spec {I wpp Z W H : Nat} (hI : 1 ≤ I) (hZ : I ≤ Z) (hw : wpp < 2 ^ I) (hW : W < 2 ^ I) (hH : H < 2 ^ I) :
    getBufferSize I wpp Z W H =
      some (if wpp * W < 2 ^ Z ∧ wpp * W * H < 2 ^ Z then some ((wpp * W * H : Nat) : Int) else none) := by
  have hIZ : 2 ^ I ≤ 2 ^ Z := Nat.pow_le_pow_right (by decide) hZ
  have h1 : SubwordPixel.sizeMul I Z 1 wpp = some (some (wpp : Int)) := by
    have := SubwordPixel.sizeMul_nat (I := I) (Z := Z) (x := 1) (y := wpp)
      (by have := Nat.one_lt_two_pow (n := Z) (by omega); omega) hw
    rw [Nat.one_mul, if_pos (by omega)] at this
    exact this
  unfold getBufferSize getWordsPerRow
  rw [h1]
  simp only
  rw [SubwordPixel.sizeMul_nat (by omega) hW]
  by_cases h : wpp * W < 2 ^ Z
  · rw [if_pos h]
    simp only [h, true_and]
    rw [SubwordPixel.sizeMul_nat h hH]
  · rw [if_neg h, if_neg (by simp [h])]

end Verif.PixelGrid
