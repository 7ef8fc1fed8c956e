import Verif.TextCodec.Spec
import Verif.Newline.Lemmas
/-!
Lemmas about encoders and decoders of text codecs.
-/
namespace Verif.TextCodec
open Verif.Newline Verif.Newline.Spec Spec

variable {σ α β : Type}

theorem full_mono {next : Coding σ α β} {s i o s' i' o' ok} (h : Full next s i o s' i' o' ok) : ∃ w, o' = o ++ w := by
  induction h with
  | stop h => exact ⟨[], by simp⟩
  | invalid h => exact ⟨[], by simp⟩
  | advance h hn _ ih =>
    obtain ⟨w, e⟩ := ih
    exact ⟨_, by rw [e, List.append_assoc]⟩

theorem full_shift {next : Coding σ α β} (p : List β) {s i o s' i' o' ok} (h : Full next s i o s' i' o' ok) :
    Full next s i (p ++ o) s' i' (p ++ o') ok := by
  induction h with
  | stop h => exact .stop h
  | invalid h => exact .invalid h
  | advance h hn _ ih => exact .advance h hn (by rw [List.append_assoc]; exact ih)

/-- The result of full processing is unique. -/
theorem full_unique {next : Coding σ α β} {s i o s1 i1 o1 k1 s2 i2 o2 k2} (h1 : Full next s i o s1 i1 o1 k1) (h2 : Full next s i o s2 i2 o2 k2) :
    s1 = s2 ∧ i1 = i2 ∧ o1 = o2 ∧ k1 = k2 := by
  induction h1 with
  | stop h =>
    cases h2 with
    | stop h' => exact ⟨rfl, rfl, rfl, rfl⟩
    | invalid h' => rw [h] at h'; cases h'
    | advance h' => rw [h] at h'; cases h'
  | invalid h =>
    cases h2 with
    | stop h' => rw [h] at h'; cases h'
    | invalid h' => exact ⟨rfl, rfl, rfl, rfl⟩
    | advance h' => rw [h] at h'; cases h'
  | advance h hn _ ih =>
    cases h2 with
    | stop h' => rw [h] at h'; cases h'
    | invalid h' => rw [h] at h'; cases h'
    | advance h' hn' g => rw [h] at h'; cases h'; exact ih g

/-- Change of the output that is already there. -/
theorem full_base {next : Coding σ α β} {p s i s' i' o' ok} (h : Full next s i p s' i' o' ok) :
    ∃ w, o' = p ++ w ∧ Full next s i [] s' i' w ok := by
  generalize hq : p = q at h
  have key : ∀ {s i q s' i' o' ok}, Full next s i q s' i' o' ok → ∀ a b : List β, q = a ++ b → ∃ w, o' = a ++ w ∧ Full next s i b s' i' w ok := by
    intro s i q s' i' o' ok h
    induction h with
    | stop h => intro a b e; exact ⟨b, e, .stop h⟩
    | invalid h => intro a b e; exact ⟨b, e, .invalid h⟩
    | @advance s i o out n s1 s' i' o' ok h hn g ih =>
      intro a b e
      obtain ⟨w, e1, g1⟩ := ih a (b ++ out) (by rw [e, List.append_assoc])
      exact ⟨w, e1, .advance h hn g1⟩
  subst hq
  exact key h p [] (by simp)

theorem run_full {next : Coding σ α β} {avail : Nat} {s i o s1 i1 o1 st} (h : Run next avail s i o s1 i1 o1 st) :
    ∀ {s' i' o' ok}, Full next s i o s' i' o' ok →
      (st = .complete → s1 = s' ∧ i1 = i' ∧ o1 = o' ∧ ok = true) ∧ (st = .error → s1 = s' ∧ i1 = i' ∧ o1 = o' ∧ ok = false) ∧
      (st = .space → Full next s1 i1 o1 s' i' o' ok ∧ avail ≤ o'.length) := by
  induction h with
  | stop h =>
    intro s' i' o' ok g
    have := full_unique (Full.stop h) g
    exact ⟨fun _ => ⟨this.1, this.2.1, this.2.2.1, this.2.2.2.symm⟩, fun h => (by cases h), fun h => (by cases h)⟩
  | invalid h =>
    intro s' i' o' ok g
    have := full_unique (Full.invalid h) g
    exact ⟨fun h => (by cases h), fun _ => ⟨this.1, this.2.1, this.2.2.1, this.2.2.2.symm⟩, fun h => (by cases h)⟩
  | space h hs =>
    intro s' i' o' ok g
    refine ⟨fun h => (by cases h), fun h => (by cases h), fun _ => ⟨g, ?_⟩⟩
    cases g with
    | stop h' => rw [h] at h'; cases h'
    | invalid h' => rw [h] at h'; cases h'
    | advance h' hn' g =>
      rw [h] at h'; cases h'
      obtain ⟨w, e⟩ := full_mono g
      rw [e]; simp only [List.length_append]; omega
  | full h hs =>
    intro s' i' o' ok g
    refine ⟨fun h => (by cases h), fun h => (by cases h), fun _ => ⟨g, ?_⟩⟩
    obtain ⟨w, e⟩ := full_mono g
    rw [e]; simp only [List.length_append]; omega
  | advance h hs _ ih =>
    intro s' i' o' ok g
    cases g with
    | stop h' => rw [h] at h'; cases h'
    | invalid h' => rw [h] at h'; cases h'
    | advance h' hn' g => rw [h] at h'; cases h'; exact ih g

theorem run_length {next : Coding σ α β} {avail : Nat} {s i o s1 i1 o1 st} (h : Run next avail s i o s1 i1 o1 st) (ho : o.length ≤ avail) :
    o1.length ≤ avail := by
  induction h with
  | stop h => exact ho
  | invalid h => exact ho
  | space h hs => exact ho
  | full h hs => exact ho
  | advance h hs _ ih => exact ih (by rw [List.length_append]; exact hs)

theorem full_rest {next : Coding σ α β} {s i o s' i' o' ok} (h : Full next s i o s' i' o' ok) : i'.length ≤ i.length := by
  induction h with
  | stop h => exact Nat.le_refl _
  | invalid h => exact Nat.le_refl _
  | advance h hn _ ih => rw [List.length_drop] at ih; omega

/-- The loop of encoders and decoders. -/
theorem loop_full {op : Op σ α β} {next : Coding σ α β} (hc : Conforms op next) {grow : Nat → Nat} (hg : ∀ n, n < grow n) (k : Nat) :
    ∀ {s : σ} {data : List α} {s' : σ} {rest : List α} {w : List β} {ok : Bool} (buf : List β) (size : Nat), buf.length + w.length + 1 - size ≤ k →
      Full next s data [] s' rest w ok → buf.length ≤ size →
      ∃ size', (buf ++ w).length ≤ size' ∧ ∀ fuel, k < fuel → loop op grow fuel ⟨s, data, buf, size⟩ = some (ok, ⟨s', rest, buf ++ w, size'⟩) := by
  induction k with
  | zero =>
    intro s data s' rest w ok buf size hk hf hb
    obtain ⟨-, hr⟩ := hc s data (size - buf.length)
    obtain ⟨r1, r2, r3⟩ := run_full hr hf
    have hl := run_length hr (by simp)
    cases hst : (op s data (size - buf.length)).status with
    | complete =>
      obtain ⟨e1, e2, e3, e4⟩ := r1 hst
      refine ⟨size, by rw [← e3, List.length_append]; omega, fun fuel hfuel => ?_⟩
      obtain ⟨f, rfl⟩ : ∃ f, fuel = f + 1 := ⟨fuel - 1, by omega⟩
      simp only [loop, hst]; rw [e1, e2, e3, e4]
    | error =>
      obtain ⟨e1, e2, e3, e4⟩ := r2 hst
      refine ⟨size, by rw [← e3, List.length_append]; omega, fun fuel hfuel => ?_⟩
      obtain ⟨f, rfl⟩ : ∃ f, fuel = f + 1 := ⟨fuel - 1, by omega⟩
      simp only [loop, hst]; rw [e1, e2, e3, e4]
    | space =>
      have := (r3 hst).2
      omega
  | succ k ih =>
    intro s data s' rest w ok buf size hk hf hb
    obtain ⟨-, hr⟩ := hc s data (size - buf.length)
    obtain ⟨r1, r2, r3⟩ := run_full hr hf
    have hl := run_length hr (by simp)
    cases hst : (op s data (size - buf.length)).status with
    | complete =>
      obtain ⟨e1, e2, e3, e4⟩ := r1 hst
      refine ⟨size, by rw [← e3, List.length_append]; omega, fun fuel hfuel => ?_⟩
      obtain ⟨f, rfl⟩ : ∃ f, fuel = f + 1 := ⟨fuel - 1, by omega⟩
      simp only [loop, hst]; rw [e1, e2, e3, e4]
    | error =>
      obtain ⟨e1, e2, e3, e4⟩ := r2 hst
      refine ⟨size, by rw [← e3, List.length_append]; omega, fun fuel hfuel => ?_⟩
      obtain ⟨f, rfl⟩ : ∃ f, fuel = f + 1 := ⟨fuel - 1, by omega⟩
      simp only [loop, hst]; rw [e1, e2, e3, e4]
    | space =>
      obtain ⟨g, hav⟩ := r3 hst
      obtain ⟨w2, e, g2⟩ := full_base g
      have hgs := hg size
      have hlen : w.length = (op s data (size - buf.length)).out.length + w2.length := by rw [e, List.length_append]
      obtain ⟨size', l', h'⟩ := ih (buf ++ (op s data (size - buf.length)).out) (grow size) (by rw [List.length_append]; omega) g2
        (by rw [List.length_append]; omega)
      refine ⟨size', by rw [e, ← List.append_assoc]; exact l', fun fuel hfuel => ?_⟩
      obtain ⟨f, rfl⟩ : ∃ f, fuel = f + 1 := ⟨fuel - 1, by omega⟩
      simp only [loop, hst]
      rw [h' f (by omega), e, List.append_assoc]

/-! ### Translation of newlines -/

theorem toWindows_append (a b : List Char) : toWindows (a ++ b) = toWindows a ++ toWindows b := by
  simp [toWindows, List.flatMap_append]

theorem toWindows_length (a : List Char) : (toWindows a).length ≤ 2 * a.length := by
  induction a with
  | nil => simp [toWindows]
  | cons c t ih =>
    rw [show c :: t = [c] ++ t from rfl, toWindows_append, List.length_append]
    have : (toWindows [c]).length ≤ 2 := by
      simp only [toWindows, List.flatMap_cons, List.flatMap_nil, List.append_nil]
      split <;> simp
    simp only [List.length_append, List.length_cons, List.length_nil]; omega

theorem toWindows_one (c : Char) : (toWindows [c]).length ≤ 2 := toWindows_length [c]

theorem windowsEncode_eq {grow : Nat → Nat} (hg : ∀ n, n < grow n) (k : Nat) : ∀ (data buf : List Char) (size : Nat),
    buf.length + (toWindows data).length - size ≤ k → buf.length ≤ size →
    ∃ size', (buf ++ toWindows data).length ≤ size' ∧
      ∀ fuel, k < fuel → windowsEncode grow fuel data buf size = some (buf ++ toWindows data, size') := by
  induction k with
  | zero =>
    intro data buf size hk hb
    obtain ⟨m, e1, e2, e3, e4, e5⟩ := encodeLoop_spec size data { i := 0, out := buf } hb
    simp only [Nat.zero_add] at e1
    have hsplit : toWindows data = toWindows (data.take m) ++ toWindows (data.drop m) := by
      rw [← toWindows_append, List.take_append_drop]
    have hd : data.drop m = [] := by
      cases hdd : data.drop m with
      | nil => rfl
      | cons c t =>
        exfalso
        have := e5 c t hdd
        rw [hsplit, hdd, show c :: t = [c] ++ t from rfl, toWindows_append] at hk
        rw [e3] at this
        simp only [List.length_append] at hk this
        omega
    have hm : m = data.length := by have := List.drop_eq_nil_iff.mp hd; omega
    rw [hd, show toWindows [] = [] from rfl, List.append_nil] at hsplit
    refine ⟨size, by rw [hsplit, ← e3]; exact e4, fun fuel hf => ?_⟩
    obtain ⟨f, rfl⟩ : ∃ f, fuel = f + 1 := ⟨fuel - 1, by omega⟩
    unfold windowsEncode
    simp only [e1, hm, if_true]
    rw [e3, ← hsplit]
  | succ k ih =>
    intro data buf size hk hb
    obtain ⟨m, e1, e2, e3, e4, e5⟩ := encodeLoop_spec size data { i := 0, out := buf } hb
    simp only [Nat.zero_add] at e1
    have hsplit : toWindows data = toWindows (data.take m) ++ toWindows (data.drop m) := by
      rw [← toWindows_append, List.take_append_drop]
    by_cases hm : m = data.length
    · have hd : data.drop m = [] := by rw [hm]; simp
      rw [hd, show toWindows [] = [] from rfl, List.append_nil] at hsplit
      refine ⟨size, by rw [hsplit, ← e3]; exact e4, fun fuel hf => ?_⟩
      obtain ⟨f, rfl⟩ : ∃ f, fuel = f + 1 := ⟨fuel - 1, by omega⟩
      unfold windowsEncode
      simp only [e1, hm, if_true]
      rw [e3, ← hsplit]
    · have hgs := hg size
      have hlt : size < buf.length + (toWindows data).length := by
        cases hdd : data.drop m with
        | nil => have := List.drop_eq_nil_iff.mp hdd; omega
        | cons c t =>
          have h5 := e5 c t hdd
          rw [hsplit, hdd, show c :: t = [c] ++ t from rfl, toWindows_append]
          rw [e3] at h5
          simp only [List.length_append] at h5 ⊢
          omega
      have hlen : (toWindows data).length = (toWindows (data.take m)).length + (toWindows (data.drop m)).length := by
        rw [← List.length_append, ← hsplit]
      obtain ⟨size', l', h'⟩ := ih (data.drop m) (buf ++ toWindows (data.take m)) (grow size) (by rw [List.length_append]; omega)
        (by rw [← e3]; omega)
      refine ⟨size', by rw [hsplit, ← List.append_assoc]; exact l', fun fuel hf => ?_⟩
      obtain ⟨f, rfl⟩ : ∃ f, fuel = f + 1 := ⟨fuel - 1, by omega⟩
      unfold windowsEncode
      simp only [e1, hm, if_false]
      rw [e3, h' f (by omega), List.append_assoc, ← hsplit]

theorem windowsEncode_fuel {grow : Nat → Nat} (hg : ∀ n, n < grow n) (data buf : List Char) (size : Nat) (hb : buf.length ≤ size) :
    ∃ size', (buf ++ toWindows data).length ≤ size' ∧
      windowsEncode grow (windowsFuel data buf) data buf size = some (buf ++ toWindows data, size') := by
  have hl := toWindows_length data
  obtain ⟨size', l, h⟩ := windowsEncode_eq hg (buf.length + (toWindows data).length - size) data buf size (Nat.le_refl _) hb
  exact ⟨size', l, h _ (by simp only [windowsFuel]; omega)⟩

theorem compoundEncode_full {op : Op σ α Char} {next : Coding σ α Char} (hc : Conforms op next) {grow : Nat → Nat} (hg : ∀ n, n < grow n) (k : Nat) :
    ∀ {s : σ} {data : List α} {s' : σ} {rest : List α} {w : List Char} {ok : Bool} (buf : List Char) (size inner : Nat),
      w.length + (w.length + 1 - inner) ≤ k → Full next s data [] s' rest w ok → buf.length ≤ size →
      ∃ size' inner', (buf ++ toWindows w).length ≤ size' ∧
        ∀ fuel, k < fuel → compoundEncode op grow fuel ⟨s, data, buf, size, inner⟩ = some (ok, ⟨s', rest, buf ++ toWindows w, size', inner'⟩) := by
  induction k with
  | zero =>
    intro s data s' rest w ok buf size inner hk hf hb
    obtain ⟨-, hr⟩ := hc s data inner
    obtain ⟨r1, r2, r3⟩ := run_full hr hf
    obtain ⟨size2, l2, h2⟩ := windowsEncode_fuel hg (op s data inner).out buf size hb
    cases hst : (op s data inner).status with
    | complete =>
      obtain ⟨e1, e2, e3, e4⟩ := r1 hst
      refine ⟨size2, inner, by rw [← e3]; exact l2, fun fuel hfuel => ?_⟩
      obtain ⟨f, rfl⟩ : ∃ f, fuel = f + 1 := ⟨fuel - 1, by omega⟩
      simp only [compoundEncode, hst, h2]; rw [e1, e2, e3, e4]
    | error =>
      obtain ⟨e1, e2, e3, e4⟩ := r2 hst
      refine ⟨size2, inner, by rw [← e3]; exact l2, fun fuel hfuel => ?_⟩
      obtain ⟨f, rfl⟩ : ∃ f, fuel = f + 1 := ⟨fuel - 1, by omega⟩
      simp only [compoundEncode, hst, h2]; rw [e1, e2, e3, e4]
    | space =>
      have := (r3 hst).2
      omega
  | succ k ih =>
    intro s data s' rest w ok buf size inner hk hf hb
    obtain ⟨-, hr⟩ := hc s data inner
    obtain ⟨r1, r2, r3⟩ := run_full hr hf
    obtain ⟨size2, l2, h2⟩ := windowsEncode_fuel hg (op s data inner).out buf size hb
    cases hst : (op s data inner).status with
    | complete =>
      obtain ⟨e1, e2, e3, e4⟩ := r1 hst
      refine ⟨size2, inner, by rw [← e3]; exact l2, fun fuel hfuel => ?_⟩
      obtain ⟨f, rfl⟩ : ∃ f, fuel = f + 1 := ⟨fuel - 1, by omega⟩
      simp only [compoundEncode, hst, h2]; rw [e1, e2, e3, e4]
    | error =>
      obtain ⟨e1, e2, e3, e4⟩ := r2 hst
      refine ⟨size2, inner, by rw [← e3]; exact l2, fun fuel hfuel => ?_⟩
      obtain ⟨f, rfl⟩ : ∃ f, fuel = f + 1 := ⟨fuel - 1, by omega⟩
      simp only [compoundEncode, hst, h2]; rw [e1, e2, e3, e4]
    | space =>
      obtain ⟨g, hav⟩ := r3 hst
      obtain ⟨w2, e, g2⟩ := full_base g
      have hgs := hg inner
      have hlen : w.length = (op s data inner).out.length + w2.length := by rw [e, List.length_append]
      have hlt : w2.length + (w2.length + 1 - (if (op s data inner).out = [] then grow inner else inner)) ≤ k := by
        by_cases h0 : (op s data inner).out = []
        · rw [if_pos h0]; rw [h0] at hlen; simp only [List.length_nil] at hlen; omega
        · rw [if_neg h0]
          have := List.length_pos_iff.mpr h0
          omega
      obtain ⟨size', inner', l', h'⟩ := ih (buf ++ toWindows (op s data inner).out) size2
        (if (op s data inner).out = [] then grow inner else inner) hlt g2 l2
      refine ⟨size', inner', by rw [e, toWindows_append, ← List.append_assoc]; exact l', fun fuel hfuel => ?_⟩
      obtain ⟨f, rfl⟩ : ∃ f, fuel = f + 1 := ⟨fuel - 1, by omega⟩
      simp only [compoundEncode, hst, h2]
      rw [h' f (by omega), e, toWindows_append, List.append_assoc]

theorem unshiftLoop_full {op : σ → Nat → UnshiftResult σ β} {seq : σ → List β} (hc : ConformsUnshift op seq) {grow : Nat → Nat}
    (hg : ∀ n, n < grow n) (k : Nat) : ∀ (s : σ) (data : List α) (buf : List β) (size : Nat), buf.length + (seq s).length - size ≤ k →
      buf.length ≤ size → ∃ s' size', seq s' = [] ∧ (buf ++ seq s).length ≤ size' ∧
        ∀ fuel, k < fuel → unshiftLoop op grow fuel ⟨s, data, buf, size⟩ = some ⟨s', data, buf ++ seq s, size'⟩ := by
  induction k with
  | zero =>
    intro s data buf size hk hb
    obtain ⟨r1, r2, r3, r4⟩ := hc s (size - buf.length)
    cases hst : (op s (size - buf.length)).complete with
    | false => have := r4 hst; omega
    | true =>
      have h3 := r3 hst
      rw [h3, List.append_nil] at r2
      refine ⟨_, size, h3, by rw [List.length_append]; omega, fun fuel hfuel => ?_⟩
      obtain ⟨f, rfl⟩ : ∃ f, fuel = f + 1 := ⟨fuel - 1, by omega⟩
      simp only [unshiftLoop, hst, if_true]; rw [r2]
  | succ k ih =>
    intro s data buf size hk hb
    obtain ⟨r1, r2, r3, r4⟩ := hc s (size - buf.length)
    cases hst : (op s (size - buf.length)).complete with
    | false =>
      have h4 := r4 hst
      have hgs := hg size
      have hlen : (seq s).length = (op s (size - buf.length)).out.length + (seq (op s (size - buf.length)).state).length := by
        rw [← List.length_append, r2]
      obtain ⟨s', size', e, l', h'⟩ := ih (op s (size - buf.length)).state data (buf ++ (op s (size - buf.length)).out) (grow size)
        (by rw [List.length_append]; omega) (by rw [List.length_append]; omega)
      rw [List.append_assoc, r2] at l' h'
      refine ⟨s', size', e, l', fun fuel hfuel => ?_⟩
      obtain ⟨f, rfl⟩ : ∃ f, fuel = f + 1 := ⟨fuel - 1, by omega⟩
      simp only [unshiftLoop, hst]
      exact h' f (by omega)
    | true =>
      have h3 := r3 hst
      rw [h3, List.append_nil] at r2
      refine ⟨_, size, h3, by rw [← r2, List.length_append]; omega, fun fuel hfuel => ?_⟩
      obtain ⟨f, rfl⟩ : ∃ f, fuel = f + 1 := ⟨fuel - 1, by omega⟩
      simp only [unshiftLoop, hst, if_true]; rw [r2]

theorem compoundUnshift_full {op : σ → Nat → UnshiftResult σ Char} {seq : σ → List Char} (hc : ConformsUnshift op seq) {grow : Nat → Nat}
    (hg : ∀ n, n < grow n) (k : Nat) : ∀ (s : σ) (data : List α) (buf : List Char) (size inner : Nat),
      (seq s).length + ((seq s).length - inner) ≤ k → buf.length ≤ size → ∃ s' size' inner', seq s' = [] ∧
        (buf ++ toWindows (seq s)).length ≤ size' ∧
        ∀ fuel, k < fuel → compoundUnshift op grow fuel ⟨s, data, buf, size, inner⟩ = some ⟨s', data, buf ++ toWindows (seq s), size', inner'⟩ := by
  induction k with
  | zero =>
    intro s data buf size inner hk hb
    obtain ⟨r1, r2, r3, r4⟩ := hc s inner
    obtain ⟨size2, l2, h2⟩ := windowsEncode_fuel hg (op s inner).out buf size hb
    cases hst : (op s inner).complete with
    | false => have := r4 hst; omega
    | true =>
      have h3 := r3 hst
      rw [h3, List.append_nil] at r2
      refine ⟨_, size2, inner, h3, by rw [← r2]; exact l2, fun fuel hfuel => ?_⟩
      obtain ⟨f, rfl⟩ : ∃ f, fuel = f + 1 := ⟨fuel - 1, by omega⟩
      simp only [compoundUnshift, hst, h2, if_true]; rw [r2]
  | succ k ih =>
    intro s data buf size inner hk hb
    obtain ⟨r1, r2, r3, r4⟩ := hc s inner
    obtain ⟨size2, l2, h2⟩ := windowsEncode_fuel hg (op s inner).out buf size hb
    cases hst : (op s inner).complete with
    | false =>
      have h4 := r4 hst
      have hgs := hg inner
      have hlen : (seq s).length = (op s inner).out.length + (seq (op s inner).state).length := by
        rw [← List.length_append, r2]
      have hlt : (seq (op s inner).state).length + ((seq (op s inner).state).length - (if (op s inner).out = [] then grow inner else inner)) ≤ k := by
        by_cases h0 : (op s inner).out = []
        · rw [if_pos h0]; rw [h0] at hlen; simp only [List.length_nil] at hlen; omega
        · rw [if_neg h0]
          have := List.length_pos_iff.mpr h0
          omega
      obtain ⟨s', size', inner', e, l', h'⟩ := ih (op s inner).state data (buf ++ toWindows (op s inner).out) size2
        (if (op s inner).out = [] then grow inner else inner) hlt l2
      rw [List.append_assoc, ← toWindows_append, r2] at l' h'
      refine ⟨s', size', inner', e, l', fun fuel hfuel => ?_⟩
      obtain ⟨f, rfl⟩ : ∃ f, fuel = f + 1 := ⟨fuel - 1, by omega⟩
      simp only [compoundUnshift, hst, h2]
      exact h' f (by omega)
    | true =>
      have h3 := r3 hst
      rw [h3, List.append_nil] at r2
      refine ⟨_, size2, inner, h3, by rw [← r2]; exact l2, fun fuel hfuel => ?_⟩
      obtain ⟨f, rfl⟩ : ∃ f, fuel = f + 1 := ⟨fuel - 1, by omega⟩
      simp only [compoundUnshift, hst, h2, if_true]; rw [r2]

/-! ### Decoding of the Windows text form -/

theorem fromWindows_concat_cr (d : List Char) : fromWindows (d ++ ['\r']) = fromWindows d ++ ['\r'] := by
  induction d using fromWindows.induct with
  | case1 => rfl
  | case2 c =>
    rw [List.singleton_append, fromWindows_cons_ne' c (by decide)]
    rfl
  | case3 c d t h ih =>
    obtain ⟨rfl, rfl⟩ := h
    rw [List.cons_append, List.cons_append, fromWindows_crlf, fromWindows_crlf, ih]; rfl
  | case4 c d t h ih =>
    rw [List.cons_append, List.cons_append]
    rw [fromWindows, if_neg h, fromWindows, if_neg h, ← List.cons_append, ih]; rfl

theorem fromWindows_concat_crlf (d : List Char) : fromWindows (d ++ ['\r', '\n']) = fromWindows d ++ ['\n'] := by
  induction d using fromWindows.induct with
  | case1 => rfl
  | case2 c =>
    rw [List.singleton_append, fromWindows_cons_ne' c (by decide), fromWindows_crlf]
    rfl
  | case3 c d t h ih =>
    obtain ⟨rfl, rfl⟩ := h
    rw [List.cons_append, List.cons_append, fromWindows_crlf, fromWindows_crlf, ih]; rfl
  | case4 c d t h ih =>
    rw [List.cons_append, List.cons_append]
    rw [fromWindows, if_neg h, fromWindows, if_neg h, ← List.cons_append, ih]; rfl

theorem body_append_held (e : Bool) (data : List Char) : data = body e data ++ held e data := by
  unfold body held
  by_cases h : e = false ∧ data.getLast? = some '\r'
  · rw [if_pos h, if_pos h]
    obtain ⟨ys, hy⟩ := List.getLast?_eq_some_iff.mp h.2
    rw [hy]; simp
  · rw [if_neg h, if_neg h, List.append_nil]

/-- The translation of data is the one of the part that does not wait, followed by what waits. -/
theorem fromWindows_body (e : Bool) (data : List Char) : fromWindows data = fromWindows (body e data) ++ held e data := by
  have h0 := congrArg fromWindows (body_append_held e data)
  rw [h0]
  unfold held
  by_cases h : e = false ∧ data.getLast? = some '\r'
  · rw [if_pos h]; exact fromWindows_concat_cr _
  · rw [if_neg h, List.append_nil, List.append_nil]

theorem held_drop (e : Bool) (data : List Char) (m : Nat) (h : data.drop m ≠ []) : held e (data.drop m) = held e data := by
  unfold held
  have : (data.drop m).getLast? = data.getLast? := by
    rw [List.getLast?_drop, if_neg (by intro h'; exact h (List.drop_eq_nil_iff.mpr h'))]
  rw [this]

theorem tr_step {e : Bool} {data w : List Char} {m : Nat} (h5 : fromWindows data = w ++ fromWindows (data.drop m))
    (h6 : e = false → ∀ rest, fromWindows (data ++ rest) = w ++ fromWindows (data.drop m ++ rest)) :
    (data.drop m ≠ [] → held e data = held e (data.drop m) ∧ fromWindows (body e data) = w ++ fromWindows (body e (data.drop m))) ∧
    (data.drop m = [] → held e data = [] ∧ fromWindows (body e data) = w) := by
  constructor
  · intro hd
    have hh := held_drop e data m hd
    refine ⟨hh.symm, ?_⟩
    rw [fromWindows_body e data, fromWindows_body e (data.drop m), hh, ← List.append_assoc] at h5
    exact List.append_cancel_right h5
  · intro hd
    have hh : held e data = [] := by
      unfold held
      by_cases h : e = false ∧ data.getLast? = some '\r'
      · exfalso
        obtain ⟨ys, hy⟩ := List.getLast?_eq_some_iff.mp h.2
        have h7 := h6 h.1 ['\n']
        rw [hd, hy] at h7
        rw [hd, hy, fromWindows_concat_cr] at h5
        rw [List.append_assoc, show ['\r'] ++ ['\n'] = ['\r', '\n'] from rfl, fromWindows_concat_crlf] at h7
        have l5 := congrArg List.length h5
        have l7 := congrArg List.length h7
        simp only [List.length_append, List.nil_append, fromWindows, List.length_cons, List.length_nil] at l5 l7
        omega
      · rw [if_neg h]
    refine ⟨hh, ?_⟩
    rw [fromWindows_body e data, hh, hd] at h5
    simpa [fromWindows] using h5

theorem fromWindows_body_drop {e : Bool} {data : List Char} (h : data = [] ∨ (e = false ∧ data = ['\r'])) :
    fromWindows (body e data) = [] ∧ held e data = data := by
  rcases h with rfl | ⟨rfl, rfl⟩
  · simp [body, held, fromWindows]
  · simp [body, held, fromWindows]

theorem windowsDecode_eq {grow : Nat → Nat} (hg : ∀ n, n < grow n) (e : Bool) (k : Nat) : ∀ (data buf : List Char) (size : Nat),
    buf.length + (fromWindows (body e data)).length + 1 - size ≤ k → buf.length ≤ size →
    ∃ size', (buf ++ fromWindows (body e data)).length ≤ size' ∧
      ∀ fuel, k < fuel → windowsDecode grow e fuel data buf size = some (held e data, buf ++ fromWindows (body e data), size') := by
  induction k with
  | zero =>
    intro data buf size hk hb
    obtain ⟨w, m, e1, e2, e3, e4, e5, e6, e7⟩ := decodeLoop_spec size e 0 data { i := 0, out := buf, clear := 0 } hb
    simp only [Nat.zero_add] at e1 e2 e4 e7
    obtain ⟨t1, t2⟩ := tr_step e5 e6
    have hfull : ¬ (buf.length + w.length = size) := by
      intro h
      by_cases hd : data.drop m = []
      · rw [(t2 hd).2] at hk; omega
      · rw [(t1 hd).2, List.length_append] at hk; omega
    have hend := Or.resolve_left e7 hfull
    have hres : held e data = data.drop m ∧ fromWindows (body e data) = w := by
      by_cases hd : data.drop m = []
      · rw [hd]; exact t2 hd
      · obtain ⟨a1, a2⟩ := t1 hd
        obtain ⟨b1, b2⟩ := fromWindows_body_drop hend
        rw [b1, List.append_nil] at a2
        exact ⟨a1.trans b2, a2⟩
    refine ⟨size, by rw [hres.2, List.length_append]; exact e4, fun fuel hf => ?_⟩
    obtain ⟨f, rfl⟩ : ∃ f, fuel = f + 1 := ⟨fuel - 1, by omega⟩
    unfold windowsDecode
    simp only [e1, e2]
    rw [if_pos (Or.inr (by rw [List.length_append]; omega)), hres.1, hres.2]
  | succ k ih =>
    intro data buf size hk hb
    obtain ⟨w, m, e1, e2, e3, e4, e5, e6, e7⟩ := decodeLoop_spec size e 0 data { i := 0, out := buf, clear := 0 } hb
    simp only [Nat.zero_add] at e1 e2 e4 e7
    obtain ⟨t1, t2⟩ := tr_step e5 e6
    by_cases hdone : m = data.length ∨ (buf ++ w).length < size
    · have hend : data.drop m = [] ∨ (e = false ∧ data.drop m = ['\r']) := by
        rcases hdone with h | h
        · left; rw [h]; simp
        · rw [List.length_append] at h
          exact Or.resolve_left e7 (by omega)
      have hres : held e data = data.drop m ∧ fromWindows (body e data) = w := by
        by_cases hd : data.drop m = []
        · rw [hd]; exact t2 hd
        · obtain ⟨a1, a2⟩ := t1 hd
          obtain ⟨b1, b2⟩ := fromWindows_body_drop hend
          rw [b1, List.append_nil] at a2
          exact ⟨a1.trans b2, a2⟩
      refine ⟨size, by rw [hres.2, List.length_append]; exact e4, fun fuel hf => ?_⟩
      obtain ⟨f, rfl⟩ : ∃ f, fuel = f + 1 := ⟨fuel - 1, by omega⟩
      unfold windowsDecode
      simp only [e1, e2]
      rw [if_pos hdone, hres.1, hres.2]
    · have hm : m ≠ data.length := fun h => hdone (Or.inl h)
      have hd : data.drop m ≠ [] := by
        intro h
        have := List.drop_eq_nil_iff.mp h
        omega
      obtain ⟨a1, a2⟩ := t1 hd
      have hgs := hg size
      have hlen : (fromWindows (body e data)).length = w.length + (fromWindows (body e (data.drop m))).length := by rw [a2, List.length_append]
      have hsz : ¬ (buf ++ w).length < size := fun h => hdone (Or.inr h)
      rw [List.length_append] at hsz
      obtain ⟨size', l', h'⟩ := ih (data.drop m) (buf ++ w) (grow size) (by rw [List.length_append]; omega) (by rw [List.length_append]; omega)
      refine ⟨size', by rw [a2, ← List.append_assoc]; exact l', fun fuel hf => ?_⟩
      obtain ⟨f, rfl⟩ : ∃ f, fuel = f + 1 := ⟨fuel - 1, by omega⟩
      unfold windowsDecode
      simp only [e1, e2]
      rw [if_neg hdone, h' f (by omega), a1, a2, List.append_assoc]

theorem fromWindows_append (d t : List Char) (h : d.getLast? ≠ some '\r' ∨ t.head? ≠ some '\n') :
    fromWindows (d ++ t) = fromWindows d ++ fromWindows t := by
  induction d using fromWindows.induct with
  | case1 => rfl
  | case2 c =>
    cases t with
    | nil => rfl
    | cons a t =>
      show fromWindows (c :: a :: t) = c :: fromWindows (a :: t)
      rw [fromWindows, if_neg]
      · rintro ⟨rfl, rfl⟩
        simp at h
  | case3 c d t' hcd ih =>
    obtain ⟨rfl, rfl⟩ := hcd
    rw [List.cons_append, List.cons_append, fromWindows_crlf, fromWindows_crlf, ih]
    · rfl
    · cases t' with
      | nil => left; simp
      | cons x y => simpa [List.getLast?_cons_cons] using h
  | case4 c d t' hcd ih =>
    rw [List.cons_append, List.cons_append, fromWindows, if_neg hcd, fromWindows, if_neg hcd, ← List.cons_append, ih]
    · rfl
    · simpa [List.getLast?_cons_cons] using h

/-- Data may be translated in steps when what waits is put before what follows. -/
theorem fromWindows_steps (data more : List Char) :
    fromWindows (data ++ more) = fromWindows (body false data) ++ fromWindows (held false data ++ more) := by
  by_cases h : data.getLast? = some '\r'
  · obtain ⟨ys, hy⟩ := List.getLast?_eq_some_iff.mp h
    have h1 : body false data = ys := by unfold body; rw [if_pos ⟨rfl, h⟩, hy]; simp
    have h2 : held false data = ['\r'] := by unfold held; rw [if_pos ⟨rfl, h⟩]
    rw [h1, h2, hy, List.append_assoc]
    exact fromWindows_append _ _ (Or.inr (by simp))
  · have h1 : body false data = data := by unfold body; rw [if_neg (fun h' => h h'.2)]
    have h2 : held false data = [] := by unfold held; rw [if_neg (fun h' => h h'.2)]
    rw [h1, h2, List.nil_append]
    exact fromWindows_append _ _ (Or.inl h)

/-! ### Decoding in steps -/

/-- What decoding of the first part of the data does. -/
theorem full_prefix {next : Bool → Coding σ α β} (hs : Stable next) (e : Bool) (j : List α) {s i0 o s' i' w ok} (h : Full (next e) s i0 o s' i' w ok) :
    ∀ i, i0 = i ++ j → ∃ s1 i1 o1 ok1, Full (next false) s i o s1 i1 o1 ok1 ∧
      (ok1 = true → Full (next e) s1 (i1 ++ j) o1 s' i' w ok) ∧ (ok1 = false → ok = false ∧ s1 = s' ∧ o1 = w) := by
  have base : ∀ {s i o s' i' w ok}, Full (next e) s (i ++ j) o s' i' w ok → (∀ out n s1, next false s i ≠ .advance out n s1) →
      ∃ s1 i1 o1 ok1, Full (next false) s i o s1 i1 o1 ok1 ∧
        (ok1 = true → Full (next e) s1 (i1 ++ j) o1 s' i' w ok) ∧ (ok1 = false → ok = false ∧ s1 = s' ∧ o1 = w) := by
    intro s i o s' i' w ok g hna
    cases hn : next false s i with
    | stop => exact ⟨s, i, o, true, .stop hn, fun _ => g, fun h => by cases h⟩
    | invalid =>
      have := full_unique (Full.invalid (hs.invalid e s i j hn)) g
      exact ⟨s, i, o, false, .invalid hn, fun h => (by cases h), fun _ => ⟨this.2.2.2.symm, this.1, this.2.2.1⟩⟩
    | advance out n s1 => exact absurd hn (hna out n s1)
  induction h with
  | @stop s i0 o h =>
    intro i hi
    subst hi
    refine base (.stop h) ?_
    intro out n s1 hn
    have := (hs.advance e s i j out n s1 hn).2
    rw [h] at this; cases this
  | @invalid s i0 o h =>
    intro i hi
    subst hi
    refine base (.invalid h) ?_
    intro out n s1 hn
    have := (hs.advance e s i j out n s1 hn).2
    rw [h] at this; cases this
  | @advance s i0 o out n s1 s' i' o' ok h hn g ih =>
    intro i hi
    subst hi
    cases hn' : next false s i with
    | stop => exact base (.advance h hn g) (by intro _ _ _ h2; rw [hn'] at h2; cases h2)
    | invalid => exact base (.advance h hn g) (by intro _ _ _ h2; rw [hn'] at h2; cases h2)
    | advance out2 n2 s2 =>
      obtain ⟨hle, heq⟩ := hs.advance e s i j out2 n2 s2 hn'
      rw [h] at heq; cases heq
      obtain ⟨t1, t2, t3, t4, f1, f2, f3⟩ := ih (i.drop n) (by rw [List.drop_append_of_le_length hle])
      exact ⟨t1, t2, t3, t4, .advance hn' hle f1, f2, f3⟩

theorem compoundDecode_full {op : Bool → Op σ Char β} {next : Bool → Coding σ Char β} (hc : ∀ e, Conforms (op e) (next e)) (hs : Stable next)
    {grow reserve : Nat → Nat} (hg : ∀ n, n < grow n) (hr : ∀ n, n ≤ reserve n) (e : Bool) (k : Nat) :
    ∀ {s : σ} {data pending : List Char} {s' : σ} {rest : List Char} {w : List β} {ok : Bool} (inner : Nat) (buf : List β) (size : Nat),
      2 * data.length + (if pending.length = inner then 1 else 0) ≤ k → pending.length ≤ inner → buf.length ≤ size →
      Full (next e) s (pending ++ fromWindows (body e data)) [] s' rest w ok →
      ∃ d fuel0, (∀ fuel, fuel0 ≤ fuel → compoundDecode op grow reserve e fuel ⟨s, data, pending, inner, buf, size⟩ = some (ok, d)) ∧
        d.state = s' ∧ d.buffer = buf ++ w ∧ d.buffer.length ≤ d.size ∧ (ok = true → d.data = held e data ∧ d.pending = rest) ∧
        d.pending.length ≤ d.inner := by
  induction k using Nat.strongRecOn with
  | ind k ih =>
    intro s data pending s' rest w ok inner buf size hk hp hb hf
    obtain ⟨u, m, e1, e2, e3, e4, e5, e6, e7⟩ := decodeLoop_spec inner e 0 data { i := 0, out := pending, clear := 0 } hp
    simp only [Nat.zero_add] at e1 e2 e4 e7
    obtain ⟨t1, t2⟩ := tr_step e5 e6
    by_cases hdone : m = data.length ∨ (pending ++ u).length < inner
    · have hend : data.drop m = [] ∨ (e = false ∧ data.drop m = ['\r']) := by
        rcases hdone with h | h
        · left; rw [h]; simp
        · rw [List.length_append] at h
          exact Or.resolve_left e7 (by omega)
      have hres : held e data = data.drop m ∧ fromWindows (body e data) = u := by
        by_cases hd : data.drop m = []
        · rw [hd]; exact t2 hd
        · obtain ⟨a1, a2⟩ := t1 hd
          obtain ⟨b1, b2⟩ := fromWindows_body_drop hend
          rw [b1, List.append_nil] at a2
          exact ⟨a1.trans b2, a2⟩
      have heq : (e && decide (m = data.length)) = e := by
        cases e with
        | false => rfl
        | true =>
          have : data.drop m = [] := by
            rcases hend with h | h
            · exact h
            · cases h.1
          have := List.drop_eq_nil_iff.mp this
          simp only [Bool.true_and, decide_eq_true_eq]; omega
      rw [hres.2] at hf
      obtain ⟨size', l', h'⟩ := loop_full (hc e) hg (buf.length + w.length + 1 - size) buf size (Nat.le_refl _) hf hb
      refine ⟨⟨s', data.drop m, if ok then rest else pending ++ u, inner, buf ++ w, size'⟩, buf.length + w.length + 2, ?_, rfl, rfl, l', ?_, ?_⟩
      · intro fuel hfuel
        obtain ⟨f, rfl⟩ : ∃ f, fuel = f + 1 := ⟨fuel - 1, by omega⟩
        simp only [compoundDecode, e1, e2, heq]
        rw [h' (f + 1) (by omega)]
        cases ok with
        | true => simp only [if_true, if_pos hdone]
        | false => rfl
      · intro hok
        rw [hok]
        exact ⟨hres.1.symm, rfl⟩
      · cases ok with
        | true => simp only [if_true]; have := full_rest hf; rw [List.length_append] at this; omega
        | false => simp only [Bool.false_eq_true, if_false, List.length_append]; exact e4
    · have hm : m ≠ data.length := fun h => hdone (Or.inl h)
      have hd : data.drop m ≠ [] := by
        intro h
        have := List.drop_eq_nil_iff.mp h
        omega
      obtain ⟨a1, a2⟩ := t1 hd
      have hsz : ¬ (pending ++ u).length < inner := fun h => hdone (Or.inr h)
      have heq : (e && decide (m = data.length)) = false := by
        rw [decide_eq_false hm, Bool.and_false]
      rw [a2, ← List.append_assoc] at hf
      obtain ⟨s1, i1, o1, ok1, f1, f2, f3⟩ := full_prefix hs e (fromWindows (body e (data.drop m))) hf (pending ++ u) rfl
      obtain ⟨size', l', h'⟩ := loop_full (hc false) hg (buf.length + o1.length + 1 - size) buf size (Nat.le_refl _) f1 hb
      cases ok1 with
      | false =>
        obtain ⟨rfl, rfl, rfl⟩ := f3 rfl
        refine ⟨⟨s1, data.drop m, pending ++ u, inner, buf ++ o1, size'⟩, buf.length + o1.length + 2, ?_, rfl, rfl, l', ?_, ?_⟩
        · intro fuel hfuel
          obtain ⟨f, rfl⟩ : ∃ f, fuel = f + 1 := ⟨fuel - 1, by omega⟩
          simp only [compoundDecode, e1, e2, heq]
          rw [h' (f + 1) (by omega)]
          rfl
        · intro h; cases h
        · rw [List.length_append]; exact e4
      | true =>
        obtain ⟨w2, ew, g2⟩ := full_base (f2 rfl)
        let inner2 := if i1.length + 1 ≤ inner then inner else reserve (i1.length + 1)
        have hi2 : i1.length + 1 ≤ inner2 := by
          show i1.length + 1 ≤ if i1.length + 1 ≤ inner then inner else reserve (i1.length + 1)
          by_cases h : i1.length + 1 ≤ inner
          · rw [if_pos h]; exact h
          · rw [if_neg h]; exact hr _
        have hmeas : 2 * (data.drop m).length + (if i1.length = inner2 then 1 else 0) < k := by
          rw [if_neg (by omega), List.length_drop]
          by_cases h0 : m = 0
          · subst h0
            have hu : u = [] := by
              have := congrArg List.length e5
              rw [List.drop_zero, List.length_append] at this
              exact List.length_eq_zero_iff.mp (by omega)
            rw [hu, List.append_nil] at hsz
            rw [if_pos (by omega)] at hk
            omega
          · split at hk <;> omega
        obtain ⟨d, fuel0, h1, h2, h3, h4, h5, h6⟩ := ih _ hmeas inner2 (buf ++ o1) size' (Nat.le_refl _) (by omega) l' g2
        refine ⟨d, fuel0 + buf.length + o1.length + 2, ?_, h2, by rw [h3, ew, List.append_assoc], h4, ?_, h6⟩
        · intro fuel hfuel
          obtain ⟨f, rfl⟩ : ∃ f, fuel = f + 1 := ⟨fuel - 1, by omega⟩
          simp only [compoundDecode, e1, e2, heq]
          rw [h' (f + 1) (by omega)]
          simp only [if_true]
          rw [if_neg hdone]
          exact h1 f (by omega)
        · intro hok
          rw [a1]; exact h5 hok

/-! ### Existence -/

theorem full_total {next : Coding σ α β} (hp : Progress next) (k : Nat) : ∀ (s : σ) (i : List α) (o : List β), i.length ≤ k →
    ∃ s' i' o' ok, Full next s i o s' i' o' ok := by
  induction k with
  | zero =>
    intro s i o hk
    cases h : next s i with
    | stop => exact ⟨s, i, o, true, .stop h⟩
    | invalid => exact ⟨s, i, o, false, .invalid h⟩
    | advance out n s1 => have := hp s i out n s1 h; omega
  | succ k ih =>
    intro s i o hk
    cases h : next s i with
    | stop => exact ⟨s, i, o, true, .stop h⟩
    | invalid => exact ⟨s, i, o, false, .invalid h⟩
    | advance out n s1 =>
      have hn := hp s i out n s1 h
      obtain ⟨s', i', o', ok, g⟩ := ih s1 (i.drop n) (o ++ out) (by rw [List.length_drop]; omega)
      exact ⟨s', i', o', ok, .advance h hn.2 g⟩

theorem greedy_run {next : Coding σ α β} (hp : Progress next) (avail : Nat) (k : Nat) : ∀ (s : σ) (i : List α) (o : List β) (c : Nat), i.length < k →
    ∃ m, m ≤ i.length ∧ (greedy next avail k s i o c).consumed = c + m ∧
      Run next avail s i o (greedy next avail k s i o c).state (i.drop m) (greedy next avail k s i o c).out
        (greedy next avail k s i o c).status := by
  induction k with
  | zero => intro s i o c hk; omega
  | succ k ih =>
    intro s i o c hk
    cases h : next s i with
    | stop =>
      refine ⟨0, Nat.zero_le _, ?_, ?_⟩
      · simp only [greedy, h]; omega
      · simp only [greedy, h, List.drop_zero]; exact .stop h
    | invalid =>
      refine ⟨0, Nat.zero_le _, ?_, ?_⟩
      · simp only [greedy, h]; omega
      · simp only [greedy, h, List.drop_zero]; exact .invalid h
    | advance out n s1 =>
      have hn := hp s i out n s1 h
      by_cases hf : o.length + out.length ≤ avail
      · obtain ⟨m, h1, h2, h3⟩ := ih s1 (i.drop n) (o ++ out) (c + n) (by rw [List.length_drop]; omega)
        rw [List.length_drop] at h1
        rw [List.drop_drop] at h3
        refine ⟨n + m, by omega, ?_, ?_⟩
        · simp only [greedy, h, if_pos hf]; omega
        · simp only [greedy, h, if_pos hf]; exact .advance h hf h3
      · refine ⟨0, Nat.zero_le _, ?_, ?_⟩
        · simp only [greedy, h, if_neg hf]; omega
        · simp only [greedy, h, if_neg hf, List.drop_zero]; exact .space h (by omega)

end Verif.TextCodec
