import Verif.Quote.Lemmas
/-!
Lemmas about the reading of quoted strings.
-/
namespace Verif.Quote
open Spec

variable {env : Env} {s : List Nat}

/-- What the quotation relies on with respect to characters: only the control characters are narrowed to control characters with simple
escape sequences, hexadecimal digits are classified as such, and the quotation character is one of the usual two. -/
structure Sane (env : Env) : Prop where
  narrow : ∀ c, 7 ≤ env.narrow c → env.narrow c ≤ 13 → env.narrow c = c
  xdigit : ∀ c, hexDigit c ≠ none → env.isXdigit c = true
  quote : env.quote = '"'.toNat ∨ env.quote = '\''.toNat

/-- The number that is represented by a list of digits. -/
def value (radix : Nat) (D : List Nat) : Nat := D.foldl (fun v d => radix * v + d) 0

/-- The character of a digit. -/
def dig (d : Nat) : Nat := if d < 10 then 48 + d else 87 + d

theorem formatLoop_digits {radix : Nat} (hr : 2 ≤ radix) (k : Nat) : ∀ (val : Nat) (str : List Nat), val ≤ k → str ≠ [] →
    ∃ D : List Nat, formatLoop radix 1 k val str = D.map dig ++ str ∧ value radix D = val ∧ ∀ d ∈ D, d < radix := by
  induction k with
  | zero => intro val str h1 h2; exact ⟨[], rfl, by simp [value]; omega, by simp⟩
  | succ k ih =>
    intro val str h1 h2
    have hl : 0 < str.length := List.length_pos_of_ne_nil h2
    rw [formatLoop]
    by_cases hv : val = 0
    · rw [if_neg (by omega)]
      exact ⟨[], rfl, by simp [value, hv], by simp⟩
    · rw [if_pos (.inl hv)]
      simp only
      have hlt : val / radix < val := Nat.div_lt_self (by omega) (by omega)
      obtain ⟨D, g1, g2, g3⟩ := ih (val / radix) (dig (val % radix) :: str) (by omega) (by simp)
      refine ⟨D ++ [val % radix], ?_, ?_, ?_⟩
      · rw [show (if val % radix < 10 then 48 + val % radix else 87 + val % radix) = dig (val % radix) from rfl, g1]
        simp
      · unfold value at g2 ⊢
        rw [List.foldl_append, g2]
        simp only [List.foldl_cons, List.foldl_nil]
        exact Nat.div_add_mod val radix
      · intro d hd
        rcases List.mem_append.1 hd with hd | hd
        · exact g3 d hd
        · simp at hd; subst hd; exact Nat.mod_lt _ (by omega)

theorem format_hex {val : Nat} (hv : val ≠ 0) :
    ∃ D : List Nat, format 16 val 1 = D.map dig ∧ value 16 D = val ∧ (∀ d ∈ D, d < 16) ∧ D ≠ [] := by
  unfold format
  rw [formatLoop, if_pos (.inl hv)]
  simp only
  obtain ⟨D, g1, g2, g3⟩ := formatLoop_digits (radix := 16) (by omega) val (val / 16) [dig (val % 16)] (by omega) (by simp)
  refine ⟨D ++ [val % 16], ?_, ?_, ?_, by simp⟩
  · rw [show (if val % 16 < 10 then 48 + val % 16 else 87 + val % 16) = dig (val % 16) from rfl, g1]
    simp
  · unfold value at g2 ⊢
    rw [List.foldl_append, g2]
    simp only [List.foldl_cons, List.foldl_nil]
    omega
  · intro d hd
    rcases List.mem_append.1 hd with hd | hd
    · exact g3 d hd
    · simp at hd; omega

theorem format_oct3 : ∀ c < 512, format 8 c 3 = [48 + c / 64, 48 + c / 8 % 8, 48 + c % 8] := by decide +kernel

theorem format_oct1 : ∀ c < 512, format 8 c 1 = if c < 8 then [48 + c] else if c < 64 then [48 + c / 8, 48 + c % 8] else
    [48 + c / 64, 48 + c / 8 % 8, 48 + c % 8] := by decide +kernel

theorem hexDigit_dig : ∀ d < 16, hexDigit (dig d) = some d := by decide

theorem octDigit_add {d : Nat} (h : d < 8) : octDigit (48 + d) = some d := by
  unfold octDigit
  rw [if_pos]
  · congr 1; show 48 + d - 48 = d; omega
  · show 48 ≤ 48 + d ∧ 48 + d ≤ 55; omega

variable {q : Nat}

theorem rest_emit {p p' : At} {c : Nat} {cs text : List Nat} (h : next q p c = some (text, some p')) :
    rest q p (c :: cs) = (rest q p' cs).map (text ++ ·) := by
  rw [rest, h]

theorem rest_after {p : At} {v c : Nat} {cs : List Nat} (h : next q p c = some (v :: (between q c).1, (between q c).2)) :
    rest q p (c :: cs) = (rest q .normal (c :: cs)).map (v :: ·) := by
  rw [rest, h, rest, next]
  rcases between q c with ⟨text, _ | p'⟩
  · simp only; split <;> rfl
  · simp only
    cases rest q p' cs <;> rfl

theorem rest_hex_digits : ∀ (D : List Nat) (v : Nat) (X : List Nat), (∀ d ∈ D, d < 16) →
    rest q (.hex v) (D.map dig ++ X) = rest q (.hex (D.foldl (fun v d => 16 * v + d) v)) X := by
  intro D
  induction D with
  | nil => intro v X _; rfl
  | cons d D ih =>
    intro v X hD
    rw [List.map_cons, List.cons_append, rest_emit (text := []) (p' := .hex (16 * v + d))]
    · rw [ih _ _ (fun d hd => hD d (List.mem_cons_of_mem _ hd))]
      simp
    · rw [next, hexDigit_dig d (hD d List.mem_cons_self)]

theorem rest_oct {k v d : Nat} (hd : d < 8) (hk : k < 3) (X : List Nat) :
    rest q (.octal k v) ((48 + d) :: X) = rest q (.octal (k + 1) (8 * v + d)) X := by
  rw [rest_emit (text := []) (p' := .octal (k + 1) (8 * v + d))]
  · simp
  · rw [next, octDigit_add hd]; simp [hk]

theorem rest_oct_start {d : Nat} (hd : d < 8) (X : List Nat) : rest q .backslash ((48 + d) :: X) = rest q (.octal 1 d) X := by
  rw [rest_emit (text := []) (p' := .octal 1 d)]
  · simp
  · have : simple (48 + d) = none := by
      revert d; decide
    rw [next, this, octDigit_add hd]

theorem rest_oct_end {k v x : Nat} (h : octDigit x = none ∨ 3 ≤ k) (X : List Nat) :
    rest q (.octal k v) (x :: X) = (rest q .normal (x :: X)).map (v :: ·) := by
  apply rest_after
  rw [next]
  cases ho : octDigit x with
  | none => rfl
  | some d =>
    rcases h with h | h
    · rw [ho] at h; cases h
    · simp only; rw [if_neg (by omega)]

theorem rest_bslash (hq : q = '"'.toNat ∨ q = '\''.toNat) (X : List Nat) : rest q .normal (bslash :: X) = rest q .backslash X := by
  rw [rest_emit (text := []) (p' := .backslash)]
  · simp
  · rw [next, between]
    rw [if_neg (by rcases hq with rfl | rfl <;> decide), if_pos (by rfl)]

theorem octDigit_some {x d : Nat} (h : octDigit x = some d) : 48 ≤ x ∧ x ≤ 55 := by
  unfold octDigit at h
  split at h
  · rename_i h'; exact h'
  · cases h

theorem rest_numeric (hq : q = '"'.toNat ∨ q = '\''.toNat) {c : Nat} {nx : Option Nat} {x : Nat} {X : List Nat}
    (h1 : octDigit x ≠ none → nx = some x) (h2 : (renderNumeric c nx).2 = true → hexDigit x = none) :
    rest q .normal ((renderNumeric c nx).1 ++ x :: X) = (rest q .normal (x :: X)).map (c :: ·) := by
  unfold renderNumeric at h2 ⊢
  by_cases hc : c < 512
  · rw [if_pos hc]
    simp only [List.cons_append]
    rw [rest_bslash hq]
    by_cases ho : octDigit x = none
    · have key : ∀ m, m = 1 ∨ m = 3 → rest q .backslash (format 8 c m ++ x :: X) = (rest q .normal (x :: X)).map (c :: ·) := by
        rintro m (rfl | rfl)
        · rw [format_oct1 c hc]
          by_cases hc8 : c < 8
          · rw [if_pos hc8]
            simp only [List.cons_append, List.nil_append]
            rw [rest_oct_start hc8, rest_oct_end (.inl ho)]
          · rw [if_neg hc8]
            by_cases hc64 : c < 64
            · rw [if_pos hc64]
              simp only [List.cons_append, List.nil_append]
              rw [rest_oct_start (by omega), rest_oct (by omega) (by omega), rest_oct_end (.inl ho), Nat.div_add_mod c 8]
            · rw [if_neg hc64]
              simp only [List.cons_append, List.nil_append]
              rw [rest_oct_start (by omega), rest_oct (by omega) (by omega), rest_oct (by omega) (by omega), rest_oct_end (.inl ho),
                show 8 * (8 * (c / 64) + c / 8 % 8) + c % 8 = c by omega]
        · rw [format_oct3 c hc]
          simp only [List.cons_append, List.nil_append]
          rw [rest_oct_start (by omega), rest_oct (by omega) (by omega), rest_oct (by omega) (by omega), rest_oct_end (.inl ho),
            show 8 * (8 * (c / 64) + c / 8 % 8) + c % 8 = c by omega]
      apply key
      split
      · exact .inl rfl
      · split
        · exact .inl rfl
        · exact .inr rfl
    · have hnx := h1 ho
      obtain ⟨d, hd⟩ := Option.ne_none_iff_exists'.1 ho
      have := octDigit_some hd
      rw [hnx]
      simp only
      rw [if_neg (by omega), format_oct3 c hc]
      simp only [List.cons_append, List.nil_append]
      rw [rest_oct_start (by omega), rest_oct (by omega) (by omega), rest_oct (by omega) (by omega), rest_oct_end (.inr (by omega)),
        show 8 * (8 * (c / 64) + c / 8 % 8) + c % 8 = c by omega]
  · rw [if_neg hc] at h2 ⊢
    simp only [List.cons_append]
    have hx := h2 rfl
    rw [rest_bslash hq, rest_emit (text := []) (p' := .hexStart) (by rfl)]
    obtain ⟨D, g1, g2, g3, g4⟩ := format_hex (val := c) (by omega)
    rw [g1]
    cases D with
    | nil => exact absurd rfl g4
    | cons d D =>
      rw [List.map_cons, List.cons_append, rest_emit (text := []) (p' := .hex d) (by rw [next, hexDigit_dig d (g3 d List.mem_cons_self)]),
        rest_hex_digits _ _ _ (fun d hd => g3 d (List.mem_cons_of_mem _ hd))]
      have hv : D.foldl (fun v d => 16 * v + d) d = c := by
        rw [← g2]; simp [value]
      rw [hv, rest_after (v := c) (by rw [next, hx])]
      cases rest q At.normal (x :: X) <;> rfl

theorem rest_special (hs : Sane env) {c : Nat} {nx : Option Nat} {x : Nat} {X : List Nat}
    (h1 : octDigit x ≠ none → nx = some x) (h2 : (renderSpecial env c nx).2 = true → hexDigit x = none) :
    rest env.quote .normal ((renderSpecial env c nx).1 ++ x :: X) = (rest env.quote .normal (x :: X)).map (c :: ·) := by
  have key : ∀ (l v : Nat), env.narrow c = v → 7 ≤ v → v ≤ 13 → simple l = some v →
      rest env.quote .normal ([bslash, l] ++ x :: X) = (rest env.quote .normal (x :: X)).map (c :: ·) := by
    intro l v h3 h4 h5 h6
    have := hs.narrow c (by omega) (by omega)
    rw [List.cons_append, List.cons_append, List.nil_append, rest_bslash hs.quote, rest_emit (text := [v]) (p' := .normal) (by rw [next, h6])]
    rw [show c = v by omega]
    rfl
  unfold renderSpecial at h2 ⊢
  split at h2 <;> rename_i hn
  · exact key 97 7 hn (by omega) (by omega) (by decide)
  · exact key 98 8 hn (by omega) (by omega) (by decide)
  · exact key 116 9 hn (by omega) (by omega) (by decide)
  · exact key 110 10 hn (by omega) (by omega) (by decide)
  · exact key 118 11 hn (by omega) (by omega) (by decide)
  · exact key 102 12 hn (by omega) (by omega) (by decide)
  · exact key 114 13 hn (by omega) (by omega) (by decide)
  · exact rest_numeric hs.quote h1 h2

theorem rest_char (hs : Sane env) {fh : Bool} {c : Nat} {nx : Option Nat} {x : Nat} {X : List Nat}
    (h1 : octDigit x ≠ none → nx = some x) (h2 : (renderChar env fh c nx).2 = true → hexDigit x = none) :
    rest env.quote .normal ((renderChar env fh c nx).1 ++ x :: X) = (rest env.quote .normal (x :: X)).map (c :: ·) := by
  unfold renderChar at h2 ⊢
  by_cases hp : env.isPrint c = true ∧ (¬ fh = true ∨ ¬ env.isXdigit c = true)
  · rw [if_pos hp]
    by_cases hc : c ≠ env.quote ∧ c ≠ bslash
    · rw [if_pos hc]
      simp only [List.cons_append, List.nil_append]
      rw [rest_emit (text := [c]) (p' := .normal)]
      · rfl
      · rw [next, between, if_neg hc.1, if_neg (by exact hc.2)]
    · rw [if_neg hc]
      simp only [List.cons_append, List.nil_append]
      rw [rest_bslash hs.quote, rest_emit (text := [c]) (p' := .normal)]
      · rfl
      · have hs' : simple c = some c := by
          by_cases h3 : c = env.quote
          · rw [h3]; rcases hs.quote with h | h <;> rw [h] <;> decide
          · have : c = bslash := by
              by_contra h4; exact hc ⟨h3, h4⟩
            rw [this]; decide
        rw [next, hs']
  · rw [if_neg hp] at h2 ⊢
    exact rest_special hs h1 h2

theorem char_head (fh : Bool) (c : Nat) (nx : Option Nat) :
    ∃ t, (renderChar env fh c nx).1 = bslash :: t ∨
      ((renderChar env fh c nx).1 = c :: t ∧ (fh = true → env.isXdigit c ≠ true)) := by
  unfold renderChar
  by_cases hp : env.isPrint c = true ∧ (¬ fh = true ∨ ¬ env.isXdigit c = true)
  · rw [if_pos hp]
    split
    · exact ⟨[], .inr ⟨rfl, fun h => hp.2.resolve_left (not_not.2 h)⟩⟩
    · exact ⟨[c], .inl rfl⟩
  · rw [if_neg hp]
    unfold renderSpecial renderNumeric
    repeat' split
    all_goals exact ⟨_, .inl rfl⟩

/-- The texts of the first `n` characters are read as these characters. -/
theorem rest_texts (hs : Sane env) {y : Nat} {Y : List Nat} (hy1 : octDigit y = none) (hy2 : hexDigit y = none) :
    ∀ (l : List Nat) (fh : Bool) (n : Nat),
    rest env.quote .normal (((textsFrom env fh l).take n).flatten ++ y :: Y) = (rest env.quote .normal (y :: Y)).map (l.take n ++ ·) := by
  intro l
  induction l with
  | nil => intro fh n; simp [textsFrom]
  | cons c cs ih =>
    intro fh n
    cases n with
    | zero => simp
    | succ n =>
      rw [textsFrom, List.take_succ_cons, List.flatten_cons, List.append_assoc]
      have hhead : ∃ x X, ((textsFrom env (renderChar env fh c cs.head?).2 cs).take n).flatten ++ y :: Y = x :: X ∧
          (octDigit x ≠ none → cs.head? = some x) ∧ ((renderChar env fh c cs.head?).2 = true → hexDigit x = none) := by
        have hnil : ∃ x X, y :: Y = x :: X ∧ (octDigit x ≠ none → cs.head? = some x) ∧
            ((renderChar env fh c cs.head?).2 = true → hexDigit x = none) := ⟨y, Y, rfl, fun h => absurd hy1 h, fun _ => hy2⟩
        cases cs with
        | nil => simpa [textsFrom] using hnil
        | cons c' cs' =>
          cases n with
          | zero => simpa using hnil
          | succ n =>
            rw [textsFrom, List.take_succ_cons, List.flatten_cons, List.append_assoc]
            obtain ⟨t, ht | ⟨ht, hf⟩⟩ := char_head (env := env) (renderChar env fh c (c' :: cs').head?).2 c' cs'.head?
            · rw [ht]
              exact ⟨bslash, _, rfl, fun h => absurd (by decide) h, fun _ => by decide⟩
            · rw [ht]
              refine ⟨c', _, rfl, fun _ => rfl, fun h => ?_⟩
              by_contra hne
              exact hf h (hs.xdigit c' hne)
      obtain ⟨x, X, g1, g2, g3⟩ := hhead
      have hih := ih (renderChar env fh c cs.head?).2 n
      rw [g1] at hih ⊢
      rw [rest_char hs g2 g3, hih]
      cases rest env.quote At.normal (y :: Y) <;> simp

end Verif.Quote
