import Verif.Format.Model
import Verif.Format.Spec
/-!
Property C221: formatting of parameterized strings.
-/
namespace Verif.Format

/-- Scanning one character at a time. The result is what is written, and what remains after the first parameter
substitution marker, if there is one. -/
def scan : List Char → List Char × Except Err (Option (List Char))
  | [] => ([], .ok none)
  | c :: r =>
    if c = '%' then
      match r with
      | [] => ([], .error .missing)
      | d :: r' =>
        if d = 's' then ([], .ok (some r'))
        else if d = '%' then ('%' :: (scan r').1, (scan r').2)
        else ([], .error .invalid)
    else (c :: (scan r).1, (scan r).2)

theorem scan_prefix : ∀ (pre rest : List Char), (∀ c ∈ pre, c ≠ '%') →
    scan (pre ++ rest) = (pre ++ (scan rest).1, (scan rest).2)
  | [], rest, _ => rfl
  | c :: pre, rest, h => by
    rw [List.cons_append, scan.eq_def]
    simp only
    rw [if_neg (h c (by simp)), scan_prefix pre rest (fun d hd => h d (by simp [hd]))]
    rfl

theorem split_percent : ∀ r : List Char, ∃ pre rest, r = pre ++ rest ∧ (∀ c ∈ pre, c ≠ '%') ∧
    ((rest = [] ∧ r.findIdx? (· == '%') = none) ∨ (∃ r', rest = '%' :: r' ∧ r.findIdx? (· == '%') = some pre.length))
  | [] => ⟨[], [], rfl, by simp, Or.inl ⟨rfl, rfl⟩⟩
  | c :: r => by
    by_cases hc : c = '%'
    · subst hc
      exact ⟨[], '%' :: r, rfl, by simp, Or.inr ⟨r, rfl, by simp [List.findIdx?_cons]⟩⟩
    · obtain ⟨pre, rest, h1, h2, h3⟩ := split_percent r
      refine ⟨c :: pre, rest, by rw [h1]; rfl, ?_, ?_⟩
      · intro d hd
        rcases List.mem_cons.1 hd with rfl | hd
        · exact hc
        · exact h2 d hd
      · have hb : (c == '%') = false := by simp [hc]
        rcases h3 with ⟨h3, h4⟩ | ⟨r', h3, h4⟩
        · exact Or.inl ⟨h3, by simp [List.findIdx?_cons, hb, h4]⟩
        · exact Or.inr ⟨r', h3, by simp [List.findIdx?_cons, hb, h4]⟩

/-- What the returned index means. -/
def Means (string : List Char) : Except Err Nat → Except Err (Option (List Char)) → Prop
  | .error e, .error e' => e = e'
  | .ok i, .ok none => i = 0
  | .ok i, .ok (some r) => 0 < i ∧ string.drop i = r
  | _, _ => False

theorem advance3_eq (string : List Char) : ∀ (fuel i : Nat), i ≤ string.length → string.length - i < fuel →
    (advance3 fuel string i).1 = (scan (string.drop i)).1 ∧
      Means string (advance3 fuel string i).2 (scan (string.drop i)).2
  | 0, _, _, h => by omega
  | fuel + 1, i, hi, hf => by
    obtain ⟨pre, rest, h1, h2, h3⟩ := split_percent (string.drop i)
    have hlen : string.length - i = pre.length + rest.length := by
      have := congrArg List.length h1
      simpa using this
    rw [advance3]
    simp only
    unfold find
    rcases h3 with ⟨h3, h4⟩ | ⟨r', h3, h4⟩
    · subst h3
      rw [h4]
      simp only [Option.map_none]
      rw [if_neg (by omega)]
      have ht : (string.drop i).take (string.length - i) = pre := by
        rw [h1]; simp at hlen; rw [hlen]; simp
      rw [h1, scan_prefix pre [] h2]
      refine ⟨?_, rfl⟩
      simp only [scan, List.append_nil] at *
      rw [h1] at ht
      exact ht
    · subst h3
      rw [h4]
      simp only [Option.map_some]
      simp only [List.length_cons] at hlen
      have hj : pre.length + i < string.length := by omega
      rw [if_pos hj]
      have ht : (string.drop i).take (pre.length + i - i) = pre := by
        rw [h1]; simp
      rw [ht]
      have hget : ∀ k, string[pre.length + i + 1 + k]? = r'[k]? := by
        intro k
        have : (string.drop i)[pre.length + 1 + k]? = r'[k]? := by
          rw [h1, List.getElem?_append_right (by omega)]
          rw [show pre.length + 1 + k - pre.length = k + 1 by omega]
          rfl
        rw [List.getElem?_drop] at this
        rw [← this]
        congr 1
        omega
      have hg0 : string[pre.length + i + 1]? = r'[0]? := hget 0
      have hd : string.drop (pre.length + i + 1 + 1) = r'.drop 1 := by
        have : string.drop (pre.length + i + 1 + 1) = (string.drop i).drop (pre.length + 2) := by
          rw [List.drop_drop]; congr 1; omega
        rw [this, h1, List.drop_append]
        simp
      rw [h1, scan_prefix pre ('%' :: r') h2, hg0]
      cases r' with
      | nil =>
        simp only [List.length_nil] at hlen
        have hj2 : ¬ pre.length + i + 1 < string.length := by omega
        rw [if_neg hj2]
        exact ⟨by simp [scan], by simp [scan, Means]⟩
      | cons d r'' =>
        simp only [List.length_cons] at hlen
        have hj2 : pre.length + i + 1 < string.length := by omega
        rw [if_pos hj2]
        simp only [List.getElem?_cons_zero, Option.some.injEq]
        simp only [List.drop_succ_cons, List.drop_zero] at hd
        by_cases hs : d = 's'
        · rw [if_pos hs]
          subst hs
          refine ⟨by simp [scan], ?_⟩
          simp only [scan, if_true, Means]
          exact ⟨by omega, hd⟩
        · rw [if_neg hs]
          by_cases hp : d = '%'
          · rw [if_pos hp]
            subst hp
            have ih := advance3_eq string fuel (pre.length + i + 1 + 1) (by omega) (by omega)
            rw [hd] at ih
            have hsc : scan ('%' :: '%' :: r'') = ('%' :: (scan r'').1, (scan r'').2) := by
              rw [scan.eq_def]; simp
            rw [hsc]
            exact ⟨by simp only [ih.1], ih.2⟩
          · rw [if_neg hp]
            have hsc : scan ('%' :: d :: r'') = ([], .error .invalid) := by
              rw [scan.eq_def]; simp [hs, hp]
            rw [hsc]
            exact ⟨by simp, rfl⟩

theorem advance_zero (string : List Char) :
    (advance3 (string.length + 1) string 0).1 = (scan string).1 ∧
      Means string (advance3 (string.length + 1) string 0).2 (scan string).2 := by
  have := advance3_eq string (string.length + 1) 0 (Nat.zero_le _) (by omega)
  rwa [List.drop_zero] at this

/-- Formatting in terms of scanning. -/
def viaScan : List Char → List (List Char) → List Char × Option Err
  | s, [] =>
    match scan s with
    | (o, .error e) => (o, some e)
    | (o, .ok none) => (o, none)
    | (o, .ok (some _)) => (o, some .tooMany)
  | s, p :: ps =>
    match scan s with
    | (o, .error e) => (o, some e)
    | (o, .ok none) => (o, some .tooFew)
    | (o, .ok (some r)) => (o ++ p ++ (viaScan r ps).1, (viaScan r ps).2)

theorem format_eq : ∀ (params : List (List Char)) (s : List Char), format s params = viaScan s params
  | [], s => by
    have h := advance_zero s
    unfold format advance2 viaScan
    generalize advance3 (s.length + 1) s 0 = a at *
    generalize scan s = b at *
    obtain ⟨o, a⟩ := a
    obtain ⟨o', b⟩ := b
    simp only at h
    obtain ⟨rfl, h⟩ := h
    cases a with
    | error e =>
      cases b with
      | error e' => cases h; rfl
      | ok b => cases b <;> exact h.elim
    | ok i =>
      cases b with
      | error e' => exact h.elim
      | ok b =>
        cases b with
        | none => cases h; rfl
        | some r => simp only; rw [if_pos h.1]
  | p :: ps, s => by
    have h := advance_zero s
    unfold format advance1 viaScan
    generalize advance3 (s.length + 1) s 0 = a at *
    generalize scan s = b at *
    obtain ⟨o, a⟩ := a
    obtain ⟨o', b⟩ := b
    simp only at h
    obtain ⟨rfl, h⟩ := h
    cases a with
    | error e =>
      cases b with
      | error e' => cases h; rfl
      | ok b => cases b <;> exact h.elim
    | ok i =>
      cases b with
      | error e' => exact h.elim
      | ok b =>
        cases b with
        | none => cases h; rfl
        | some r =>
          have hi : ¬ i = 0 := by have := h.1; omega
          simp only [if_neg hi]
          rw [h.2, format_eq ps r]

theorem viaScan_nil (ps : List (List Char)) : viaScan [] ps = ([], if ps = [] then none else some .tooFew) := by
  cases ps <;> simp [viaScan, scan]

theorem viaScan_map {s s' : List Char} {w : List Char} (h : scan s = (w ++ (scan s').1, (scan s').2))
    (ps : List (List Char)) : viaScan s ps = (w ++ (viaScan s' ps).1, (viaScan s' ps).2) := by
  cases ps with
  | nil =>
    unfold viaScan
    rw [h]
    generalize scan s' = b
    obtain ⟨o, b⟩ := b
    rcases b with e | _ | r <;> rfl
  | cons p ps =>
    unfold viaScan
    rw [h]
    generalize scan s' = b
    obtain ⟨o, b⟩ := b
    rcases b with e | _ | r <;> simp

theorem viaScan_lit {c : Char} (h : c ≠ '%') (s : List Char) (ps : List (List Char)) :
    viaScan (c :: s) ps = (c :: (viaScan s ps).1, (viaScan s ps).2) :=
  viaScan_map (w := [c]) (by rw [scan.eq_def]; simp [h]) ps

theorem viaScan_percent (s : List Char) (ps : List (List Char)) :
    viaScan ('%' :: '%' :: s) ps = ('%' :: (viaScan s ps).1, (viaScan s ps).2) :=
  viaScan_map (w := ['%']) (by rw [scan.eq_def]; simp) ps

theorem viaScan_marker (s p : List Char) (ps : List (List Char)) :
    viaScan ('%' :: 's' :: s) (p :: ps) = (p ++ (viaScan s ps).1, (viaScan s ps).2) := by
  rw [viaScan]; simp [scan]

theorem viaScan_marker_nil (s : List Char) : viaScan ('%' :: 's' :: s) [] = ([], some .tooMany) := by
  simp [viaScan, scan]

/-- C221: the result of formatting with a parameterized string of the documented form. If the number of parameters is the
number of markers, the result is what substitution gives. -/
theorem C221_valid (toks : List Spec.Tok) (h : Spec.Ok toks) (params : List (List Char)) :
    (params.length = Spec.markers toks → format (Spec.text toks) params = (Spec.subst toks params, none)) ∧
    (params.length < Spec.markers toks → (format (Spec.text toks) params).2 = some .tooMany) ∧
    (Spec.markers toks < params.length → (format (Spec.text toks) params).2 = some .tooFew) := by
  simp only [format_eq]
  induction toks generalizing params with
  | nil =>
    rw [Spec.text, viaScan_nil, Spec.markers]
    refine ⟨fun hp => ?_, fun hp => by omega, fun hp => ?_⟩
    · rw [if_pos (List.length_eq_zero_iff.1 hp)]; rfl
    · rw [if_neg (fun e => by rw [e] at hp; simp at hp)]
  | cons t ts ih =>
    have hts : Spec.Ok ts := fun hm => h (List.mem_cons_of_mem _ hm)
    cases t with
    | lit c =>
      have hc : c ≠ '%' := fun e => h (by rw [e]; simp)
      rw [Spec.text, viaScan_lit hc, Spec.markers, Spec.subst]
      · obtain ⟨i1, i2, i3⟩ := ih hts params
        exact ⟨fun hp => by rw [i1 hp], i2, i3⟩
      · simp
    | percent =>
      rw [Spec.text, viaScan_percent, Spec.markers, Spec.subst]
      · obtain ⟨i1, i2, i3⟩ := ih hts params
        exact ⟨fun hp => by rw [i1 hp], i2, i3⟩
      · simp
    | marker =>
      cases params with
      | nil =>
        rw [Spec.text, viaScan_marker_nil, Spec.markers]
        exact ⟨fun hp => by simp at hp, fun _ => rfl, fun hp => by simp at hp⟩
      | cons p ps =>
        rw [Spec.text, viaScan_marker, Spec.markers, Spec.subst]
        obtain ⟨i1, i2, i3⟩ := ih hts ps
        simp only [List.length_cons]
        exact ⟨fun hp => by rw [i1 (by omega)], fun hp => i2 (by omega), fun hp => i3 (by omega)⟩

/-- C221: formatting succeeds only if the string has the documented form, and the number of parameters is the number of
markers. -/
theorem C221_only_valid (s : List Char) (params : List (List Char)) (h : (format s params).2 = none) :
    ∃ toks, Spec.Ok toks ∧ Spec.text toks = s ∧ params.length = Spec.markers toks := by
  rw [format_eq] at h
  suffices hmain : ∀ (n : Nat) (s : List Char) (params : List (List Char)), s.length ≤ n →
      (viaScan s params).2 = none →
      ∃ toks, Spec.Ok toks ∧ Spec.text toks = s ∧ params.length = Spec.markers toks from
    hmain s.length s params (Nat.le_refl _) h
  clear h s params
  intro n
  induction n with
  | zero =>
    intro s params hn h
    have hs : s = [] := List.length_eq_zero_iff.1 (by omega)
    subst hs
    rw [viaScan_nil] at h
    by_cases hp : params = []
    · subst hp; exact ⟨[], by simp [Spec.Ok], rfl, rfl⟩
    · rw [if_neg hp] at h; cases h
  | succ n ih =>
    intro s params hn h
    cases s with
    | nil => exact ih [] params (by simp) h
    | cons c r =>
      by_cases hc : c = '%'
      · subst hc
        cases r with
        | nil => cases params <;> simp [viaScan, scan] at h
        | cons d r =>
          by_cases hd : d = 's'
          · subst hd
            cases params with
            | nil => rw [viaScan_marker_nil] at h; cases h
            | cons p ps =>
              rw [viaScan_marker] at h
              obtain ⟨ts, h1, h2, h3⟩ := ih r ps (by simp at hn; omega) h
              refine ⟨.marker :: ts, ?_, by rw [Spec.text, h2], by rw [Spec.markers, List.length_cons, h3]⟩
              unfold Spec.Ok at *; simp [h1]
          · by_cases hp : d = '%'
            · subst hp
              rw [viaScan_percent] at h
              obtain ⟨ts, h1, h2, h3⟩ := ih r params (by simp at hn; omega) h
              refine ⟨.percent :: ts, ?_, by rw [Spec.text, h2], by rw [Spec.markers, h3]; simp⟩
              unfold Spec.Ok at *; simp [h1]
            · cases params <;> simp [viaScan, scan, hd, hp] at h
      · rw [viaScan_lit hc] at h
        obtain ⟨ts, h1, h2, h3⟩ := ih r params (by simp at hn; omega) h
        refine ⟨.lit c :: ts, ?_, by rw [Spec.text, h2], by rw [Spec.markers, h3]; simp⟩
        unfold Spec.Ok at *; simp [h1, Ne.symm hc]

/-- C221: if the string does not have the documented form, formatting fails. -/
theorem C221_invalid (s : List Char) (params : List (List Char))
    (h : ¬ ∃ toks, Spec.Ok toks ∧ Spec.text toks = s) : (format s params).2 ≠ none ∧ (format s params).2 ≠ some .endless := by
  refine ⟨fun e => ?_, ?_⟩
  · obtain ⟨ts, h1, h2, -⟩ := C221_only_valid s params e
    exact h ⟨ts, h1, h2⟩
  · rw [format_eq]
    have hs : ∀ (n : Nat) (s : List Char), s.length ≤ n → ∀ e, (scan s).2 = .error e → e ≠ .endless := by
      intro n
      induction n with
      | zero =>
        intro s hn e he
        have : s = [] := List.length_eq_zero_iff.1 (by omega)
        subst this
        simp [scan] at he
      | succ n ih =>
        intro s hn e he
        cases s with
        | nil => simp [scan] at he
        | cons c r =>
          rw [scan.eq_def] at he
          simp only at he
          by_cases hc : c = '%'
          · rw [if_pos hc] at he
            cases r with
            | nil => simp at he; rw [← he]; simp
            | cons d r =>
              simp only at he
              by_cases hd : d = 's'
              · rw [if_pos hd] at he; cases he
              · rw [if_neg hd] at he
                by_cases hp : d = '%'
                · rw [if_pos hp] at he
                  exact ih r (by simp at hn; omega) e he
                · rw [if_neg hp] at he
                  simp at he; rw [← he]; simp
          · rw [if_neg hc] at he
            exact ih r (by simp at hn; omega) e he
    have hv : ∀ (ps : List (List Char)) (s : List Char), (viaScan s ps).2 ≠ some .endless := by
      intro ps
      induction ps with
      | nil =>
        intro s
        have := hs s.length s (Nat.le_refl _)
        unfold viaScan
        generalize scan s = b at *
        obtain ⟨o, b⟩ := b
        rcases b with e | _ | r
        · intro h'; injection h' with h'; exact this e rfl h'
        · simp
        · simp
      | cons p ps ih =>
        intro s
        have := hs s.length s (Nat.le_refl _)
        unfold viaScan
        generalize scan s = b at *
        obtain ⟨o, b⟩ := b
        rcases b with e | _ | r
        · intro h'; injection h' with h'; exact this e rfl h'
        · simp
        · exact ih r
    exact hv params s

/-- C221: any text is the result of formatting itself with percent signs doubled. -/
theorem C221_escape (s : List Char) : format (Spec.escape s) [] = (s, none) := by
  rw [format_eq]
  induction s with
  | nil => rfl
  | cons c s ih =>
    have he : Spec.escape (c :: s) = (if c = '%' then ['%', '%'] else [c]) ++ Spec.escape s := by
      simp [Spec.escape]
    rw [he]
    by_cases hc : c = '%'
    · rw [if_pos hc]
      show viaScan ('%' :: '%' :: Spec.escape s) [] = _
      rw [viaScan_percent, ih, hc]
    · rw [if_neg hc]
      show viaScan (c :: Spec.escape s) [] = _
      rw [viaScan_lit hc, ih]

/-- C221: the function that takes an array of parameters does the same. -/
theorem C221_alt (s : List Char) (params : List (List Char)) : formatAlt params s [] = format s params := by
  suffices h : ∀ (params : List (List Char)) (s out : List Char),
      formatAlt params s out = (out ++ (format s params).1, (format s params).2) by
    rw [h]; simp
  intro params
  induction params with
  | nil => intro s out; unfold formatAlt format; rfl
  | cons p ps ih =>
    intro s out
    unfold formatAlt format
    generalize advance1 s = a
    obtain ⟨o, a⟩ := a
    cases a with
    | error e => rfl
    | ok i => simp only; rw [ih]; simp

/-- C221: when an object made by `formatted()` is written to a stream, the effect is the same if the field width is
zero. Otherwise, the text is written as a single string that fills the field, or nothing is written, if the string is
invalid. -/
theorem C221_formatted (s : List Char) (params : List (List Char)) (width : Nat) :
    (formatted width s params).2 = (format s params).2 ∧
    (width = 0 → (formatted width s params).1 = (format s params).1) ∧
    (0 < width → (format s params).2 ≠ none → (formatted width s params).1 = []) ∧
    (0 < width → (format s params).2 = none →
      (formatted width s params).1.length = max width (format s params).1.length ∧
      ∃ k, (formatted width s params).1 = List.replicate k ' ' ++ (format s params).1) := by
  unfold formatted
  generalize format s params = a
  obtain ⟨o, a⟩ := a
  by_cases hw : width = 0
  · subst hw; simp
  · cases a with
    | none =>
      simp only [if_neg hw]
      refine ⟨trivial, fun h => (hw h).elim, fun _ h => (h rfl).elim, fun _ _ => ⟨?_, _, rfl⟩⟩
      rw [List.length_append, List.length_replicate]
      omega
    | some e => simp [hw]

example : format "<%s:%s>%%".toList ["1".toList, "%s".toList] = ("<1:%s>%".toList, none) ∧
    format "%s".toList [] = ([], some .tooMany) ∧ format "a%%b".toList [[]] = ("a%b".toList, some .tooFew) ∧
    format "a%d".toList [[]] = ("a".toList, some .invalid) ∧ format "a%%%".toList [] = ("a%".toList, some .missing) ∧
    formatted 0 "a%d".toList [[]] = ("a".toList, some .invalid) ∧
    formatted 7 "a%d".toList [[]] = ([], some .invalid) ∧ formatted 7 "%s%%".toList ["42".toList] = ("    42%".toList, none) := by decide +kernel

end Verif.Format
