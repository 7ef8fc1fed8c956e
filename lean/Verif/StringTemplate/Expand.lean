import Verif.StringTemplate.Main

namespace Verif.StringTemplate

open Spec

variable {α β F R E A : Type}

/-- Append character to text of stream. -/
def put (o : OStream α F R) (ch : α) : OStream α F R := { o with text := o.text ++ [ch] }

/-- Set format flags of stream. -/
def setFlags (flags : F) (o : OStream α F R) : OStream α F R := { o with flags := flags }

/-- An evaluation function that leaves the field width at zero. -/
def KeepsWidth (args : A) (eval : Eval α F R A E) : Prop :=
  ∀ o, o.width = 0 → (eval args o).1.width = 0

theorem write_zero (left : F → Bool) (o : OStream α F R) (s : List α) (h : o.width = 0) :
    o.write left s = { o with text := o.text ++ s } := by
  cases o
  simp only at h
  subst h
  simp [OStream.write]

theorem run_chars {π σ ε : Type} (pt : σ → α → σ) (ev : π → σ → σ × Option ε) (rs : σ → σ)
    (s : List α) (ps : List (Piece α π)) (x : σ) :
    run pt ev rs (s.map .char ++ ps) x = run pt ev rs ps (s.foldl pt x) := by
  induction s generalizing x with
  | nil => rfl
  | cons c s ih => simp only [List.map_cons, List.cons_append, run, ih, List.foldl_cons]

theorem foldl_put (s : List α) (o : OStream α F R) :
    s.foldl put o = { o with text := o.text ++ s } := by
  induction s generalizing o with
  | nil => simp
  | cons c s ih => rw [List.foldl_cons, ih]; simp [put]

theorem expandLoop_run (C : Chars α β) (left : F → Bool) (s : List α) (flags : F) (args : A)
    (xs : List (Subst α β F R A E)) :
    ∀ (i : Nat) (o : OStream α F R), Ordered s i xs → o.width = 0 →
      (∀ x ∈ xs, ∀ e, x.param = some e → KeepsWidth args e.eval) →
      let r := expandLoop C left s flags args i xs o
      let r' := run put (fun (e : Entry α β F R A E) o => e.eval args o) (setFlags flags)
        (piecesOf C s i xs) o
      (match r.2 with
        | none => r
        | some e => ({ r.1 with flags := flags }, some e)) = (r'.1, r'.2.map .eval) := by
  induction xs with
  | nil =>
    intro i o hi hw _
    simp only [Ordered] at hi
    have h1 : substr s i s.length = some (s.drop i) := by
      unfold substr
      rw [if_pos hi, if_pos hi, List.take_of_length_le (by simp)]
    simp only [expandLoop, h1, piecesOf]
    have := run_chars put (fun (e : Entry α β F R A E) o => e.eval args o) (setFlags flags)
      (s.drop i) [] o
    rw [List.append_nil] at this
    rw [this, foldl_put, write_zero _ _ _ hw]
    rfl
  | cons x xs ih =>
    intro i o hi hw hk
    simp only [Ordered] at hi
    have h1 : substr s i x.begin = some ((s.drop i).take (x.begin - i)) := by
      unfold substr
      rw [if_pos (by omega), if_pos hi.1]
    have hk' : ∀ x' ∈ xs, ∀ e, x'.param = some e → KeepsWidth args e.eval :=
      fun x' hx' => hk x' (List.mem_cons_of_mem _ hx')
    simp only [expandLoop, h1, piecesOf, run_chars, foldl_put]
    rw [write_zero _ _ _ hw]
    generalize ho1 : ({ o with text := o.text ++ (s.drop i).take (x.begin - i) } : OStream α F R) = o1
    have hw1 : o1.width = 0 := by rw [← ho1]; exact hw
    cases hp : x.param with
    | none =>
      have := ih x.end (put o1 C.lead) hi.2.2 hw1 hk'
      simp only [pieceOf, hp, run]
      rw [write_zero _ _ _ hw1]
      exact this
    | some e =>
      simp only [pieceOf, hp, run]
      have hw2 := hk x (List.mem_cons_self ..) e hp o1 hw1
      cases hr : e.eval args o1 with
      | mk o2 exc =>
        rw [hr] at hw2
        cases exc with
        | none =>
          have := ih x.end (setFlags flags o2) hi.2.2 hw2 hk'
          exact this
        | some e' => rfl

theorem expand_run (C : Chars α β) (left : F → Bool) (s : List α) (args : A)
    (xs : List (Subst α β F R A E)) (o : OStream α F R) (hx : Ordered s 0 xs) (hw : o.width = 0)
    (hk : ∀ x ∈ xs, ∀ e, x.param = some e → KeepsWidth args e.eval) :
    expand C left ⟨s, xs⟩ args o =
      ((run put (fun (e : Entry α β F R A E) o => e.eval args o) (setFlags o.flags)
        (piecesOf C s 0 xs) o).1,
       (run put (fun (e : Entry α β F R A E) o => e.eval args o) (setFlags o.flags)
        (piecesOf C s 0 xs) o).2.map .eval) :=
  expandLoop_run C left s o.flags args xs 0 o hx hw hk

theorem mem_piecesOf (C : Chars α β) (s : List α) (xs : List (Subst α β F R A E)) :
    ∀ (i : Nat) (e : Entry α β F R A E),
      .param e ∈ piecesOf C s i xs ↔ ∃ x ∈ xs, x.param = some e := by
  induction xs with
  | nil => intro i e; simp [piecesOf, ← List.map_drop]
  | cons x xs ih =>
    intro i e
    simp only [piecesOf, List.mem_append, List.mem_map, List.mem_cons, ih]
    constructor
    · rintro (⟨_, _, h⟩ | h | h)
      · cases h
      · refine ⟨x, .inl rfl, ?_⟩
        unfold pieceOf at h
        split at h
        · cases h; assumption
        · cases h
      · obtain ⟨x', h1, h2⟩ := h
        exact ⟨x', .inr h1, h2⟩
    · rintro ⟨x', rfl | h1, h2⟩
      · right; left
        simp [pieceOf, h2]
      · exact .inr (.inr ⟨x', h1, h2⟩)

/-- Evaluations that only write, apart from changing the format flags. -/
theorem run_render (args : A) (flags : F) (value : Entry α β F R A E → List α)
    (ps : List (Piece α (Entry α β F R A E))) :
    ∀ (o : OStream α F R), o.flags = flags →
      (∀ e, .param e ∈ ps → ∀ text, ∃ fl, e.eval args { o with text := text } =
        ({ o with text := text ++ value e, flags := fl }, none)) →
      run put (fun (e : Entry α β F R A E) o => e.eval args o) (setFlags flags) ps o =
        ({ o with text := o.text ++ render value ps }, none) := by
  induction ps with
  | nil => intro o _ _; simp [run, render]
  | cons p ps ih =>
    intro o hf h
    cases p with
    | char c =>
      simp only [run, render]
      have := ih (put o c) hf (fun e he text => h e (List.mem_cons_of_mem _ he) text)
      rw [this]
      simp [put]
    | param e =>
      simp only [run, render]
      obtain ⟨fl, h1⟩ := h e (List.mem_cons_self ..) o.text
      have h1' : e.eval args o = ({ o with text := o.text ++ value e, flags := fl }, none) := h1
      rw [h1']
      subst hf
      have := ih { o with text := o.text ++ value e } rfl
        (fun e he text => h e (List.mem_cons_of_mem _ he) text)
      refine Eq.trans this ?_
      simp

variable [DecidableEq α] [DecidableEq β]

theorem tryParse_feed (C : Chars α β) (hC : C.lead ≠ C.open) (s : List α)
    (params : Params α β F R A E) (templ : Template α β F R A E) (h : Handler α)
    {ps : List (Piece α (Entry α β F R A E))} {fs : List (Fault α)}
    (hR : Reads C.lead C.open C.close (meaning C params) 0 s ps fs) :
    (tryParse C s params templ h).1 = (feed h [] (fs.map errOf)).1.reverse ∧
    (tryParse C s params templ h).2.1 = (feed h [] (fs.map errOf)).2 ∧
    ((feed h [] (fs.map errOf)).2 ≠ .returns true → (tryParse C s params templ h).2.2 = templ) ∧
    ((feed h [] (fs.map errOf)).2 = .returns true →
      ∃ xs, (tryParse C s params templ h).2.2 = ⟨s, xs⟩ ∧ Ordered s 0 xs ∧
        piecesOf C s 0 xs = ps) := by
  have hl := parseLoop_ok C hC s params h (s.length + 1) 0 [] [] ps fs (by omega) (by omega) hR
  unfold tryParse
  simp only
  generalize hr : parseLoop C s params h (s.length + 1) 0 [] [] = r at hl
  obtain ⟨h1, h2⟩ := hl
  have e1 : r.calls = (feed h [] (fs.map errOf)).1 := congrArg Prod.fst h1
  have e2 : r.outcome = (feed h [] (fs.map errOf)).2 := congrArg Prod.snd h1
  rw [← e1, ← e2]
  split
  · rename_i ho
    obtain ⟨xs, g1, g2, g3⟩ := h2 ho
    refine ⟨rfl, ho.symm, fun hne => absurd ho hne, fun _ => ⟨xs, ?_, g2, g3⟩⟩
    rw [g1]; simp
  · rename_i hno
    exact ⟨rfl, rfl, fun _ => rfl, fun ho => absurd ho hno⟩

theorem feed_all (h : Handler α) (es : List (Err α)) :
    ∀ (calls : List (Err α)),
      (∀ pre e post, es = pre ++ e :: post → h (pre.reverse ++ calls) e = .goOn) →
      feed h calls es = (es.reverse ++ calls, .returns true) := by
  induction es with
  | nil => intro calls _; rfl
  | cons e es ih =>
    intro calls hh
    have h1 := hh [] e es rfl
    simp only [List.reverse_nil, List.nil_append] at h1
    simp only [feed, h1]
    rw [ih (e :: calls) (fun pre e' post he => by
      have := hh (e :: pre) e' post (by rw [he]; rfl)
      simpa using this)]
    simp

theorem feed_append (h : Handler α) (pre : List (Err α)) (post : List (Err α)) :
    ∀ (calls : List (Err α)),
      (∀ pre' e post', pre = pre' ++ e :: post' → h (pre'.reverse ++ calls) e = .goOn) →
      feed h calls (pre ++ post) = feed h (pre.reverse ++ calls) post := by
  induction pre with
  | nil => intro calls _; rfl
  | cons e es ih =>
    intro calls hh
    have h1 := hh [] e es rfl
    simp only [List.reverse_nil, List.nil_append] at h1
    simp only [List.cons_append, feed, h1]
    rw [ih (e :: calls) (fun pre e' post he => by
      have := hh (e :: pre) e' post (by rw [he]; rfl)
      simpa using this)]
    simp

end Verif.StringTemplate
