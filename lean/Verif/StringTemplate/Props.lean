import Verif.StringTemplate.Expand

/-!
# Properties of string templates (C99)

`Reads` (specification) is the syntax of templates. `meaning C params` is the function that maps a
name, as it occurs in a template, to the parameter that has that name after narrowing.
-/

namespace Verif.StringTemplate

open Spec

variable {α β F R E A : Type} [DecidableEq α] [DecidableEq β]

/-! ### Example setup

Characters are characters, format flags say whether to write numbers in hexadecimal form, and the
context is a number. -/

namespace Ex

def C : Chars Char Char := ⟨'@', '{', '}', id⟩

/-- Parameter `x` writes the number of the context, and leaves the flags changed. -/
def x : Entry Char Char Bool Unit Nat Unit :=
  ⟨['x'], fun n o =>
    ({ o with text := o.text ++ (if o.flags then "hex" else toString n).toList, flags := true }, none)⟩

/-- Parameter `foo` throws when the number of the context is zero. -/
def foo : Entry Char Char Bool Unit Nat Unit :=
  ⟨"foo".toList, fun n o => (o, if n = 0 then some () else none)⟩

def out : OStream Char Bool Unit := ⟨['>'], false, 0, '*', ()⟩

abbrev params : Params Char Char Bool Unit Nat Unit := [x, foo]

def parse (s : String) : List (Err Char) × Outcome × Template Char Char Bool Unit Nat Unit :=
  tryParse C s.toList params Template.empty (fun _ _ => .goOn)

def text (s : String) (n : Nat) : String :=
  String.ofList (expand C (fun _ => true) (parse s).2.2 n out).1.text

end Ex

/-! ### Syntax -/

/-- Every string has exactly one reading as a template. -/
theorem C99_reading {π : Type} (a o c : α) (hao : a ≠ o) (P : List α → Option π) (s : List α) :
    ∃ ps fs, Reads a o c P 0 s ps fs ∧ ∀ ps' fs', Reads a o c P 0 s ps' fs' → ps' = ps ∧ fs' = fs := by
  obtain ⟨ps, fs, h⟩ := Reads.exists P a o c s.length 0 s (le_refl _)
  exact ⟨ps, fs, h, fun ps' fs' h' => h.unique hao h'⟩

example : Reads '@' '{' '}' (fun n => if n = ['x'] then some 7 else none) 0 "a@x@@".toList
    [.char 'a', .param 7, .char '@'] [] :=
  .char (by decide) (.short (by decide) (by decide) rfl (.escape .nil))

/-- A faultless template followed by another template means what the two templates mean, one after
the other. -/
theorem C99_append {π : Type} {a o c : α} {P : List α → Option π} {s t : List α}
    {ps qs : List (Piece α π)} {fs : List (Fault α)} (hs : Reads a o c P 0 s ps [])
    (ht : Reads a o c P 0 t qs fs) :
    ∃ fs', Reads a o c P 0 (s ++ t) (ps ++ qs) fs' ∧ fs'.length = fs.length := by
  obtain ⟨fs', h, hl⟩ := ht.shift (0 + s.length)
  exact ⟨fs', hs.append rfl h, hl⟩

example : Ex.text "a@x" 5 = ">a5" ∧ Ex.text "@@@{x}b" 5 = ">@5b" ∧
    Ex.text ("a@x" ++ "@@@{x}b") 5 = ">a5@5b" := by decide +kernel

/-! ### Parsing -/

/-- When the error handler accepts every fault of the string, parsing succeeds, and the error handler
is called once for each fault, in order. -/
theorem C99_accepted (C : Chars α β) (hC : C.lead ≠ C.open) (s : List α)
    (params : Params α β F R A E) (templ : Template α β F R A E) (h : Handler α)
    {ps : List (Piece α (Entry α β F R A E))} {fs : List (Fault α)}
    (hR : Reads C.lead C.open C.close (meaning C params) 0 s ps fs)
    (hh : ∀ pre f post, fs = pre ++ f :: post → h (pre.map errOf).reverse (errOf f) = .goOn) :
    (tryParse C s params templ h).1 = fs.map errOf ∧
    (tryParse C s params templ h).2.1 = .returns true := by
  obtain ⟨h1, h2, _, _⟩ := tryParse_feed C hC s params templ h hR
  have : feed h [] (fs.map errOf) = ((fs.map errOf).reverse ++ [], .returns true) := by
    apply feed_all
    intro pre e post he
    obtain ⟨pre', rest, rfl, g2, g3⟩ := List.map_eq_append_iff.mp he
    obtain ⟨f, post', rfl, g4, g5⟩ := List.map_eq_cons_iff.mp g3
    rw [List.append_nil, ← g2, ← g4]
    exact hh pre' f post' rfl
  rw [this] at h1 h2
  exact ⟨by rw [h1]; simp, h2⟩

example : (Ex.parse "a@y@{x @").1 =
    [.undefined ['y'] ['@', 'y'], .unterminated 3, .atEnd] := by
  decide +kernel

/-- When the error handler refuses a fault, having accepted all the earlier ones, parsing stops there:
the error handler is not called again, the function returns false (or throws, if that is what the error
handler does), and the template object is left untouched. -/
theorem C99_refused (C : Chars α β) (hC : C.lead ≠ C.open) (s : List α)
    (params : Params α β F R A E) (templ : Template α β F R A E) (h : Handler α)
    {ps : List (Piece α (Entry α β F R A E))} {before after : List (Fault α)} {fault : Fault α}
    (hR : Reads C.lead C.open C.close (meaning C params) 0 s ps (before ++ fault :: after))
    (hh : ∀ pre f post, before = pre ++ f :: post → h (pre.map errOf).reverse (errOf f) = .goOn)
    (hf : h (before.map errOf).reverse (errOf fault) ≠ .goOn) :
    tryParse C s params templ h =
      ((before ++ [fault]).map errOf,
        if h (before.map errOf).reverse (errOf fault) = .stop then .returns false else .throws,
        templ) := by
  obtain ⟨h1, h2, h3, _⟩ := tryParse_feed C hC s params templ h hR
  have : feed h [] ((before ++ fault :: after).map errOf) =
      (((before ++ [fault]).map errOf).reverse,
        if h (before.map errOf).reverse (errOf fault) = .stop then .returns false else .throws) := by
    rw [List.map_append, feed_append]
    · simp only [List.map_cons, feed, List.append_nil]
      cases hc : h (before.map errOf).reverse (errOf fault) with
      | goOn => exact absurd hc hf
      | stop => simp
      | throws => simp
    · intro pre e post he
      obtain ⟨pre', rest, rfl, g2, g3⟩ := List.map_eq_append_iff.mp he
      obtain ⟨f, post', rfl, g4, g5⟩ := List.map_eq_cons_iff.mp g3
      rw [List.append_nil, ← g2, ← g4]
      exact hh pre' f post' rfl
  rw [this] at h1 h2 h3
  have h4 := h3 (by dsimp only; split <;> simp)
  rw [List.reverse_reverse] at h1
  exact Prod.ext h1 (Prod.ext h2 h4)

example : (tryParse Ex.C "a@y@{x @".toList Ex.params Template.empty
    (fun calls _ => if calls = [] then .goOn else .stop)).2.1 = .returns false := by decide +kernel

/-- When the parsing operation does not return true, the template object is left untouched. -/
theorem C99_untouched (C : Chars α β) (s : List α) (params : Params α β F R A E)
    (templ : Template α β F R A E) (h : Handler α)
    (hr : (tryParse C s params templ h).2.1 ≠ .returns true) :
    (tryParse C s params templ h).2.2 = templ := by
  unfold tryParse at hr ⊢
  simp only at hr ⊢
  split at hr
  · simp at hr
  · rfl

example : (tryParse Ex.C "a@y".toList Ex.params (Ex.parse "b").2.2 (fun _ _ => .stop)).2.2.string =
    ['b'] := by decide +kernel

/-- Parsing throws, with a message about the first fault, when there is a fault, and otherwise produces
a template. -/
theorem C99_parse (C : Chars α β) (hC : C.lead ≠ C.open) (s : List α) (params : Params α β F R A E)
    {ps : List (Piece α (Entry α β F R A E))} {fs : List (Fault α)}
    (hR : Reads C.lead C.open C.close (meaning C params) 0 s ps fs) :
    (∀ f ∈ fs.head?, construct C s params = .throws (errOf f)) ∧
    (fs = [] → construct C s params =
      .template (tryParse C s params Template.empty (fun _ _ => .throws)).2.2 ∧
      (tryParse C s params Template.empty (fun _ _ => .throws)).2.1 = .returns true) := by
  unfold construct Parser.parse Parser.create
  simp only [if_true]
  cases fs with
  | nil =>
    have := C99_accepted C hC s params Template.empty (fun _ _ => .throws) hR (by simp)
    simp only [List.map_nil] at this
    refine ⟨by simp, fun _ => ?_⟩
    rw [this.1]
    exact ⟨rfl, this.2⟩
  | cons f fs =>
    refine ⟨fun f' hf' => ?_, by simp⟩
    simp at hf'
    subst hf'
    have := C99_refused C hC s params Template.empty (fun _ _ => .throws) (before := []) hR
      (by simp) (by simp)
    rw [this]
    rfl

example : construct Ex.C "a@y@{x".toList Ex.params = .throws (.undefined ['y'] ['@', 'y']) := by
  rfl

/-- A parser that is constructed without specification of a locale cannot be used for `parse()`: the
function accesses a locale object that no longer exists, no matter what the string is. -/
theorem C99_default_parser (C : Chars α β) (s : List α) (params : Params α β F R A E) :
    (Parser.create false).parse C s params = .undefinedBehavior := rfl

example : (Parser.create false).parse Ex.C "ok".toList Ex.params = .undefinedBehavior := rfl

/-! ### Expansion -/

/-- Expansion of a template goes through the pieces that the template string reads as: characters are
written to the stream, and parameters are evaluated. Every evaluation sees the format flags that the
stream had at the start. If an evaluation throws, what comes after it is not written, the exception is
passed on, and the format flags are reestablished. The evaluation functions must leave the field width
at zero. -/
theorem C99_expand (C : Chars α β) (hC : C.lead ≠ C.open) (left : F → Bool) (s : List α)
    (params : Params α β F R A E) (templ : Template α β F R A E) (h : Handler α)
    {ps : List (Piece α (Entry α β F R A E))} {fs : List (Fault α)}
    (hR : Reads C.lead C.open C.close (meaning C params) 0 s ps fs)
    (hr : (tryParse C s params templ h).2.1 = .returns true)
    (args : A) (o : OStream α F R) (hw : o.width = 0)
    (hk : ∀ e, .param e ∈ ps → ∀ o, o.width = 0 → (e.eval args o).1.width = 0) :
    let r := run (fun (o : OStream α F R) ch => { o with text := o.text ++ [ch] })
      (fun (e : Entry α β F R A E) o => e.eval args o) (fun o' => { o' with flags := o.flags }) ps o
    (expand C left (tryParse C s params templ h).2.2 args o).1 = r.1 ∧
    (expand C left (tryParse C s params templ h).2.2 args o).2 = r.2.map .eval := by
  obtain ⟨h1, h2, h3, h4⟩ := tryParse_feed C hC s params templ h hR
  rw [h2] at hr
  obtain ⟨xs, g1, g2, g3⟩ := h4 hr
  have hk' : ∀ x ∈ xs, ∀ e, x.param = some e → ∀ o, o.width = 0 → (e.eval args o).1.width = 0 := by
    intro x hx e he
    apply hk
    rw [← g3, mem_piecesOf]
    exact ⟨x, hx, he⟩
  rw [g1, expand_run C left s args xs o g2 hw hk', g3]
  exact ⟨rfl, rfl⟩

example : (expand Ex.C (fun _ => true) (Ex.parse "@x|@{foo}@x").2.2 0 Ex.out).1.text = ">0|".toList ∧
    (expand Ex.C (fun _ => true) (Ex.parse "@x|@{foo}@x").2.2 0 Ex.out).1.flags = false := by
  decide +kernel

example : Ex.text "@x|@{foo}@x@@@y" 8 = ">8|8@@y" := by decide +kernel

/-- The text of the expansion of a template: characters stand for themselves, and parameters for what
their evaluation functions write to a stream that is formatted like the specified one, even if those
functions change the format flags. Nothing else about the stream is changed. -/
theorem C99_text (C : Chars α β) (hC : C.lead ≠ C.open) (left : F → Bool) (s : List α)
    (params : Params α β F R A E) (templ : Template α β F R A E) (h : Handler α)
    {ps : List (Piece α (Entry α β F R A E))} {fs : List (Fault α)}
    (hR : Reads C.lead C.open C.close (meaning C params) 0 s ps fs)
    (hr : (tryParse C s params templ h).2.1 = .returns true)
    (args : A) (o : OStream α F R) (hw : o.width = 0)
    (hk : ∀ e, .param e ∈ ps → ∀ o, o.width = 0 → (e.eval args o).1.width = 0)
    (value : Entry α β F R A E → List α)
    (hv : ∀ e, .param e ∈ ps → ∀ text, ∃ fl, e.eval args { o with text := text } =
      ({ o with text := text ++ value e, flags := fl }, none)) :
    expand C left (tryParse C s params templ h).2.2 args o =
      ({ o with text := o.text ++ render value ps }, none) := by
  obtain ⟨h1, h2⟩ := C99_expand C hC left s params templ h hR hr args o hw hk
  have := run_render args o.flags value ps o rfl hv
  have h1' := h1.trans (congrArg Prod.fst this)
  have h2' := h2.trans (congrArg (fun r => r.2.map Thrown.eval) this)
  exact Prod.ext h1' h2'

example : Ex.text "<@x|@{x}>" 12 = "><12|12>" := by decide +kernel

/-- If all occurrences of `@` in a string are doubled, the result is a faultless template that expands
to the original string, regardless of parameters. -/
theorem C99_escape (C : Chars α β) (hC : C.lead ≠ C.open) (left : F → Bool) (s : List α)
    (params : Params α β F R A E) (args : A) (o : OStream α F R) (hw : o.width = 0) :
    ∃ templ, construct C (escape C.lead s) params = .template templ ∧
      expand C left templ args o = ({ o with text := o.text ++ s }, none) := by
  have hR := reads_escape (meaning C params) C.lead C.open C.close s 0
  obtain ⟨h1, h2⟩ := (C99_parse C hC _ params hR).2 rfl
  refine ⟨_, h1, ?_⟩
  have hn : ∀ e : Entry α β F R A E, Piece.param e ∉ s.map .char := by
    intro e he
    simp at he
  have := C99_text C hC left _ params Template.empty _ hR h2 args o hw
    (fun e he => absurd he (hn e)) (fun _ => []) (fun e he => absurd he (hn e))
  rw [this]
  congr 3
  clear this hn hR h1 h2
  induction s with
  | nil => rfl
  | cons c s ih => simp only [List.map_cons, render, ih]

example : Ex.text (String.ofList (escape '@' "me@home{@@x}".toList)) 1 = ">me@home{@@x}" := by
  decide +kernel

/-- When the output operator is used, and the field width is nonzero, the effect is that of writing the
text of the expansion as a single string: it is padded to the field width. If an evaluation function
throws, nothing is written. -/
theorem C99_field_width (C : Chars α β) (left : F → Bool) (t : Template α β F R A E) (args : A)
    (o : OStream α F R) (hw : o.width ≠ 0) :
    let r := expand C left t args { o with text := [], width := 0 }
    (r.2 = none → outputExpand C left t args o =
      ({ o with text := o.text ++ padded (left o.flags) o.fill o.width r.1.text, width := 0 }, none)) ∧
    (∀ e, r.2 = some e → outputExpand C left t args o = (o, some e)) := by
  intro r
  unfold outputExpand
  rw [if_neg hw]
  constructor
  · intro hn
    have : (expand C left t args { o with text := [], width := 0 }).2 = none := hn
    simp only [this]
    rfl
  · intro e he
    have : (expand C left t args { o with text := [], width := 0 }).2 = some e := he
    simp only [this]

example : (outputExpand Ex.C (fun _ => false) (Ex.parse "<@x>").2.2 7 { Ex.out with width := 6 }).1.text
    = ">***<7>".toList := by decide +kernel

/-! ### Parameters -/

/-- A template refers to a parameter when one of the pieces that it reads as is a reference to that
parameter. -/
theorem C99_refers_to (C : Chars α β) (hC : C.lead ≠ C.open) (s : List α)
    (params : Params α β F R A E) (templ : Template α β F R A E) (h : Handler α)
    {ps : List (Piece α (Entry α β F R A E))} {fs : List (Fault α)}
    (hR : Reads C.lead C.open C.close (meaning C params) 0 s ps fs)
    (hr : (tryParse C s params templ h).2.1 = .returns true) (name : List β) :
    refersTo (tryParse C s params templ h).2.2 name = true ↔ ∃ e, .param e ∈ ps ∧ e.name = name := by
  obtain ⟨h1, h2, h3, h4⟩ := tryParse_feed C hC s params templ h hR
  rw [h2] at hr
  obtain ⟨xs, g1, g2, g3⟩ := h4 hr
  rw [g1, ← g3]
  simp only [refersTo, List.any_eq_true, mem_piecesOf]
  constructor
  · rintro ⟨x, hx, hm⟩
    cases hp : x.param with
    | none => rw [hp] at hm; simp at hm
    | some e =>
      rw [hp] at hm
      exact ⟨e, ⟨x, hx, hp⟩, (of_decide_eq_true hm).symm⟩
  · rintro ⟨e, ⟨x, hx, hp⟩, hn⟩
    refine ⟨x, hx, ?_⟩
    rw [hp]
    exact decide_eq_true hn.symm

example : refersTo (Ex.parse "a@{foo}@@x").2.2 "foo".toList = true ∧
    refersTo (Ex.parse "a@{foo}@@x").2.2 "x".toList = false := by decide +kernel

/-- A parameter can be defined once. Its definition gives meaning to its name, and leaves the meaning of
other names alone. -/
theorem C99_define (params : Params α β F R A E) (name : List β) (eval : Eval α F R A E) :
    ((define params name eval).isNone ↔ (find? params name).isSome) ∧
    (∀ params', define params name eval = some params' →
      find? params' name = some ⟨name, eval⟩ ∧
      ∀ name', name' ≠ name → find? params' name' = find? params name') := by
  unfold define
  cases hf : find? params name with
  | some e => simp
  | none =>
    simp only [Option.isNone_some, Option.isSome_none, Bool.false_eq_true, true_and,
      Option.some.injEq]
    rintro params' rfl
    refine ⟨by simp [find?], fun name' hn => ?_⟩
    simp only [find?]
    rw [List.find?_cons_of_neg]
    simp
    exact fun e => hn e.symm

example : (define Ex.params ['y'] Ex.x.eval).isSome = true ∧
    (define Ex.params ['x'] Ex.x.eval).isNone = true := by decide +kernel

end Verif.StringTemplate
