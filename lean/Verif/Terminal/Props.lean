import Verif.Terminal.Spec
/-!
Properties of text attributes and escape sequences.
-/
namespace Verif.Terminal
open Spec

/-- The style that is represented by attributes. -/
def TextAttributes.style (a : TextAttributes) : Style :=
  ⟨a.weight, a.underline, a.blink, a.reverse, if a.hasColor then some a.color else none, if a.hasBackgroundColor then some a.backgroundColor else none⟩

/-- There is only one representation of the absence of a color. -/
def TextAttributes.Canonical (a : TextAttributes) : Prop :=
  (a.hasColor = false → a.color = .black) ∧ (a.hasBackgroundColor = false → a.backgroundColor = .black)

theorem make_spec (ops : List Op) : (TextAttributes.make ops).style = Style.make ops ∧ (TextAttributes.make ops).Canonical := by
  have : ∀ (ops : List Op) (a : TextAttributes) (s : Style), a.style = s → a.Canonical →
      (ops.foldl TextAttributes.apply a).style = ops.foldl Style.apply s ∧ (ops.foldl TextAttributes.apply a).Canonical := by
    intro ops
    induction ops with
    | nil => intro a s h hc; exact ⟨h, hc⟩
    | cons op ops ih =>
      intro a s h hc
      rw [List.foldl_cons, List.foldl_cons]
      apply ih
      · subst h; cases op <;> rfl
      · cases op
        all_goals first
          | exact hc
          | exact ⟨by simp [TextAttributes.apply], hc.2⟩
          | exact ⟨hc.1, by simp [TextAttributes.apply]⟩
  exact this ops _ _ rfl ⟨fun _ => rfl, fun _ => rfl⟩

theorem style_inj {a b : TextAttributes} (ha : a.Canonical) (hb : b.Canonical) (h : a.style = b.style) : a = b := by
  obtain ⟨a1, a2, a3, a4, a5, a6, a7, a8⟩ := a
  obtain ⟨b1, b2, b3, b4, b5, b6, b7, b8⟩ := b
  simp only [TextAttributes.style, Style.mk.injEq] at h
  obtain ⟨rfl, rfl, rfl, rfl, h5, h6⟩ := h
  have e5 : a5 = b5 ∧ a6 = b6 := by
    cases a5 <;> cases b5 <;> simp at h5
    · exact ⟨rfl, (ha.1 rfl).trans (hb.1 rfl).symm⟩
    · exact ⟨rfl, h5⟩
  have e6 : a7 = b7 ∧ a8 = b8 := by
    cases a7 <;> cases b7 <;> simp at h6
    · exact ⟨rfl, (ha.2 rfl).trans (hb.2 rfl).symm⟩
    · exact ⟨rfl, h6⟩
  rw [e5.1, e5.2, e6.1, e6.2]

/-! ### What the terminal sees -/

/-- After `s` has been written, the terminal is in the middle of an escape sequence with parameters `l`. -/
def Seen (k : Kind) (r : Rendition) (s : Writer) (l : List Nat) : Prop :=
  ∃ cur prev, receiveAll k (.text, r) s.1 = (.params cur prev, r) ∧
    ((s.2 = true ∧ prev ++ [cur] = l) ∨ (s.2 = false ∧ prev = [] ∧ cur = 0 ∧ l = []))

/-- The value of a parameter. -/
def value (arg : List Char) (n : Nat) : Nat := arg.foldl (fun n c => 10 * n + (c.toNat - 48)) n

theorem receive_digits (k : Kind) (r : Rendition) (prev : List Nat) : ∀ (arg : List Char) (cur : Nat), arg.all Char.isDigit = true →
    receiveAll k (.params cur prev, r) arg = (.params (value arg cur) prev, r) := by
  intro arg
  induction arg with
  | nil => intro cur _; rfl
  | cons c arg ih =>
    intro cur h
    simp only [List.all_cons, Bool.and_eq_true] at h
    rw [receiveAll, List.foldl_cons]
    simp only [receive, h.1, if_true]
    exact ih _ h.2

theorem seen_addArg {k : Kind} {r : Rendition} {s : Writer} {l : List Nat} (h : Seen k r s l) (arg : List Char)
    (ha : arg.all Char.isDigit = true) : Seen k r (addArg s arg) (l ++ [value arg 0]) := by
  obtain ⟨cur, prev, h1, h2⟩ := h
  obtain ⟨buffer, nf⟩ := s
  rcases h2 with ⟨h2, h3⟩ | ⟨h2, rfl, rfl, rfl⟩
  · simp only at h2
    subst h2
    refine ⟨value arg 0, prev ++ [cur], ?_, .inl ⟨rfl, by rw [h3]⟩⟩
    simp only [addArg, if_true, receiveAll, List.foldl_append] at *
    rw [h1]
    exact receive_digits k r _ arg 0 ha
  · simp only at h2
    subst h2
    refine ⟨value arg 0, [], ?_, .inl ⟨rfl, rfl⟩⟩
    simp only [addArg, receiveAll, List.foldl_append, Bool.false_eq_true, if_false] at *
    rw [h1]
    exact receive_digits k r _ arg 0 ha

/-- The number for the weight. -/
def weightCode : Weight → Nat
  | .normal => 22
  | .bold => 1
  | .faint => 2

/-- The number for a color. -/
def colorCode : Color → Nat
  | .black => 0
  | .red => 1
  | .green => 2
  | .yellow => 3
  | .blue => 4
  | .magenta => 5
  | .cyan => 6
  | .white => 7

variable {k : Kind} {r : Rendition} {s : Writer} {l : List Nat}

theorem seen_weight (h : Seen k r s l) (d : TextAttributes) : Seen k r (addWeight d s) (l ++ [weightCode d.weight]) := by
  unfold addWeight
  cases d.weight <;> exact seen_addArg h _ (by decide)

theorem seen_underline (h : Seen k r s l) (d : TextAttributes) : Seen k r (addUnderline d s) (l ++ [if d.underline then 4 else 24]) := by
  unfold addUnderline
  cases d.underline <;> exact seen_addArg h _ (by decide)

theorem seen_blink (h : Seen k r s l) (d : TextAttributes) : Seen k r (addBlink d s) (l ++ [if d.blink then 5 else 25]) := by
  unfold addBlink
  cases d.blink <;> exact seen_addArg h _ (by decide)

theorem seen_reverse (h : Seen k r s l) (d : TextAttributes) : Seen k r (addReverse d s) (l ++ [if d.reverse then 7 else 27]) := by
  unfold addReverse
  cases d.reverse <;> exact seen_addArg h _ (by decide)

theorem seen_color (h : Seen k r s l) (d : TextAttributes) :
    Seen k r (addColor d s) (l ++ [if d.hasColor then 30 + colorCode d.color else 39]) := by
  unfold addColor
  cases d.hasColor
  · exact seen_addArg h _ (by decide)
  · cases d.color <;> exact seen_addArg h _ (by decide)

theorem seen_backgroundColor (h : Seen k r s l) (d : TextAttributes) :
    Seen k r (addBackgroundColor d s) (l ++ [if d.hasBackgroundColor then 40 + colorCode d.backgroundColor else 49]) := by
  unfold addBackgroundColor
  cases d.hasBackgroundColor
  · exact seen_addArg h _ (by decide)
  · cases d.backgroundColor <;> exact seen_addArg h _ (by decide)

theorem seen_if (h : Seen k r s l) (c : Bool) (f : Writer → Writer) (n : Nat) (hf : ∀ s l, Seen k r s l → Seen k r (f s) (l ++ [n])) :
    Seen k r (if c then f s else s) (l ++ if c then [n] else []) := by
  cases c
  · simpa using h
  · exact hf s l h

theorem seen_end (h : Seen k r s l) (hl : l ≠ []) : receiveAll k (.text, r) (s.1 ++ ['m']) = (.text, l.foldl (select k) r) := by
  obtain ⟨cur, prev, h1, h2⟩ := h
  rcases h2 with ⟨-, h2⟩ | ⟨-, -, -, h2⟩
  · simp only [receiveAll, List.foldl_append] at *
    rw [h1]
    show (State.text, (prev ++ [cur]).foldl (select k) r) = _
    rw [h2]
  · exact absurd h2 hl

/-! ### The effect of each of the parameters -/

theorem fold_underline (k : Kind) (r : Rendition) (c b : Bool) (h : c = false → r.underline = b) :
    (if c then [if b then 4 else 24] else []).foldl (select k) r = { r with underline := b } := by
  cases c
  · simp [← h rfl]
  · cases b <;> rfl

theorem fold_blink (k : Kind) (r : Rendition) (c b : Bool) (h : c = false → r.blink = b) :
    (if c then [if b then 5 else 25] else []).foldl (select k) r = { r with blink := b } := by
  cases c
  · simp [← h rfl]
  · cases b <;> rfl

theorem fold_reverse (k : Kind) (r : Rendition) (c b : Bool) (h : c = false → r.reverse = b) :
    (if c then [if b then 7 else 27] else []).foldl (select k) r = { r with reverse := b } := by
  cases c
  · simp [← h rfl]
  · cases b <;> rfl

theorem fold_color (k : Kind) (r : Rendition) (c b : Bool) (x : Color) (h : c = false → r.color = if b then some x else none) :
    (if c then [if b then 30 + colorCode x else 39] else []).foldl (select k) r = { r with color := if b then some x else none } := by
  cases c
  · simp [← h rfl]
  · cases b
    · rfl
    · cases x <;> rfl

theorem fold_backgroundColor (k : Kind) (r : Rendition) (c b : Bool) (x : Color) (h : c = false → r.backgroundColor = if b then some x else none) :
    (if c then [if b then 40 + colorCode x else 49] else []).foldl (select k) r = { r with backgroundColor := if b then some x else none } := by
  cases c
  · simp [← h rfl]
  · cases b
    · rfl
    · cases x <;> rfl

/-- The weight ends up as specified if the terminal is of the first kind, or if the weight does not change directly between bold and faint. -/
theorem fold_weight (k : Kind) (r : Rendition) (v w : Weight) (c : Bool) (hv : r.bold = (v == .bold) ∧ r.faint = (v == .faint))
    (h : c = false → v = w) (hk : k = .exclusive ∨ v = w ∨ v = .normal ∨ w = .normal) :
    (if c then [weightCode w] else []).foldl (select k) r = { r with bold := w == .bold, faint := w == .faint } := by
  obtain ⟨b, f, u, bl, re, c1, c2⟩ := r
  simp only at hv
  obtain ⟨rfl, rfl⟩ := hv
  cases c
  · rw [h rfl]; rfl
  · rcases hk with rfl | rfl | rfl | rfl
    · cases v <;> cases w <;> rfl
    · cases k <;> cases v <;> rfl
    · cases k <;> cases w <;> rfl
    · cases k <;> cases v <;> rfl

/-- The numbers that are sent when there is no reset. -/
def params1 (src dst : TextAttributes) : List Nat :=
  (((((([] ++ if changeWeight src dst then [weightCode dst.weight] else []) ++
    if changeUnderline src dst then [if dst.underline then 4 else 24] else []) ++
    if changeBlink src dst then [if dst.blink then 5 else 25] else []) ++
    if changeReverse src dst then [if dst.reverse then 7 else 27] else []) ++
    if changeColor src dst then [if dst.hasColor then 30 + colorCode dst.color else 39] else []) ++
    if changeBackgroundColor src dst then [if dst.hasBackgroundColor then 40 + colorCode dst.backgroundColor else 49] else [])

/-- The numbers that are sent when there is a reset. -/
def params2 (dst : TextAttributes) : List Nat :=
  ((((((([] ++ [0]) ++ if dst.weight != .normal then [weightCode dst.weight] else []) ++
    if dst.underline then [if dst.underline then 4 else 24] else []) ++
    if dst.blink then [if dst.blink then 5 else 25] else []) ++
    if dst.reverse then [if dst.reverse then 7 else 27] else []) ++
    if dst.hasColor then [if dst.hasColor then 30 + colorCode dst.color else 39] else []) ++
    if dst.hasBackgroundColor then [if dst.hasBackgroundColor then 40 + colorCode dst.backgroundColor else 49] else [])

theorem params1_ne {src dst : TextAttributes} (h : dst ≠ src) : params1 src dst ≠ [] := by
  intro h'
  simp only [params1, List.append_eq_nil_iff, List.nil_append, ite_eq_right_iff, List.cons_ne_nil, imp_false, Bool.not_eq_true] at h'
  apply h
  obtain ⟨a1, a2, a3, a4, a5, a6, a7, a8⟩ := src
  obtain ⟨b1, b2, b3, b4, b5, b6, b7, b8⟩ := dst
  simp [changeWeight, changeUnderline, changeBlink, changeReverse, changeColor, changeBackgroundColor] at h'
  simp [h']

theorem params2_ne (dst : TextAttributes) : params2 dst ≠ [] := by
  simp [params2]

theorem change_receive (k : Kind) (src dst : TextAttributes) (h : dst ≠ src) (r : Rendition) :
    receiveAll k (.text, r) (change src dst) = (.text, (if size1 src dst ≤ size2 dst then params1 src dst else params2 dst).foldl (select k) r) := by
  have h0 : Seen k r (['\x1b', '['], false) [] := ⟨0, [], rfl, .inr ⟨rfl, rfl, rfl, rfl⟩⟩
  unfold change
  rw [if_neg h]
  by_cases hs : size1 src dst ≤ size2 dst
  · simp only [if_pos hs]
    apply seen_end _ (params1_ne h)
    unfold params1
    refine seen_if ?_ _ _ _ (fun s l h => seen_backgroundColor h dst)
    refine seen_if ?_ _ _ _ (fun s l h => seen_color h dst)
    refine seen_if ?_ _ _ _ (fun s l h => seen_reverse h dst)
    refine seen_if ?_ _ _ _ (fun s l h => seen_blink h dst)
    refine seen_if ?_ _ _ _ (fun s l h => seen_underline h dst)
    exact seen_if h0 _ _ _ (fun s l h => seen_weight h dst)
  · simp only [if_neg hs]
    apply seen_end _ (params2_ne dst)
    unfold params2
    refine seen_if ?_ _ _ _ (fun s l h => seen_backgroundColor h dst)
    refine seen_if ?_ _ _ _ (fun s l h => seen_color h dst)
    refine seen_if ?_ _ _ _ (fun s l h => seen_reverse h dst)
    refine seen_if ?_ _ _ _ (fun s l h => seen_blink h dst)
    refine seen_if ?_ _ _ _ (fun s l h => seen_underline h dst)
    refine seen_if ?_ _ _ _ (fun s l h => seen_weight h dst)
    exact seen_addArg h0 [] rfl

theorem fold_params1 (k : Kind) (src dst : TextAttributes)
    (hk : k = .exclusive ∨ src.weight = dst.weight ∨ src.weight = .normal ∨ dst.weight = .normal) :
    (params1 src dst).foldl (select k) src.style.rendition = dst.style.rendition := by
  unfold params1
  simp only [List.foldl_append, List.foldl_nil]
  rw [fold_weight k _ src.weight dst.weight _ ⟨rfl, rfl⟩ (by simp [changeWeight]; exact fun h => h.symm) hk]
  rw [fold_underline k _ _ _ (by simp [changeUnderline, TextAttributes.style, Style.rendition]; exact fun h => h.symm)]
  rw [fold_blink k _ _ _ (by simp [changeBlink, TextAttributes.style, Style.rendition]; exact fun h => h.symm)]
  rw [fold_reverse k _ _ _ (by simp [changeReverse, TextAttributes.style, Style.rendition]; exact fun h => h.symm)]
  rw [fold_color k _ _ _ _ (by simp [changeColor, TextAttributes.style, Style.rendition]; intro h1 h2; rw [h1, h2])]
  rw [fold_backgroundColor k _ _ _ _ (by simp [changeBackgroundColor, TextAttributes.style, Style.rendition]; intro h1 h2; rw [h1, h2])]
  rfl

theorem fold_params2 (k : Kind) (r : Rendition) (dst : TextAttributes) : (params2 dst).foldl (select k) r = dst.style.rendition := by
  unfold params2
  simp only [List.foldl_append, List.foldl_nil, List.foldl_cons]
  rw [show select k r 0 = ⟨false, false, false, false, false, none, none⟩ from rfl]
  rw [fold_weight k _ .normal dst.weight _ ⟨rfl, rfl⟩ (by simp; exact fun h => h.symm) (.inr (.inr (.inl rfl)))]
  rw [fold_underline k _ _ _ (by intro h; rw [h])]
  rw [fold_blink k _ _ _ (by intro h; rw [h])]
  rw [fold_reverse k _ _ _ (by intro h; rw [h])]
  rw [fold_color k _ _ _ _ (by intro h; rw [h]; rfl)]
  rw [fold_backgroundColor k _ _ _ _ (by intro h; rw [h]; rfl)]
  rfl

/-! ### C207: Switching between styles -/

/-- Two sequences of changes to attributes produce equal attributes precisely if they describe the same style. -/
theorem C207_equal (ops1 ops2 : List Op) : TextAttributes.make ops1 = TextAttributes.make ops2 ↔ Style.make ops1 = Style.make ops2 := by
  have h1 := make_spec ops1
  have h2 := make_spec ops2
  constructor
  · intro h; rw [← h1.1, ← h2.1, h]
  · intro h; exact style_inj h1.2 h2.2 (by rw [h1.1, h2.1, h])

/-- What is generated switches a terminal of the first kind from the one style to the other. -/
theorem C207_switch (ops1 ops2 : List Op) :
    receiveAll .exclusive (.text, (Style.make ops1).rendition) (change (TextAttributes.make ops1) (TextAttributes.make ops2)) =
      (.text, (Style.make ops2).rendition) := by
  have h1 := make_spec ops1
  have h2 := make_spec ops2
  rw [← h1.1, ← h2.1]
  by_cases h : TextAttributes.make ops2 = TextAttributes.make ops1
  · rw [h]; simp [change, receiveAll]
  · rw [change_receive _ _ _ h]
    split
    · rw [fold_params1 _ _ _ (.inl rfl)]
    · rw [fold_params2]

/-- Nothing is generated precisely if the styles are the same. -/
theorem C207_nothing (ops1 ops2 : List Op) :
    change (TextAttributes.make ops1) (TextAttributes.make ops2) = [] ↔ Style.make ops1 = Style.make ops2 := by
  rw [← C207_equal]
  unfold change
  by_cases h : TextAttributes.make ops2 = TextAttributes.make ops1
  · simp [h]
  · simp only [if_neg h, List.append_eq_nil_iff, List.cons_ne_nil, and_false, false_iff]
    exact fun h' => h h'.symm

example : change (.make []) (.make [.setWeight .bold, .setColor .red]) = "\x1b[1;31m".toList := by decide +kernel
example : change (.make [.setWeight .bold, .setColor .red, .setUnderline true]) (.make [.setColor .green]) = "\x1b[;32m".toList := by decide +kernel
example : change (.make [.setWeight .bold, .setColor .red]) (.make []) = "\x1b[m".toList := by decide +kernel
example : change (.make [.setColor .red, .unsetColor]) (.make []) = [] := by decide +kernel

/-! ### C208: Terminals in which bold and faint are independent -/

/-- What is generated switches a terminal of the second kind from the one style to the other, if the switch is not between bold and faint. -/
theorem C208_switch_partial (ops1 ops2 : List Op)
    (hw : ¬((Style.make ops1).weight = .bold ∧ (Style.make ops2).weight = .faint) ∧
      ¬((Style.make ops1).weight = .faint ∧ (Style.make ops2).weight = .bold)) :
    receiveAll .independent (.text, (Style.make ops1).rendition) (change (TextAttributes.make ops1) (TextAttributes.make ops2)) =
      (.text, (Style.make ops2).rendition) := by
  have h1 := make_spec ops1
  have h2 := make_spec ops2
  rw [← h1.1, ← h2.1] at hw ⊢
  by_cases h : TextAttributes.make ops2 = TextAttributes.make ops1
  · rw [h]; simp [change, receiveAll]
  · rw [change_receive _ _ _ h]
    split
    · rw [fold_params1]
      simp only [TextAttributes.style] at hw
      revert hw
      cases (TextAttributes.make ops1).weight <;> cases (TextAttributes.make ops2).weight <;> simp
    · rw [fold_params2]

/-- Otherwise, the text can end up being both bold and faint. -/
theorem C208_bold_to_faint :
    receiveAll .independent (.text, (Style.make [.setWeight .bold, .setBlink true]).rendition)
        (change (.make [.setWeight .bold, .setBlink true]) (.make [.setWeight .faint, .setBlink true])) =
      (.text, ⟨true, true, false, true, false, none, none⟩) ∧
    (Style.make [.setWeight .faint, .setBlink true]).rendition = ⟨false, true, false, true, false, none, none⟩ := by
  decide +kernel

/-! ### C209: The individual escape sequences, and the size of the buffer -/

/-- Each of the escape sequences changes one thing, when the terminal is of the first kind. -/
theorem C209_single (s : Style) (op : Op) : receiveAll .exclusive (.text, s.rendition) (seqOf op) = (.text, (s.apply op).rendition) := by
  obtain ⟨w, u, b, r, c1, c2⟩ := s
  cases op with
  | setWeight v => cases v <;> cases w <;> rfl
  | setUnderline v => cases v <;> rfl
  | setBlink v => cases v <;> rfl
  | setReverse v => cases v <;> rfl
  | setColor v => cases v <;> rfl
  | unsetColor => rfl
  | setBackgroundColor v => cases v <;> rfl
  | unsetBackgroundColor => rfl

/-- After a reset, the style is the default one, whatever it was, and whatever the kind of terminal. -/
theorem C209_reset (k : Kind) (r : Rendition) : receiveAll k (.text, r) seqReset = (.text, Style.default.rendition) := rfl

theorem len_addArg (s : Writer) (arg : List Char) : (addArg s arg).1.length = s.1.length + (if s.2 then 1 else 0) + arg.length := by
  obtain ⟨b, nf⟩ := s
  cases nf <;> simp [addArg] <;> omega

/-- The length of what has been written, with a semicolon after the last argument. -/
def len (s : Writer) : Nat := s.1.length + if s.2 then 1 else 0

theorem len_addArg' (s : Writer) (arg : List Char) : len (addArg s arg) = len s + arg.length + 1 := by
  rw [len, len_addArg, len]
  simp [addArg]

theorem len_if (c : Bool) (f : Writer → Writer) (s : Writer) (n : Nat) (h : ∀ s, len (f s) = len s + n) :
    len (if c then f s else s) = len s + if c then n else 0 := by
  cases c
  · simp
  · simpa using h s

theorem len_weight (d : TextAttributes) (s : Writer) : len (addWeight d s) = len s + if d.weight != .normal then 2 else 3 := by
  unfold addWeight
  cases d.weight <;> rw [len_addArg'] <;> rfl

theorem len_underline (d : TextAttributes) (s : Writer) : len (addUnderline d s) = len s + if d.underline then 2 else 3 := by
  unfold addUnderline
  cases d.underline <;> simp [len_addArg']

theorem len_blink (d : TextAttributes) (s : Writer) : len (addBlink d s) = len s + if d.blink then 2 else 3 := by
  unfold addBlink
  cases d.blink <;> simp [len_addArg']

theorem len_reverse (d : TextAttributes) (s : Writer) : len (addReverse d s) = len s + if d.reverse then 2 else 3 := by
  unfold addReverse
  cases d.reverse <;> simp [len_addArg']

theorem len_color (d : TextAttributes) (s : Writer) : len (addColor d s) = len s + 3 := by
  unfold addColor
  cases d.hasColor
  · simp [len_addArg']
  · cases d.color <;> simp [len_addArg']

theorem len_backgroundColor (d : TextAttributes) (s : Writer) : len (addBackgroundColor d s) = len s + 3 := by
  unfold addBackgroundColor
  cases d.hasBackgroundColor
  · simp [len_addArg']
  · cases d.backgroundColor <;> simp [len_addArg']

theorem nonfirst_if (c : Bool) (f : Writer → Writer) (s : Writer) (h : ∀ s, (f s).2 = true) : (if c then f s else s).2 = (c || s.2) := by
  cases c
  · simp
  · simpa using h s

theorem len_pos {s : Writer} (h : s.2 = true) : (s.1 ++ ['m']).length = len s := by
  simp [len, h]

theorem nf_weight (d : TextAttributes) (s : Writer) : (addWeight d s).2 = true := by
  unfold addWeight; cases d.weight <;> rfl
theorem nf_underline (d : TextAttributes) (s : Writer) : (addUnderline d s).2 = true := by
  unfold addUnderline; cases d.underline <;> rfl
theorem nf_blink (d : TextAttributes) (s : Writer) : (addBlink d s).2 = true := by
  unfold addBlink; cases d.blink <;> rfl
theorem nf_reverse (d : TextAttributes) (s : Writer) : (addReverse d s).2 = true := by
  unfold addReverse; cases d.reverse <;> rfl
theorem nf_color (d : TextAttributes) (s : Writer) : (addColor d s).2 = true := by
  unfold addColor; cases d.hasColor
  · rfl
  · cases d.color <;> rfl
theorem nf_backgroundColor (d : TextAttributes) (s : Writer) : (addBackgroundColor d s).2 = true := by
  unfold addBackgroundColor; cases d.hasBackgroundColor
  · rfl
  · cases d.backgroundColor <;> rfl

theorem change_length {src dst : TextAttributes} (h : dst ≠ src) :
    (change src dst).length = 2 + if size1 src dst ≤ size2 dst then size1 src dst else size2 dst := by
  unfold change
  rw [if_neg h]
  by_cases hs : size1 src dst ≤ size2 dst
  · simp only [if_pos hs]
    rw [len_pos]
    · rw [len_if _ _ _ _ (len_backgroundColor dst), len_if _ _ _ _ (len_color dst), len_if _ _ _ _ (len_reverse dst),
        len_if _ _ _ _ (len_blink dst), len_if _ _ _ _ (len_underline dst), len_if _ _ _ _ (len_weight dst)]
      simp only [size1, len, List.length_cons, List.length_nil, Bool.false_eq_true, if_false]
      omega
    · rw [nonfirst_if _ _ _ (nf_backgroundColor dst), nonfirst_if _ _ _ (nf_color dst), nonfirst_if _ _ _ (nf_reverse dst),
        nonfirst_if _ _ _ (nf_blink dst), nonfirst_if _ _ _ (nf_underline dst), nonfirst_if _ _ _ (nf_weight dst)]
      obtain ⟨a1, a2, a3, a4, a5, a6, a7, a8⟩ := src
      obtain ⟨b1, b2, b3, b4, b5, b6, b7, b8⟩ := dst
      refine eq_true_of_ne_false (fun hc => h ?_)
      simp [changeWeight, changeUnderline, changeBlink, changeReverse, changeColor, changeBackgroundColor] at hc
      simp [hc]
  · simp only [if_neg hs]
    rw [len_pos]
    · rw [len_if _ _ _ _ (len_backgroundColor dst), len_if _ _ _ _ (len_color dst), len_if _ _ _ _ (len_reverse dst),
        len_if _ _ _ _ (len_blink dst), len_if _ _ _ _ (len_underline dst), len_if _ _ _ _ (len_weight dst), len_addArg']
      simp only [size2, len, List.length_cons, List.length_nil, Bool.false_eq_true, if_false]
      have e1 : (if dst.weight != .normal then (if dst.weight != .normal then 2 else 3) else 0) = if dst.weight != .normal then 2 else 0 := by
        split <;> rfl
      have e2 : (if dst.underline then (if dst.underline then 2 else 3) else 0) = if dst.underline then 2 else 0 := by
        split <;> rfl
      have e3 : (if dst.blink then (if dst.blink then 2 else 3) else 0) = if dst.blink then 2 else 0 := by
        split <;> rfl
      have e4 : (if dst.reverse then (if dst.reverse then 2 else 3) else 0) = if dst.reverse then 2 else 0 := by
        split <;> rfl
      rw [e1, e2, e3, e4]
      omega
    · rw [nonfirst_if _ _ _ (nf_backgroundColor dst), nonfirst_if _ _ _ (nf_color dst), nonfirst_if _ _ _ (nf_reverse dst),
        nonfirst_if _ _ _ (nf_blink dst), nonfirst_if _ _ _ (nf_underline dst), nonfirst_if _ _ _ (nf_weight dst)]
      simp [addArg]

/-- What is generated fits in a buffer of the specified size. -/
theorem C209_fits (src dst : TextAttributes) : (change src dst).length ≤ minChangeBufferSize := by
  by_cases h : dst = src
  · simp [change, h]
  · rw [change_length h]
    have h2 : size2 dst ≤ 15 := by
      unfold size2
      repeat' split
      all_goals omega
    unfold minChangeBufferSize
    split <;> omega

/-! ### C210: The shortest escape sequence -/

/-- The cost of a number. -/
def cost (n : Nat) : Nat := if n = 0 then 1 else if n < 10 then 2 else 3

/-- A lower bound for what it costs to go from one style to another without reset. -/
def dist (s t : Style) : Nat :=
  (if s.weight = t.weight then 0 else if t.weight = .normal then 3 else 2) + (if s.underline = t.underline then 0 else if t.underline then 2 else 3) +
    (if s.blink = t.blink then 0 else if t.blink then 2 else 3) + (if s.reverse = t.reverse then 0 else if t.reverse then 2 else 3) +
    (if s.color = t.color then 0 else 3) + (if s.backgroundColor = t.backgroundColor then 0 else 3)

theorem dist_self (s : Style) : dist s s = 0 := by simp [dist]

theorem boolTerm_le {a b t : Bool} {c : Nat} (h : b = t → (if t then 2 else 3) ≤ c) :
    (if a = t then 0 else if t then 2 else 3) ≤ (if b = t then 0 else if t then 2 else 3) + c := by
  revert h
  cases a <;> cases b <;> cases t <;> simp

theorem weightTerm_le {a b t : Weight} {c : Nat} (h : b = t → (if t = .normal then 3 else 2) ≤ c) :
    (if a = t then 0 else if t = .normal then 3 else 2) ≤ (if b = t then 0 else if t = .normal then 3 else 2) + c := by
  revert h
  cases a <;> cases b <;> cases t <;> simp

theorem colorTerm_le (a b t : Option Color) : (if a = t then 0 else 3) ≤ (if b = t then 0 else 3) + 3 := by
  split <;> split <;> omega

theorem step_dist (s t : Style) (n : Nat) (hn : n ≠ 0) :
    ∃ s', select .exclusive s.rendition n = s'.rendition ∧ dist s t ≤ dist s' t + cost n := by
  obtain ⟨w, u, b, r, c1, c2⟩ := s
  obtain ⟨w', u', b', r', c1', c2'⟩ := t
  by_cases e1 : n = 1
  · subst n
    have hc : cost 1 = 2 := rfl
    refine ⟨⟨.bold, u, b, r, c1, c2⟩, by cases w <;> rfl, ?_⟩
    have := weightTerm_le (a := w) (b := .bold) (t := w') (c := 2) (by rintro rfl; decide)
    simp only [dist] at *; omega
  by_cases e2 : n = 2
  · subst n
    have hc : cost 2 = 2 := rfl
    refine ⟨⟨.faint, u, b, r, c1, c2⟩, by cases w <;> rfl, ?_⟩
    have := weightTerm_le (a := w) (b := .faint) (t := w') (c := 2) (by rintro rfl; decide)
    simp only [dist] at *; omega
  by_cases e4 : n = 4
  · subst n
    have hc : cost 4 = 2 := rfl
    refine ⟨⟨w, true, b, r, c1, c2⟩, rfl, ?_⟩
    have := boolTerm_le (a := u) (b := true) (t := u') (c := 2) (by rintro rfl; decide)
    simp only [dist] at *; omega
  by_cases e5 : n = 5
  · subst n
    have hc : cost 5 = 2 := rfl
    refine ⟨⟨w, u, true, r, c1, c2⟩, rfl, ?_⟩
    have := boolTerm_le (a := b) (b := true) (t := b') (c := 2) (by rintro rfl; decide)
    simp only [dist] at *; omega
  by_cases e7 : n = 7
  · subst n
    have hc : cost 7 = 2 := rfl
    refine ⟨⟨w, u, b, true, c1, c2⟩, rfl, ?_⟩
    have := boolTerm_le (a := r) (b := true) (t := r') (c := 2) (by rintro rfl; decide)
    simp only [dist] at *; omega
  by_cases e22 : n = 22
  · subst n
    have hc : cost 22 = 3 := rfl
    refine ⟨⟨.normal, u, b, r, c1, c2⟩, rfl, ?_⟩
    have := weightTerm_le (a := w) (b := .normal) (t := w') (c := 3) (by rintro rfl; decide)
    simp only [dist] at *; omega
  by_cases e24 : n = 24
  · subst n
    have hc : cost 24 = 3 := rfl
    refine ⟨⟨w, false, b, r, c1, c2⟩, rfl, ?_⟩
    have := boolTerm_le (a := u) (b := false) (t := u') (c := 3) (by rintro rfl; decide)
    simp only [dist] at *; omega
  by_cases e25 : n = 25
  · subst n
    have hc : cost 25 = 3 := rfl
    refine ⟨⟨w, u, false, r, c1, c2⟩, rfl, ?_⟩
    have := boolTerm_le (a := b) (b := false) (t := b') (c := 3) (by rintro rfl; decide)
    simp only [dist] at *; omega
  by_cases e27 : n = 27
  · subst n
    have hc : cost 27 = 3 := rfl
    refine ⟨⟨w, u, b, false, c1, c2⟩, rfl, ?_⟩
    have := boolTerm_le (a := r) (b := false) (t := r') (c := 3) (by rintro rfl; decide)
    simp only [dist] at *; omega
  by_cases e30 : 30 ≤ n ∧ n ≤ 37
  · have h8 : n = 30 ∨ n = 31 ∨ n = 32 ∨ n = 33 ∨ n = 34 ∨ n = 35 ∨ n = 36 ∨ n = 37 := by omega
    have e : ∀ x, dist ⟨w, u, b, r, c1, c2⟩ ⟨w', u', b', r', c1', c2'⟩ ≤ dist ⟨w, u, b, r, x, c2⟩ ⟨w', u', b', r', c1', c2'⟩ + 3 := by
      intro x
      have := colorTerm_le c1 x c1'
      simp only [dist] at *; omega
    rcases h8 with rfl | rfl | rfl | rfl | rfl | rfl | rfl | rfl
    · exact ⟨⟨w, u, b, r, some .black, c2⟩, rfl, e _⟩
    · exact ⟨⟨w, u, b, r, some .red, c2⟩, rfl, e _⟩
    · exact ⟨⟨w, u, b, r, some .green, c2⟩, rfl, e _⟩
    · exact ⟨⟨w, u, b, r, some .yellow, c2⟩, rfl, e _⟩
    · exact ⟨⟨w, u, b, r, some .blue, c2⟩, rfl, e _⟩
    · exact ⟨⟨w, u, b, r, some .magenta, c2⟩, rfl, e _⟩
    · exact ⟨⟨w, u, b, r, some .cyan, c2⟩, rfl, e _⟩
    · exact ⟨⟨w, u, b, r, some .white, c2⟩, rfl, e _⟩
  by_cases e39 : n = 39
  · subst n
    have hc : cost 39 = 3 := rfl
    refine ⟨⟨w, u, b, r, none, c2⟩, rfl, ?_⟩
    have := colorTerm_le c1 none c1'
    simp only [dist] at *; omega
  by_cases e40 : 40 ≤ n ∧ n ≤ 47
  · have h8 : n = 40 ∨ n = 41 ∨ n = 42 ∨ n = 43 ∨ n = 44 ∨ n = 45 ∨ n = 46 ∨ n = 47 := by omega
    have e : ∀ x, dist ⟨w, u, b, r, c1, c2⟩ ⟨w', u', b', r', c1', c2'⟩ ≤ dist ⟨w, u, b, r, c1, x⟩ ⟨w', u', b', r', c1', c2'⟩ + 3 := by
      intro x
      have := colorTerm_le c2 x c2'
      simp only [dist] at *; omega
    rcases h8 with rfl | rfl | rfl | rfl | rfl | rfl | rfl | rfl
    · exact ⟨⟨w, u, b, r, c1, some .black⟩, rfl, e _⟩
    · exact ⟨⟨w, u, b, r, c1, some .red⟩, rfl, e _⟩
    · exact ⟨⟨w, u, b, r, c1, some .green⟩, rfl, e _⟩
    · exact ⟨⟨w, u, b, r, c1, some .yellow⟩, rfl, e _⟩
    · exact ⟨⟨w, u, b, r, c1, some .blue⟩, rfl, e _⟩
    · exact ⟨⟨w, u, b, r, c1, some .magenta⟩, rfl, e _⟩
    · exact ⟨⟨w, u, b, r, c1, some .cyan⟩, rfl, e _⟩
    · exact ⟨⟨w, u, b, r, c1, some .white⟩, rfl, e _⟩
  by_cases e49 : n = 49
  · subst n
    have hc : cost 49 = 3 := rfl
    refine ⟨⟨w, u, b, r, c1, none⟩, rfl, ?_⟩
    have := colorTerm_le c2 none c2'
    simp only [dist] at *; omega
  refine ⟨⟨w, u, b, r, c1, c2⟩, ?_, Nat.le_add_right _ _⟩
  unfold select
  rw [if_neg hn, if_neg e1, if_neg e2, if_neg e4, if_neg e5, if_neg e7, if_neg e22, if_neg e24, if_neg e25, if_neg e27, if_neg e30, if_neg e39,
    if_neg e40, if_neg e49]

theorem rendition_inj {s t : Style} (h : s.rendition = t.rendition) : s = t := by
  obtain ⟨w, u, b, r, c1, c2⟩ := s
  obtain ⟨w', u', b', r', c1', c2'⟩ := t
  simp only [Style.rendition, Rendition.mk.injEq] at h
  obtain ⟨h1, h2, rfl, rfl, rfl, rfl, rfl⟩ := h
  revert h1 h2
  cases w <;> cases w' <;> simp

theorem cost_lower (t : Style) : ∀ (l : List Nat) (s : Style), l.foldl (select .exclusive) s.rendition = t.rendition →
    dist s t ≤ (l.map cost).sum ∨ 1 + dist Style.default t ≤ (l.map cost).sum := by
  intro l
  induction l with
  | nil =>
    intro s h
    rw [rendition_inj h, dist_self]
    exact .inl (Nat.zero_le _)
  | cons n l ih =>
    intro s h
    rw [List.foldl_cons] at h
    rw [List.map_cons, List.sum_cons]
    by_cases hn : n = 0
    · subst hn
      rw [show select .exclusive s.rendition 0 = Style.default.rendition from rfl] at h
      have e : cost 0 = 1 := rfl
      rcases ih _ h with h | h <;> right <;> omega
    · obtain ⟨s', h1, h2⟩ := step_dist s t n hn
      rw [h1] at h
      rcases ih _ h with h | h
      · left; omega
      · right; omega

/-- The parameters of an escape sequence. -/
def joined : List (List Char) → List Char
  | [] => []
  | [a] => a
  | a :: args => a ++ ';' :: joined args

theorem value_lt (arg : List Char) (h : arg.all Char.isDigit = true) : cost (value arg 0) ≤ arg.length + 1 := by
  cases arg with
  | nil => decide
  | cons c arg =>
    cases arg with
    | nil =>
      have hc : value [c] 0 < 10 := by
        simp only [List.all_cons, List.all_nil, Bool.and_true, Char.isDigit, Bool.and_eq_true, decide_eq_true_eq] at h
        have h1 : c.val.toNat ≤ 57 := UInt32.le_iff_toNat_le.mp h.2
        show 10 * 0 + (c.toNat - 48) < 10
        have : c.toNat = c.val.toNat := rfl
        omega
      by_cases h0 : value [c] 0 = 0
      · simp [cost, h0]
      · simp [cost, h0, hc]
    | cons d arg =>
      have : cost (value (c :: d :: arg) 0) ≤ 3 := by
        unfold cost; split
        · omega
        · split <;> omega
      simp only [List.length_cons]
      omega

theorem receive_joined (k : Kind) (r : Rendition) : ∀ (args : List (List Char)) (prev : List Nat), args ≠ [] →
    (∀ a ∈ args, a.all Char.isDigit = true) →
    receiveAll k (.params 0 prev, r) (joined args ++ ['m']) = (.text, (prev ++ args.map (value · 0)).foldl (select k) r) := by
  intro args
  induction args with
  | nil => intro prev h; exact absurd rfl h
  | cons a args ih =>
    intro prev _ h
    have ha := receive_digits k r prev a 0 (h a (by simp))
    cases args with
    | nil =>
      simp only [joined, receiveAll, List.foldl_append] at *
      rw [ha, ← List.foldl_append]
      rfl
    | cons b args =>
      have ih' := ih (prev ++ [value a 0]) (by simp) (fun x hx => h x (by simp at hx ⊢; right; exact hx))
      rw [joined, List.append_assoc, List.cons_append]
      · rw [receiveAll, List.foldl_append]
        rw [receiveAll] at ha
        rw [ha, List.foldl_cons]
        have e : receive k (.params (value a 0) prev, r) ';' = (.params 0 (prev ++ [value a 0]), r) := rfl
        rw [e]
        rw [receiveAll] at ih'
        rw [ih']
        simp
      · simp

theorem joined_length : ∀ (args : List (List Char)), args ≠ [] → (∀ a ∈ args, a.all Char.isDigit = true) →
    ((args.map (value · 0)).map cost).sum ≤ (joined args).length + 1 := by
  intro args
  induction args with
  | nil => intro h; exact absurd rfl h
  | cons a args ih =>
    intro _ h
    have ha := value_lt a (h a (by simp))
    cases args with
    | nil => simpa [joined] using ha
    | cons b args =>
      have ih' := ih (by simp) (fun x hx => h x (by simp at hx ⊢; right; exact hx))
      rw [joined]
      · rw [List.map_cons, List.map_cons, List.sum_cons, List.length_append, List.length_cons]
        omega
      · simp

theorem size1_eq {src dst : TextAttributes} (h1 : src.Canonical) (h2 : dst.Canonical) : size1 src dst = dist src.style dst.style := by
  obtain ⟨a1, a2, a3, a4, a5, a6, a7, a8⟩ := src
  obtain ⟨b1, b2, b3, b4, b5, b6, b7, b8⟩ := dst
  have ew : (if b1 != a1 then (if b1 != .normal then 2 else 3) else 0) = if a1 = b1 then 0 else if b1 = .normal then 3 else 2 := by
    cases a1 <;> cases b1 <;> rfl
  have eb : ∀ a b : Bool, (if b != a then (if b then 2 else 3) else 0) = if a = b then 0 else if b then 2 else 3 := by decide
  have ec : ∀ (a b : Bool) (x y : Color), (a = false → x = .black) → (b = false → y = .black) →
      (if (b != a || y != x) then 3 else 0) = if (if a then some x else none) = (if b then some y else none) then 0 else 3 := by
    intro a b x y hx hy
    cases a <;> cases b
    · rw [hx rfl, hy rfl]; rfl
    · simp
    · simp
    · by_cases hxy : x = y
      · simp [hxy]
      · simp [hxy, Ne.symm hxy]
  show (if b1 != a1 then (if b1 != .normal then 2 else 3) else 0) + (if b2 != a2 then (if b2 then 2 else 3) else 0) +
    (if b3 != a3 then (if b3 then 2 else 3) else 0) + (if b4 != a4 then (if b4 then 2 else 3) else 0) +
    (if (b5 != a5 || b6 != a6) then 3 else 0) + (if (b7 != a7 || b8 != a8) then 3 else 0) = _
  rw [ew, eb, eb, eb, ec _ _ _ _ h1.1 h2.1, ec _ _ _ _ h1.2 h2.2]
  rfl

theorem size2_eq (dst : TextAttributes) : size2 dst = 1 + dist Style.default dst.style := by
  obtain ⟨b1, b2, b3, b4, b5, b6, b7, b8⟩ := dst
  simp only [size2, dist, TextAttributes.style, Style.default]
  cases b1 <;> cases b2 <;> cases b3 <;> cases b4 <;> cases b5 <;> cases b7 <;> rfl

/-- Of all escape sequences that switch from the one style to the other, none is shorter than the one that is generated. -/
theorem C210_shortest (ops1 ops2 : List Op) (args : List (List Char)) (hne : args ≠ []) (hd : ∀ a ∈ args, a.all Char.isDigit = true)
    (h : receiveAll .exclusive (.text, (Style.make ops1).rendition) (['\x1b', '['] ++ joined args ++ ['m']) =
      (.text, (Style.make ops2).rendition)) :
    (change (TextAttributes.make ops1) (TextAttributes.make ops2)).length ≤ (['\x1b', '['] ++ joined args ++ ['m']).length := by
  have h1 := make_spec ops1
  have h2 := make_spec ops2
  by_cases heq : TextAttributes.make ops2 = TextAttributes.make ops1
  · simp [change, heq]
  · have h' : receiveAll .exclusive (.params 0 [], (Style.make ops1).rendition) (joined args ++ ['m']) = (.text, (Style.make ops2).rendition) := h
    rw [receive_joined _ _ args [] hne hd] at h'
    have h'' := cost_lower _ _ _ (Prod.mk.inj h').2
    have h3 := joined_length args hne hd
    rw [change_length heq, size1_eq h1.2 h2.2, size2_eq, h1.1, h2.1]
    simp only [List.length_append, List.length_cons, List.length_nil, List.nil_append] at *
    split <;> omega

example : (change (.make [.setWeight .bold, .setUnderline true]) (.make [.setUnderline true])) = "\x1b[22m".toList := by decide +kernel
example : (change (.make [.setWeight .bold, .setBlink true, .setUnderline true]) (.make [.setUnderline true])) = "\x1b[;4m".toList := by decide +kernel
example : ['\x1b', '['] ++ joined [['2', '2'], ['2', '5']] ++ ['m'] = "\x1b[22;25m".toList := by decide +kernel
example : (change (.make []) (.make [.setWeight .bold, .setBlink true, .setUnderline true, .setReverse true, .setColor .white,
    .setBackgroundColor .blue])).length = 16 := by decide +kernel

end Verif.Terminal
