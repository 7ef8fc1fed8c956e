import Verif.ImageFormat.Lemmas

/-!
# Properties of the registry of image file formats, and of file format detection (C160, C161, C162, C163)
-/

namespace Verif.ImageFormat

open Verif.FlatMap.Spec (SWO eqv)
open Verif.Streams

variable {F K α σ β : Type}

/-! ## C160 -/

/-- After any sequence of registrations, the file formats are listed in order of registration, looking up an identifier gives the first one
with that identifier, or nothing if there are none, and looking up a MIME type or filename extension gives exactly those that list it, in
order of registration. -/
theorem C160_lookup [DecidableEq K] {lt : K → K → Bool} (w : SWO lt) (hs : Strict lt) (I : Info F K) (fs : List F) :
    ∃ r, registerAll lt I fs {} = some (some r) ∧ r.formats = fs ∧
      (∀ k, r.lookup lt k = some (fs.find? (fun f => decide (I.ident f = k)))) ∧
      (∀ k, r.everyByMime lt k = some (having I.mimes fs k)) ∧ (∀ k, r.everyByExt lt k = some (having I.exts fs k)) ∧
      (∀ k, r.firstByMime lt k = some (fs.find? (fun f => decide (k ∈ I.mimes f)))) ∧
      (∀ k, r.firstByExt lt k = some (fs.find? (fun f => decide (k ∈ I.exts f)))) := by
  have hh : ∀ (keys : F → List K) (k : K) (fs : List F), (having keys fs k).head? = fs.find? (fun f => decide (k ∈ keys f)) := by
    intro keys k fs
    induction fs with
    | nil => rfl
    | cons f fs ih =>
      simp only [having, List.flatMap_cons, List.find?_cons] at ih ⊢
      by_cases hk : k ∈ keys f
      · have : (keys f).filter (fun x => decide (x = k)) ≠ [] := by
          intro h
          rw [List.filter_eq_nil_iff] at h
          exact h k hk (by simp)
        obtain ⟨x, l, hx⟩ := List.exists_cons_of_ne_nil this
        simp [hx, hk]
      · have : (keys f).filter (fun x => decide (x = k)) = [] := by
          rw [List.filter_eq_nil_iff]
          intro x hx hxk
          simp only [decide_eq_true_eq] at hxk
          subst hxk
          exact hk hx
        rw [this, List.map_nil, List.nil_append, ih]
        simp [hk]
  obtain ⟨r, e, h⟩ := registerAll_spec w I fs [] {} (empty_is lt I)
  rw [List.nil_append] at h
  refine ⟨r, e, h.formats, fun k => ?_, fun k => every_spec w hs h.formats _ h.byMime k, fun k => every_spec w hs h.formats _ h.byExt k,
    fun k => ?_, fun k => ?_⟩
  · rw [lookup_spec w I h]
    congr 2
    funext f
    rw [Bool.eq_iff_iff, eqv_iff w hs, decide_eq_true_eq]
  · rw [Registry.firstByMime, first_spec w hs h.formats _ h.byMime k, hh]
  · rw [Registry.firstByExt, first_spec w hs h.formats _ h.byExt k, hh]

/-- When the identifiers are different, every file format can be found by its identifier. -/
theorem C160_find [DecidableEq K] {lt : K → K → Bool} (w : SWO lt) (hs : Strict lt) (I : Info F K) (fs : List F)
    (hd : fs.Pairwise (fun f g => I.ident f ≠ I.ident g)) :
    ∃ r, registerAll lt I fs {} = some (some r) ∧ ∀ f ∈ fs, r.lookup lt (I.ident f) = some (some f) := by
  obtain ⟨r, e, hfs, h, hrest⟩ := C160_lookup w hs I fs
  refine ⟨r, e, fun f hf => ?_⟩
  rw [h]
  clear h e hfs hrest
  induction fs with
  | nil => cases hf
  | cons g fs ih =>
    rw [List.pairwise_cons] at hd
    rw [List.find?_cons]
    rcases List.mem_cons.1 hf with rfl | hf
    · simp
    · rw [show decide (I.ident g = I.ident f) = false by simpa using hd.1 f hf]
      exact ih hd.2 hf

/-- A format that lists a MIME type is among those that are found through it. -/
theorem C160_having [DecidableEq K] (keys : F → List K) (fs : List F) (k : K) (f : F) :
    f ∈ having keys fs k ↔ f ∈ fs ∧ k ∈ keys f := by
  simp only [having, List.mem_flatMap, List.mem_map, List.mem_filter, decide_eq_true_eq]
  constructor
  · rintro ⟨g, hg, x, ⟨hx, rfl⟩, rfl⟩; exact ⟨hg, hx⟩
  · rintro ⟨hf, hk⟩; exact ⟨f, hf, k, ⟨hk, rfl⟩, rfl⟩

/-- Three file formats. The identifier, the filename extensions, and the MIME types are numbers. -/
def exInfo : Info ℕ ℕ := ⟨fun f => 100 - f, fun f => [f % 2, 7], fun f => if f = 2 then [] else [30 + f, 50]⟩
def ltNat (a b : ℕ) : Bool := decide (a < b)

example : (registerAll ltNat exInfo [3, 1, 2] {}).map (fun r => r.map (fun r => (r.formats, r.map, r.byExt))) =
    some (some ([3, 1, 2], [(97, 0), (98, 2), (99, 1)], [(0, 2), (1, 0), (1, 1), (7, 0), (7, 1), (7, 2)])) := by decide +kernel
example : ((registerAll ltNat exInfo [3, 1, 2] {}).bind (fun r => r.bind (fun r => r.everyByExt ltNat 1))) = some [3, 1] := by decide +kernel
example : ((registerAll ltNat exInfo [3, 1, 2] {}).bind (fun r => r.bind (fun r => r.firstByMime ltNat 50))) = some (some 3) := by decide +kernel
example : ((registerAll ltNat exInfo [3, 1, 2] {}).bind (fun r => r.bind (fun r => r.lookup ltNat 98))) = some (some 2) := by decide +kernel

/-! ## C161 -/

/-- FULL STATEMENT (false): registration throws if the registry already contains the specified file format, or another file format with the same
identifier. What is true is that registration succeeds when there is no such file format. -/
theorem C161_register_partial {lt : K → K → Bool} (w : SWO lt) (hs : Strict lt) (I : Info F K) (fs : List F) (f : F)
    (_hf : ∀ g ∈ fs, I.ident g ≠ I.ident f) :
    ∃ r r', registerAll lt I fs {} = some (some r) ∧ r.register lt I f = some (some r') ∧ r'.formats = fs ++ [f] ∧
      r'.lookup lt (I.ident f) = some (some f) := by
  obtain ⟨r, e, h⟩ := registerAll_spec w I fs [] {} (empty_is lt I)
  rw [List.nil_append] at h
  obtain ⟨r', e', h'⟩ := register_spec w I h f
  refine ⟨r, r', e, e', h'.formats, ?_⟩
  rw [lookup_spec w I h', List.find?_append]
  have hn : fs.find? (fun g => eqv lt (I.ident g) (I.ident f)) = none := by
    rw [List.find?_eq_none]
    intro g hg hc
    exact _hf g hg (hs _ _ hc)
  simp [hn, (eqv_iff w hs _ _).2]

/-- Counterexample to the full statement: the same file format can be registered twice. -/
theorem C161_same_format_accepted :
    (registerAll ltNat exInfo [3, 3] {}).map (fun r => r.map (fun r => r.formats)) = some (some [3, 3]) := by decide +kernel

/-- Registration never throws on account of duplicates, and a file format with an identifier that is already in use cannot be found by its
identifier. -/
theorem C161_duplicate_accepted {lt : K → K → Bool} (w : SWO lt) (hs : Strict lt) (I : Info F K) (fs : List F) (f g : F) (hg : g ∈ fs)
    (hi : I.ident g = I.ident f) (hf : f ∉ fs) :
    ∃ r r', registerAll lt I fs {} = some (some r) ∧ r.register lt I f = some (some r') ∧ r'.formats = fs ++ [f] ∧
      ∃ h, r'.lookup lt (I.ident f) = some (some h) ∧ h ≠ f := by
  obtain ⟨r, e, h⟩ := registerAll_spec w I fs [] {} (empty_is lt I)
  rw [List.nil_append] at h
  obtain ⟨r', e', h'⟩ := register_spec w I h f
  refine ⟨r, r', e, e', h'.formats, ?_⟩
  rw [lookup_spec w I h', List.find?_append]
  cases hx : fs.find? (fun g => eqv lt (I.ident g) (I.ident f)) with
  | none =>
    rw [List.find?_eq_none] at hx
    exact absurd ((eqv_iff w hs _ _).2 hi) (hx g hg)
  | some x =>
    exact ⟨x, by simp, fun hc => hf (hc ▸ List.mem_of_find?_eq_some hx)⟩

/-! ## C162 -/

/-- Loading with file format detection, for any source, any way in which it delivers pieces, any registered file formats, and any MIME type and
filename extension, each of which may be missing: the file formats are tried in order, with those that go with the MIME type first, then those
that go with the filename extension, and then the rest. The first one that recognizes the input is used. Everyone of those that are asked gets
to see the input from the beginning, no matter how much the others have read, and so does the loader. Detection fails only if every
registered file format refuses. -/
theorem C162_detection [DecidableEq F] [DecidableEq K] {lt : K → K → Bool} (w : SWO lt) (hs : Strict lt) (I : Info F K) (fs : List F)
    {R : Reader α σ} {rest : σ → List α} {ok : σ → Prop} {grow : ℕ → ℕ} {mayFail : Bool} (hR : Conforms R rest ok)
    (hN : mayFail = false → NeverFails R ok) (hg : ∀ n, n < grow n) (S : Skills F α β) (mime ext : Option K) (s : σ) (h : ok s) :
    ∃ r res, registerAll lt I fs {} = some (some r) ∧ tryLoad lt R grow S r none mime ext s = some res ∧
      Correct mayFail S (candidates (mime.elim [] (having I.mimes fs)) (ext.elim [] (having I.exts fs)) fs) (rest s) res := by
  obtain ⟨r, e, hf, _, hm, he, _⟩ := C160_lookup w hs I fs
  have hm' : unlessEmpty mime [] (r.everyByMime lt) = some (mime.elim [] (having I.mimes fs)) := by
    cases mime with
    | none => rfl
    | some m => exact hm m
  have he' : unlessEmpty ext [] (r.everyByExt lt) = some (ext.elim [] (having I.exts fs)) := by
    cases ext with
    | none => rfl
    | some m => exact he m
  generalize mime.elim [] (having I.mimes fs) = A at hm'
  generalize ext.elim [] (having I.exts fs) = B at he'
  have h0 : ({ sub := s } : Rewindable α σ).Is rest ok ⟨rest s, 0, false⟩ :=
    ⟨h, by simp, rfl, by simp [Rewindable.rest], fun _ => ⟨by simp, rfl⟩, by simp⟩
  have det : ∃ found s', detect lt R grow S r mime ext { sub := s } = some (found, s') ∧ s'.Is rest ok ⟨rest s, 0, false⟩ ∧
      match found with
      | some f => ∃ pre post, candidates A B fs = pre ++ f :: post ∧
          (∀ g ∈ pre, Possible mayFail (S.recognize g) (rest s) false) ∧ Possible mayFail (S.recognize f) (rest s) true
      | none => ∀ g ∈ candidates A B fs, Possible mayFail (S.recognize g) (rest s) false := by
    have c1 : A.filter (fun f => decide (f ∉ ([] : List F))) = A := by simp
    have c2 : B.filter (fun f => decide (f ∉ [] ++ A)) = B.filter (fun f => decide (f ∉ A)) := by simp
    have c3 : fs.filter (fun f => decide (f ∉ [] ++ A ++ B)) = fs.filter (fun f => decide (f ∉ A ∧ f ∉ B)) := by
      congr 1; funext f; simp
    obtain ⟨f1, s1, e1, h1, m1⟩ := tryAll_spec hR hN hg S [] (rest s) A { sub := s } h0
    rw [c1] at m1
    unfold detect
    simp only [hm', he', Option.bind_eq_bind, Option.bind_some, e1]
    cases f1 with
    | some f =>
      obtain ⟨pre, post, a, b, c⟩ := m1
      exact ⟨some f, s1, rfl, h1, pre, post ++ (B.filter (fun f => decide (f ∉ A)) ++ fs.filter (fun f => decide (f ∉ A ∧ f ∉ B))),
        by unfold candidates; rw [a]; simp only [List.append_assoc, List.cons_append], b, c⟩
    | none =>
      obtain ⟨f2, s2, e2, h2, m2⟩ := tryAll_spec hR hN hg S ([] ++ A) (rest s) B s1 h1
      rw [c2] at m2
      simp only [e2, Option.bind_some]
      cases f2 with
      | some f =>
        obtain ⟨pre, post, a, b, c⟩ := m2
        refine ⟨some f, s2, rfl, h2, A ++ pre, post ++ fs.filter (fun f => decide (f ∉ A ∧ f ∉ B)), by unfold candidates; rw [a]; simp only [List.append_assoc, List.cons_append], ?_, c⟩
        intro g hgm
        rcases List.mem_append.1 hgm with hgm | hgm
        · exact m1 g hgm
        · exact b g hgm
      | none =>
        obtain ⟨f3, s3, e3, h3, m3⟩ := tryAll_spec hR hN hg S ([] ++ A ++ B) (rest s) fs s2 h2
        rw [c3] at m3
        rw [hf]
        simp only [e3]
        refine ⟨f3, s3, rfl, h3, ?_⟩
        have m12 : ∀ g ∈ A ++ B.filter (fun f => decide (f ∉ A)), Possible mayFail (S.recognize g) (rest s) false := by
          intro g hgm
          rcases List.mem_append.1 hgm with hgm | hgm
          · exact m1 g hgm
          · exact m2 g hgm
        cases f3 with
        | some f =>
          obtain ⟨pre, post, a, b, c⟩ := m3
          refine ⟨A ++ B.filter (fun f => decide (f ∉ A)) ++ pre, post, by unfold candidates; rw [a]; simp only [List.append_assoc, List.cons_append], ?_, c⟩
          intro g hgm
          rcases List.mem_append.1 hgm with hgm | hgm
          · exact m12 g hgm
          · exact b g hgm
        | none =>
          intro g hgm
          rcases List.mem_append.1 hgm with hgm | hgm
          · exact m12 g hgm
          · exact m3 g hgm
  obtain ⟨found, s', ed, hd, md⟩ := det
  refine ⟨r, ?_⟩
  unfold tryLoad
  simp only [ed, Option.bind_eq_bind, Option.bind_some]
  cases found with
  | none => exact ⟨.detectionFailed, e, rfl, md⟩
  | some f =>
    have hrel : s'.release.Is rest ok ⟨rest s, 0, true⟩ := ⟨hd.sub, hd.offset, rfl, hd.drop, by simp [Rewindable.release], by simp⟩
    obtain ⟨b, s'', eb, _, hb⟩ := prog_run_spec (rewindable_conforms hR hg (rest s) true)
      (fun hm => rewindable_never_fails grow (hN hm) (rest s) true) (S.load f) s'.release ⟨0, hrel⟩
    have hin : Rewindable.rest rest s'.release = rest s := by simpa using hrel.drop
    rw [hin] at hb
    obtain ⟨pre, post, a, b', c⟩ := md
    exact ⟨.loaded f b, e, by simp [eb], pre, post, a, b', c, hb⟩

/-- The candidates are exactly the registered file formats. -/
theorem C162_candidates [DecidableEq F] [DecidableEq K] (I : Info F K) (fs : List F) (mime ext : Option K) (f : F) :
    f ∈ candidates (mime.elim [] (having I.mimes fs)) (ext.elim [] (having I.exts fs)) fs ↔ f ∈ fs := by
  have h1 : f ∈ mime.elim [] (having I.mimes fs) → f ∈ fs := by
    cases mime with
    | none => intro h; cases h
    | some m => intro h; exact ((C160_having _ _ _ _).1 h).1
  have h2 : f ∈ ext.elim [] (having I.exts fs) → f ∈ fs := by
    cases ext with
    | none => intro h; cases h
    | some m => intro h; exact ((C160_having _ _ _ _).1 h).1
  simp only [candidates, List.mem_append, List.mem_filter, decide_eq_true_eq]
  constructor
  · rintro ((h | h) | h)
    · exact h1 h
    · exact h2 h.1
    · exact h.1
  · intro h
    by_cases ha : f ∈ mime.elim [] (having I.mimes fs)
    · exact Or.inl (Or.inl ha)
    · by_cases hb : f ∈ ext.elim [] (having I.exts fs)
      · exact Or.inl (Or.inr ⟨hb, ha⟩)
      · exact Or.inr ⟨h, ha, hb⟩

/-- When every file format is recognized by a signature at the beginning of the input, and reading never fails, the file format that is used is
the first candidate whose signature is at the beginning of the input, no matter how the input is delivered. -/
theorem C162_by_signature [DecidableEq F] [DecidableEq K] [DecidableEq α] {lt : K → K → Bool} (w : SWO lt) (hs : Strict lt) (I : Info F K)
    (fs : List F) {R : Reader α σ} {rest : σ → List α} {ok : σ → Prop} {grow : ℕ → ℕ} (hR : Conforms R rest ok) (hN : NeverFails R ok)
    (hg : ∀ n, n < grow n) (sig : F → List α) (load : F → Prog α β) (mime ext : Option K) (s : σ) (h : ok s) :
    ∃ r res, registerAll lt I fs {} = some (some r) ∧
      tryLoad lt R grow ⟨fun f => bySignature (sig f), load⟩ r none mime ext s = some res ∧
      match (candidates (mime.elim [] (having I.mimes fs)) (ext.elim [] (having I.exts fs)) fs).find? (fun f => decide (sig f <+: rest s)) with
      | some f => ∃ b, res = .loaded f b ∧ Possible false (load f) (rest s) b
      | none => res = .detectionFailed := by
  obtain ⟨r, res, e, e', hc⟩ := C162_detection w hs I fs hR (mayFail := false) (fun _ => hN) hg ⟨fun f => bySignature (sig f), load⟩ mime ext s h
  refine ⟨r, res, e, e', ?_⟩
  generalize candidates (mime.elim [] (having I.mimes fs)) (ext.elim [] (having I.exts fs)) fs = C at hc
  cases res with
  | loaded f b =>
    obtain ⟨pre, post, rfl, h1, h2, h3⟩ := hc
    have hpre : pre.find? (fun f => decide (sig f <+: rest s)) = none := by
      rw [List.find?_eq_none]
      intro g hg hc
      rw [← bySignature_possible _ _ _ (h1 g hg)] at hc
      cases hc
    have hf := bySignature_possible _ _ _ h2
    rw [List.find?_append, hpre, List.find?_cons, ← hf]
    exact ⟨b, rfl, h3⟩
  | detectionFailed =>
    have : C.find? (fun f => decide (sig f <+: rest s)) = none := by
      rw [List.find?_eq_none]
      intro g hg hc'
      rw [← bySignature_possible _ _ _ (hc g hg)] at hc'
      cases hc'
    rw [this]
  | unavailable => exact hc.elim

/-- Recognition by signature never accepts input with a different beginning, even if reading fails. -/
theorem C162_signature_required [DecidableEq α] (sig input : List α) (h : Possible true (bySignature sig) input true) : sig <+: input :=
  bySignature_possible_true sig input h

/-- When a file format is asked for, that one is used, without asking it to recognize the input. If it is not registered, loading fails. -/
theorem C162_explicit [DecidableEq F] [DecidableEq K] {lt : K → K → Bool} (w : SWO lt) (hs : Strict lt) (I : Info F K) (fs : List F)
    {R : Reader α σ} {rest : σ → List α} {ok : σ → Prop} (grow : ℕ → ℕ) {mayFail : Bool} (hR : Conforms R rest ok)
    (hN : mayFail = false → NeverFails R ok) (S : Skills F α β) (ident : K) (mime ext : Option K) (s : σ) (h : ok s) :
    ∃ r res, registerAll lt I fs {} = some (some r) ∧ tryLoad lt R grow S r (some ident) mime ext s = some res ∧
      match fs.find? (fun f => decide (I.ident f = ident)) with
      | some f => ∃ b, res = .loaded f b ∧ Possible mayFail (S.load f) (rest s) b
      | none => res = .unavailable := by
  obtain ⟨r, e, _, hl, _⟩ := C160_lookup w hs I fs
  refine ⟨r, ?_⟩
  unfold tryLoad
  simp only [hl, Option.bind_eq_bind, Option.bind_some]
  cases hx : fs.find? (fun f => decide (I.ident f = ident)) with
  | none => exact ⟨.unavailable, e, rfl, rfl⟩
  | some f =>
    obtain ⟨b, s', eb, _, hb⟩ := prog_run_spec hR hN (S.load f) s h
    exact ⟨.loaded f b, e, by simp [eb], b, rfl, hb⟩

/-- The formats recognize different beginnings, and loading gives the first four elements of the input. -/
def exSkills : Skills ℕ ℕ (List ℕ) :=
  ⟨fun f => bySignature (if f = 3 then [8, 9] else if f = 1 then [8, 7] else [8]), fun _ => Prog.readAll (fun _ l => .done l) 5 [] 4⟩

/-- A file where the system calls deliver few elements at a time. -/
def exFile : TextFile.File ℕ := ⟨[8, 7, 6, 5, 4], 0, true, false, [some 0, some 0, some 1, some 0]⟩

def shown (r : Option (Result ℕ (List ℕ))) : Option (ℕ × List ℕ) :=
  match r with
  | some (.loaded f b) => some (f, b)
  | some .detectionFailed => some (0, [])
  | some .unavailable => some (1000, [])
  | none => none

example : ((registerAll ltNat exInfo [3, 1, 2] {}).bind (fun r => r.bind (fun r =>
    shown (tryLoad ltNat fileSource (· + 1) exSkills r none none none exFile)))) = some (1, [8, 7, 6, 5]) := by decide +kernel
example : ((registerAll ltNat exInfo [3, 1, 2] {}).bind (fun r => r.bind (fun r =>
    shown (tryLoad ltNat fileSource (· + 4) exSkills r none (some 33) (some 0) exFile)))) = some (2, [8, 7, 6, 5]) := by decide +kernel
example : ((registerAll ltNat exInfo [3, 1, 2] {}).bind (fun r => r.bind (fun r =>
    shown (tryLoad ltNat fileSource (· + 4) exSkills r (some 97) none none exFile)))) = some (3, [8, 7, 6, 5]) := by decide +kernel
example : ((registerAll ltNat exInfo [3, 1] {}).bind (fun r => r.bind (fun r =>
    shown (tryLoad ltNat fileSource (· + 4) exSkills r none (some 50) none { exFile with content := [8, 6] })))) = some (0, []) := by decide +kernel

/-! ## C163 -/

/-- The file format that is used when saving an image is the one that is asked for. If none is asked for, it is the first one that goes with
the MIME type. If there is none, it is the first one that goes with the filename extension. -/
theorem C163_save [DecidableEq K] {lt : K → K → Bool} (w : SWO lt) (hs : Strict lt) (I : Info F K) (fs : List F) (ident mime ext : Option K) :
    ∃ r, registerAll lt I fs {} = some (some r) ∧ chooseForSaving lt r ident mime ext = some (
      match ident with
      | some k => ((fs.find? (fun f => decide (I.ident f = k))).map Choice.format).getD .unavailable
      | none => (((fs.find? (fun f => decide (∃ k ∈ mime, k ∈ I.mimes f))).or (fs.find? (fun f => decide (∃ k ∈ ext, k ∈ I.exts f)))).map
          Choice.format).getD .detectionFailed) := by
  obtain ⟨r, e, _, hl, _, _, hm, he⟩ := C160_lookup w hs I fs
  refine ⟨r, e, ?_⟩
  unfold chooseForSaving
  cases ident with
  | some k =>
    simp only [hl, Option.bind_eq_bind, Option.bind_some]
    cases fs.find? (fun f => decide (I.ident f = k)) <;> rfl
  | none =>
    have hnone : fs.find? (fun _ => false) = none := by rw [List.find?_eq_none]; simp
    have hm' : unlessEmpty mime none (r.firstByMime lt) = some (fs.find? (fun f => decide (∃ k ∈ mime, k ∈ I.mimes f))) := by
      cases mime with
      | none => simp [unlessEmpty, hnone]
      | some k => simp [unlessEmpty, hm]
    have he' : unlessEmpty ext none (r.firstByExt lt) = some (fs.find? (fun f => decide (∃ k ∈ ext, k ∈ I.exts f))) := by
      cases ext with
      | none => simp [unlessEmpty, hnone]
      | some k => simp [unlessEmpty, he]
    simp only [hm', he', Option.bind_eq_bind, Option.bind_some]
    cases fs.find? (fun f => decide (∃ k ∈ mime, k ∈ I.mimes f)) with
    | some f => rfl
    | none => cases fs.find? (fun f => decide (∃ k ∈ ext, k ∈ I.exts f)) <;> rfl

/-- If the file format for saving is chosen by filename extension, and what is saved begins with the signature of that file format, then
loading with the same filename extension chooses the same file format, regardless of what other file formats would recognize. -/
theorem C163_save_load [DecidableEq F] [DecidableEq K] [DecidableEq α] {lt : K → K → Bool} (w : SWO lt) (hs : Strict lt) (I : Info F K)
    (fs : List F) {R : Reader α σ} {rest : σ → List α} {ok : σ → Prop} {grow : ℕ → ℕ} (hR : Conforms R rest ok) (hN : NeverFails R ok)
    (hg : ∀ n, n < grow n) (sig : F → List α) (load : F → Prog α β) (ext : K) (s : σ) (h : ok s) (f : F)
    (hf : fs.find? (fun f => decide (ext ∈ I.exts f)) = some f) (hsig : sig f <+: rest s) :
    ∃ r b, registerAll lt I fs {} = some (some r) ∧ chooseForSaving lt r none none (some ext) = some (.format f) ∧
      tryLoad lt R grow ⟨fun f => bySignature (sig f), load⟩ r none none (some ext) s = some (.loaded f b) ∧
      Possible false (load f) (rest s) b := by
  obtain ⟨r, e, hsv⟩ := C163_save w hs I fs none none (some ext)
  obtain ⟨r', res, e', hl, hm⟩ := C162_by_signature w hs I fs hR hN hg sig load none (some ext) s h
  rw [e] at e'
  simp only [Option.some.injEq] at e'
  subst e'
  have hhead : ∃ l, having I.exts fs ext = f :: l := by
    have hh : (having I.exts fs ext).head? = some f := by
      obtain ⟨r2, e2, hf2, _, _, he2, _, hf3⟩ := C160_lookup w hs I fs
      have h3 := hf3 ext
      obtain ⟨r4, e4, h4⟩ := registerAll_spec w I fs [] {} (empty_is lt I)
      rw [e2] at e4
      simp only [Option.some.injEq] at e4
      subst e4
      rw [List.nil_append] at h4
      rw [Registry.firstByExt, first_spec w hs h4.formats _ h4.byExt ext, hf] at h3
      exact Option.some.inj h3
    cases hc : having I.exts fs ext with
    | nil => rw [hc] at hh; cases hh
    | cons x l => rw [hc] at hh; simp only [List.head?_cons, Option.some.injEq] at hh; exact ⟨l, by rw [hh]⟩
  obtain ⟨l, hl'⟩ := hhead
  have hcand : (candidates ((none : Option K).elim [] (having I.mimes fs)) ((some ext).elim [] (having I.exts fs)) fs).find?
      (fun f => decide (sig f <+: rest s)) = some f := by
    simp [candidates, hl', hsig]
  rw [hcand] at hm
  obtain ⟨b, rfl, hb⟩ := hm
  refine ⟨r, b, e, ?_, hl, hb⟩
  rw [hsv]
  have hnone : fs.find? (fun _ => false) = none := by rw [List.find?_eq_none]; simp
  simp [hf, hnone]

example : ((registerAll ltNat exInfo [3, 1, 2] {}).bind (fun r => r.bind (fun r => chooseForSaving ltNat r none (some 90) (some 0)))) =
    some (.format 2) := by decide +kernel
example : ((registerAll ltNat exInfo [3, 1, 2] {}).bind (fun r => r.bind (fun r => chooseForSaving ltNat r none (some 31) (some 0)))) =
    some (.format 1) := by decide +kernel
example : ((registerAll ltNat exInfo [3, 1, 2] {}).bind (fun r => r.bind (fun r => chooseForSaving ltNat r (some 5) (some 31) (some 0)))) =
    some .unavailable := by decide +kernel

end Verif.ImageFormat
