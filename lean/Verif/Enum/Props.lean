import Verif.Enum.Model
import Verif.Enum.Spec
import Verif.AsInt.Props
/-!
Properties of enumerations with names.
-/
namespace Verif.Enum
open Verif.AsInt (Stream Locale Helper sentry word)
open Spec

/-- The duplication that is described by an error. -/
def Clash (ic : Bool) (e : Error) (a b : Int × List Char) : Prop :=
  match e with
  | .duplicateValue => a.1 = b.1
  | .duplicateName => Same ic a.2 b.2

theorem toupper_eq (c : Char) : toupper c = c.toUpper := by
  unfold toupper
  by_cases h : 97 ≤ c.toNat ∧ c.toNat ≤ 122
  · rw [if_pos h]
    have key : ∀ n, n < 123 → 97 ≤ n → Char.ofNat (n - 32) = (Char.ofNat n).toUpper := by decide +kernel
    rw [key _ (by omega) h.1, Char.ofNat_toNat]
  · rw [if_neg h]
    unfold Char.toUpper
    rw [dif_neg]
    intro hc
    apply h
    have h1 := UInt32.le_iff_toNat_le.mp hc.1
    have h2 := UInt32.le_iff_toNat_le.mp hc.2
    exact ⟨h1, h2⟩

theorem lex_equiv (key : Char → Nat) : ∀ (a b : List Char), (lexLess key a b = false ∧ lexLess key b a = false) ↔ a.map key = b.map key := by
  intro a
  induction a with
  | nil => intro b; cases b <;> simp [lexLess]
  | cons x a ih =>
    intro b
    cases b with
    | nil => simp [lexLess]
    | cons y b =>
      have ih := ih b
      simp only [lexLess, List.map_cons, List.cons.injEq]
      by_cases h1 : key x < key y
      · simp [h1]; omega
      · by_cases h2 : key y < key x
        · simp [h1, h2]; omega
        · have : key x = key y := by omega
          rw [if_neg h1, if_neg h2, if_neg h2, if_neg h1]
          simp only [this, true_and]
          exact ih

theorem toNat_inj {a b : Char} (h : a.toNat = b.toNat) : a = b := by
  rw [← Char.ofNat_toNat a, ← Char.ofNat_toNat b, h]

theorem map_toNat_inj : ∀ {a b : List Char}, a.map Char.toNat = b.map Char.toNat → a = b := by
  intro a
  induction a with
  | nil => intro b h; cases b <;> simp at h ⊢
  | cons x a ih =>
    intro b h
    cases b with
    | nil => simp at h
    | cons y b =>
      simp only [List.map_cons, List.cons.injEq] at h
      rw [toNat_inj h.1, ih h.2]

theorem compare_equiv (ic : Bool) (a b : List Char) : (compare ic a b = false ∧ compare ic b a = false) ↔ Same ic a b := by
  unfold compare Same
  cases ic with
  | false =>
    simp only [Bool.false_eq_true, if_false]
    rw [lex_equiv]
    exact ⟨map_toNat_inj, fun h => by rw [h]⟩
  | true =>
    simp only [if_true]
    rw [lex_equiv]
    have e : ∀ l : List Char, l.map (fun c => (toupper c).toNat) = (l.map Char.toUpper).map Char.toNat := by
      intro l
      rw [List.map_map]
      apply List.map_congr_left
      intro c _
      simp [toupper_eq]
    rw [e, e]
    exact ⟨map_toNat_inj, fun h => by rw [h]⟩

theorem same_refl (ic : Bool) (a : List Char) : Same ic a a := by
  unfold Same; split <;> rfl

theorem same_symm {ic : Bool} {a b : List Char} (h : Same ic a b) : Same ic b a := by
  unfold Same at *; split <;> simp_all

theorem same_trans {ic : Bool} {a b c : List Char} (h : Same ic a b) (h' : Same ic b c) : Same ic a c := by
  unfold Same at *; split <;> simp_all

/-- The specified entries are in the mapper, and they have distinct values and names. -/
structure Holds (m : Mapper) (map : List (Int × List Char)) : Prop where
  values : m.valueToName = map
  names : m.nameToValue = map.map fun e => (e.2, e.1)

theorem findValue_iff {m : Mapper} {map : List (Int × List Char)} (h : Holds m map) (v : Int) :
    (m.findValue v = none ↔ ∀ e ∈ map, e.1 ≠ v) ∧ ∀ e, m.findValue v = some e → e ∈ map ∧ e.1 = v := by
  unfold Mapper.findValue
  rw [h.values]
  constructor
  · rw [List.find?_eq_none]
    constructor
    · intro h e he h'
      have := h e he
      simp [h'] at this
    · intro h e he hc
      have := h e he
      simp at hc
      omega
  · intro e he
    refine ⟨List.mem_of_find?_eq_some he, ?_⟩
    have := List.find?_some he
    simp at this
    omega

theorem findName_iff {m : Mapper} {map : List (Int × List Char)} (h : Holds m map) (s : List Char) :
    (m.findName s = none ↔ ∀ e ∈ map, ¬Same m.ignoreCase e.2 s) ∧
      ∀ e, m.findName s = some e → (e.2, e.1) ∈ map ∧ Same m.ignoreCase e.1 s := by
  have hc : ∀ a, (!compare m.ignoreCase a s && !compare m.ignoreCase s a) = true ↔ Same m.ignoreCase a s := by
    intro a
    rw [← compare_equiv]
    simp
  unfold Mapper.findName
  rw [h.names]
  constructor
  · rw [List.find?_eq_none]
    constructor
    · intro h e he h'
      exact h (e.2, e.1) (List.mem_map.mpr ⟨e, he, rfl⟩) ((hc e.2).mpr h')
    · intro h e he h'
      obtain ⟨e', he', rfl⟩ := List.mem_map.mp he
      exact h e' he' ((hc _).mp h')
  · intro e he
    have h1 := List.mem_of_find?_eq_some he
    obtain ⟨e', he', rfl⟩ := List.mem_map.mp h1
    have h5 := List.find?_some he
    exact ⟨he', (hc _).mp h5⟩

/-- No two entries have the same value, or the same name. -/
def Distinct (ic : Bool) (map : List (Int × List Char)) : Prop := map.Pairwise fun a b => a.1 ≠ b.1 ∧ ¬Same ic a.2 b.2

theorem addAll_spec (ic : Bool) : ∀ (map done : List (Int × List Char)) (m : Mapper), Holds m done → m.ignoreCase = ic → Distinct ic done →
    (∃ m', Mapper.addAll map m = .ok m' ∧ Holds m' (done ++ map) ∧ m'.ignoreCase = ic ∧ Distinct ic (done ++ map)) ∨
    (∃ e, Mapper.addAll map m = .error e ∧ ¬Distinct ic (done ++ map) ∧
      ∃ (i j : Nat) (a b : Int × List Char), i < j ∧ (done ++ map)[i]? = some a ∧ (done ++ map)[j]? = some b ∧
        Clash ic e a b) := by
  intro map
  induction map with
  | nil =>
    intro done m h hi hd
    left
    exact ⟨m, rfl, by rwa [List.append_nil], hi, by rwa [List.append_nil]⟩
  | cons e map ih =>
    intro done m h hi hd
    obtain ⟨value, name⟩ := e
    rw [Mapper.addAll]
    have hv := findValue_iff h value
    have hn := findName_iff h name
    rw [hi] at hn
    have hget : (done ++ (value, name) :: map)[done.length]? = some (value, name) := by simp
    cases h1 : m.findValue value with
    | some e =>
      right
      obtain ⟨h2, h3⟩ := hv.2 e h1
      obtain ⟨i, hi', hi2⟩ := List.mem_iff_getElem.mp h2
      refine ⟨_, rfl, ?_, i, done.length, e, (value, name), hi', ?_, hget, h3⟩
      · intro hD
        exact ((List.pairwise_append.mp hD).2.2 e h2 (value, name) (by simp)).1 h3
      · rw [List.getElem?_append_left hi', List.getElem?_eq_getElem hi', hi2]
    | none =>
      cases h4 : m.findName name with
      | some e =>
        right
        obtain ⟨h2, h3⟩ := hn.2 e h4
        obtain ⟨i, hi', hi2⟩ := List.mem_iff_getElem.mp h2
        refine ⟨_, rfl, ?_, i, done.length, (e.2, e.1), (value, name), hi', ?_, hget, h3⟩
        · intro hD
          exact ((List.pairwise_append.mp hD).2.2 _ h2 (value, name) (by simp)).2 h3
        · rw [List.getElem?_append_left hi', List.getElem?_eq_getElem hi', hi2]
      | none =>
        have := ih (done ++ [(value, name)])
          { m with valueToName := m.valueToName ++ [(value, name)], nameToValue := m.nameToValue ++ [(name, value)] }
          ⟨by simp [h.values], by simp [h.names]⟩ hi (by
            unfold Distinct
            rw [List.pairwise_append]
            refine ⟨hd, by simp, ?_⟩
            intro a ha b hb
            rw [List.mem_singleton] at hb
            subst hb
            exact ⟨hv.1.mp h1 a ha, hn.1.mp h4 a ha⟩)
        rw [List.append_assoc, List.singleton_append] at this
        exact this

theorem make_spec (ic : Bool) (map : List (Int × List Char)) :
    (∃ m', Mapper.make ic map = .ok m' ∧ Holds m' map ∧ m'.ignoreCase = ic ∧ Distinct ic map) ∨
    (∃ e, Mapper.make ic map = .error e ∧ ¬Distinct ic map ∧
      ∃ (i j : Nat) (a b : Int × List Char), i < j ∧ map[i]? = some a ∧ map[j]? = some b ∧
        Clash ic e a b) := by
  have := addAll_spec ic map [] ⟨ic, [], []⟩ ⟨rfl, rfl⟩ rfl List.Pairwise.nil
  rwa [List.nil_append] at this

/-! ### C211: Names and values -/

/-- A mapping is accepted precisely if all values are distinct, and all names are distinct. -/
theorem C211_accepted (ic : Bool) (map : List (Int × List Char)) : (∃ m, Mapper.make ic map = .ok m) ↔ Distinct ic map := by
  rcases make_spec ic map with ⟨m, h1, -, -, h2⟩ | ⟨e, h1, h2, -⟩
  · exact ⟨fun _ => h2, fun _ => ⟨m, h1⟩⟩
  · refine ⟨?_, fun h => absurd h h2⟩
    rintro ⟨m, h⟩
    rw [h1] at h; cases h

/-- When a mapping is rejected, there are two entries as described by the error. -/
theorem C211_rejected (ic : Bool) (map : List (Int × List Char)) (e : Error) (h : Mapper.make ic map = .error e) :
    ∃ (i j : Nat) (a b : Int × List Char), i < j ∧ map[i]? = some a ∧ map[j]? = some b ∧ Clash ic e a b := by
  rcases make_spec ic map with ⟨m, h1, -⟩ | ⟨e', h1, -, h2⟩
  · rw [h1] at h; cases h
  · rw [h1] at h
    obtain rfl := Except.error.inj h
    exact h2

theorem ok_spec {ic : Bool} {map : List (Int × List Char)} {m : Mapper} (h : Mapper.make ic map = .ok m) :
    Holds m map ∧ m.ignoreCase = ic ∧ Distinct ic map := by
  rcases make_spec ic map with ⟨m', h1, h2⟩ | ⟨e, h1, -⟩
  · rw [h1] at h; obtain rfl := Except.ok.inj h; exact h2
  · rw [h1] at h; cases h

theorem distinct_unique {ic : Bool} {map : List (Int × List Char)} (h : Distinct ic map) {a b : Int × List Char} (ha : a ∈ map) (hb : b ∈ map)
    (hs : a.1 = b.1 ∨ Same ic a.2 b.2) : a = b := by
  by_cases hab : a = b
  · exact hab
  · exfalso
    have key : ∀ x ∈ map, ∀ y ∈ map, x ≠ y → x.1 ≠ y.1 ∧ ¬Same ic x.2 y.2 := by
      intro x hx y hy hne
      have hsym : ∀ {x y : Int × List Char}, (x.1 ≠ y.1 ∧ ¬Same ic x.2 y.2) → (y.1 ≠ x.1 ∧ ¬Same ic y.2 x.2) :=
        fun h => ⟨Ne.symm h.1, fun h' => h.2 (same_symm h')⟩
      obtain ⟨i, hi, rfl⟩ := List.mem_iff_getElem.mp hx
      obtain ⟨j, hj, rfl⟩ := List.mem_iff_getElem.mp hy
      have hp := List.pairwise_iff_getElem.mp h
      rcases Nat.lt_trichotomy i j with hij | rfl | hij
      · exact hp i j hi hj hij
      · exact absurd rfl hne
      · exact hsym (hp j i hj hi hij)
    have := key a ha b hb hab
    rcases hs with hs | hs
    · exact this.1 hs
    · exact this.2 hs

/-- A value has a name precisely if there is an entry with that value, and the name is that of the entry. -/
theorem C211_name (ic : Bool) (map : List (Int × List Char)) (m : Mapper) (h : Mapper.make ic map = .ok m) (v : Int) (s : List Char) :
    m.name v = some s ↔ (v, s) ∈ map := by
  obtain ⟨h1, h2, h3⟩ := ok_spec h
  have hv := findValue_iff h1 v
  unfold Mapper.name
  cases hf : m.findValue v with
  | none =>
    simp only [reduceCtorEq, false_iff]
    exact fun hm => hv.1.mp hf _ hm rfl
  | some e =>
    obtain ⟨a1, a2⟩ := hv.2 e hf
    simp only [Option.some.injEq]
    constructor
    · rintro rfl; rw [← a2]; exact a1
    · intro hm
      rw [distinct_unique h3 a1 hm (.inl a2)]

/-- Parsing succeeds precisely if there is an entry with the same name, possibly up to case, and the value is that of the entry. Otherwise, the
variable is unchanged. -/
theorem C211_parse (ic : Bool) (map : List (Int × List Char)) (m : Mapper) (h : Mapper.make ic map = .ok m) (s : List Char) (var : Int) :
    (∀ v, (∃ n, (v, n) ∈ map ∧ Same ic n s) → m.parse s var = (true, v)) ∧
    ((¬∃ v n, (v, n) ∈ map ∧ Same ic n s) → m.parse s var = (false, var)) := by
  obtain ⟨h1, h2, h3⟩ := ok_spec h
  have hn := findName_iff h1 s
  rw [h2] at hn
  unfold Mapper.parse
  cases hf : m.findName s with
  | none =>
    refine ⟨?_, fun _ => rfl⟩
    rintro v ⟨n, a, b⟩
    exact absurd b (hn.1.mp hf _ a)
  | some e =>
    obtain ⟨a1, a2⟩ := hn.2 e hf
    refine ⟨?_, fun h => absurd ⟨_, _, a1, a2⟩ h⟩
    rintro v ⟨n, a, b⟩
    have := distinct_unique h3 a a1 (.inr (same_trans b (same_symm a2)))
    rw [Prod.mk.injEq] at this
    rw [this.1]

/-- Each of the names is parsed as the corresponding value. -/
theorem C211_inverse (ic : Bool) (map : List (Int × List Char)) (m : Mapper) (h : Mapper.make ic map = .ok m) (v var : Int) (s : List Char)
    (hs : m.name v = some s) : m.parse s var = (true, v) :=
  (C211_parse ic map m h s var).1 v ⟨s, (C211_name ic map m h v s).mp hs, same_refl ic s⟩

/-- Values of an enumeration. -/
def colors : List (Int × List Char) := [(0, "orange".toList), (1, "purple".toList), (7, "dark_brown".toList)]

/-- The mapper for `colors`. -/
def colorMapper (ic : Bool) : Mapper := ⟨ic, colors, colors.map fun e => (e.2, e.1)⟩

example : Mapper.make true colors = .ok (colorMapper true) := by rfl
example : (colorMapper true).parse "PurPle".toList 5 = (true, 1) := by decide +kernel
example : (colorMapper false).parse "PurPle".toList 5 = (false, 5) := by decide +kernel
example : Mapper.make true [(0, "a".toList), (1, "A".toList)] = .error .duplicateName := by rfl
example : Mapper.make false [(1, "a".toList), (1, "A".toList)] = .error .duplicateValue := by rfl

/-! ### C212: Streams -/

theorem readLoop_eq (loc : Locale) : ∀ (fuel : Nat) (ch : Char) (r : List Char) (e : Bool) (b : List Char), r.length < fuel →
    readLoop loc fuel ch ⟨ch :: r, e, b⟩ =
      (!(b ++ (ch :: r).takeWhile (word loc)).isEmpty,
        ⟨(ch :: r).dropWhile (word loc), e || ((ch :: r).dropWhile (word loc)).isEmpty, b ++ (ch :: r).takeWhile (word loc)⟩) := by
  intro fuel
  induction fuel with
  | zero => intro ch r e b h; omega
  | succ fuel ih =>
    intro ch r e b h
    unfold readLoop
    have hw : (!loc.alnum ch && ch != '_') = !word loc ch := by
      unfold word; cases loc.alnum ch <;> simp [bne]
    rw [hw]
    cases hc : word loc ch with
    | false =>
      cases b with
      | nil => simp [hc]
      | cons x b => simp [hc]
    | true =>
      rw [if_neg (by simp)]
      cases r with
      | nil => simp [Helper.next, hc]
      | cons c r =>
        have := ih c r e (b ++ [ch]) (by simpa using h)
        simp only [Helper.next, List.drop_succ_cons, List.drop_zero]
        rw [this]
        rw [List.dropWhile_cons_of_pos hc, List.takeWhile_cons_of_pos hc]
        simp

theorem word_eq {loc : Locale} {data w rest : List Char} (h : IsWord loc.alnum data w rest) :
    data.takeWhile (word loc) = w ∧ data.dropWhile (word loc) = rest := by
  obtain ⟨rfl, h2, h3⟩ := h
  have hp : ∀ c ∈ w, word loc c = true := fun c hc => by simpa [word] using h2 c hc
  rw [List.takeWhile_append_of_pos hp, List.dropWhile_append_of_pos hp]
  cases rest with
  | nil => simp
  | cons c r =>
    have : word loc c = false := by
      have := h3 c rfl
      cases hw : word loc c with
      | false => rfl
      | true => exact absurd (by simpa [word] using hw) this
    rw [List.takeWhile_cons_of_neg (by simp [this]), List.dropWhile_cons_of_neg (by simp [this])]
    simp

/-- When the stream is not good, the variable is unchanged, and the operation fails. -/
theorem C212_not_good (m : Mapper) (loc : Locale) (s : Stream) (var : Int) (h : s.eof = true ∨ s.fail = true) :
    m.read loc s var = ({ s with fail := true }, var) := by
  unfold Mapper.read sentry
  rcases h with h | h <;> simp [h]

/-- Reading from a good stream: After white space, if it is to be skipped, the longest sequence of letters, digits, and underscores is removed
from the stream. The operation succeeds if it is a name. Otherwise, the variable is unchanged. -/
theorem C212_read (ic : Bool) (map : List (Int × List Char)) (m : Mapper) (h : Mapper.make ic map = .ok m) (loc : Locale) (skipws : Bool)
    (blank data w rest : List Char) (var : Int) (hb : ∀ c ∈ blank, loc.space c = true) (hn : skipws = false → blank = [])
    (hs : skipws = true → data ≠ [] ∧ ∀ c ∈ data.head?, loc.space c = false) (hw : IsWord loc.alnum data w rest) :
    (∀ v n, w ≠ [] → (v, n) ∈ map → Same ic n w →
      m.read loc ⟨blank ++ data, skipws, false, false⟩ var = (⟨rest, skipws, decide (rest = []), false⟩, v)) ∧
    ((w = [] ∨ ¬∃ v n, (v, n) ∈ map ∧ Same ic n w) →
      m.read loc ⟨blank ++ data, skipws, false, false⟩ var = (⟨rest, skipws, decide (rest = []), true⟩, var)) := by
  have hsen : sentry loc ⟨blank ++ data, skipws, false, false⟩ = (true, ⟨data, skipws, false, false⟩) := by
    unfold sentry
    cases skipws with
    | false => simp [hn rfl]
    | true =>
      obtain ⟨h1, h2⟩ := hs rfl
      have : (blank ++ data).dropWhile loc.space = data := by
        rw [List.dropWhile_append_of_pos hb]
        cases data with
        | nil => rfl
        | cons c r => rw [List.dropWhile_cons_of_neg]; simp [h2 c (by simp)]
      simp [this, h1]
  obtain ⟨e1, e2⟩ := word_eq hw
  have hread : m.read loc ⟨blank ++ data, skipws, false, false⟩ var =
      (⟨rest, skipws, decide (rest = []), !(if w = [] then (false, var) else m.parse w var).1⟩, (if w = [] then (false, var) else m.parse w var).2) := by
    unfold Mapper.read
    rw [hsen]
    cases data with
    | nil =>
      simp at e1 e2
      subst e1 e2
      rfl
    | cons c r =>
      simp only [Helper.peek]
      rw [readLoop_eq loc _ c r false [] (by simp)]
      simp only [List.nil_append]
      rw [e1, e2]
      cases w with
      | nil => cases rest <;> simp
      | cons x w => cases rest <;> simp
  have hp := C211_parse ic map m h w var
  constructor
  · intro v n hne hm hsame
    rw [hread, if_neg hne, hp.1 v ⟨n, hm, hsame⟩]
    rfl
  · intro hc
    rw [hread]
    by_cases hne : w = []
    · rw [if_pos hne]; rfl
    · rw [if_neg hne, hp.2 (hc.resolve_left hne)]; rfl

/-- A name that consists of letters, digits, and underscores can be read back, if it is followed by something else. -/
theorem C212_round_trip (ic : Bool) (map : List (Int × List Char)) (m : Mapper) (h : Mapper.make ic map = .ok m) (loc : Locale)
    (v : Int) (n rest : List Char) (var : Int) (hm : (v, n) ∈ map) (hne : n ≠ []) (hw : ∀ c ∈ n, loc.alnum c = true ∨ c = '_')
    (hsp : ∀ c ∈ n, loc.space c = false) (hr : ∀ c, rest.head? = some c → ¬(loc.alnum c = true ∨ c = '_')) :
    m.read loc ⟨m.write v ++ rest, true, false, false⟩ var = (⟨rest, true, decide (rest = []), false⟩, v) := by
  have hn : m.write v = n := by
    unfold Mapper.write
    rw [(C211_name ic map m h v n).mpr hm]
  rw [hn]
  have := (C212_read ic map m h loc true [] (n ++ rest) n rest var (by simp) (by simp) (by
    intro _
    refine ⟨by simp [hne], ?_⟩
    intro c hc
    cases n with
    | nil => exact absurd rfl hne
    | cons x n =>
      simp at hc
      subst hc
      exact hsp x (by simp)) ⟨rfl, hw, hr⟩).1 v n hne hm (same_refl ic n)
  simpa using this

/-- What is written for a value that has no name is its decimal representation. -/
theorem C212_no_name (ic : Bool) (map : List (Int × List Char)) (m : Mapper) (h : Mapper.make ic map = .ok m) (v : Int)
    (hv : ∀ n, (v, n) ∉ map) : m.write v = (toString v).toList := by
  unfold Mapper.write
  cases hn : m.name v with
  | none => rfl
  | some s => exact absurd ((C211_name ic map m h v s).mp hn) (hv s)

/-- A name with other characters cannot be read back. -/
theorem C212_hyphen : Mapper.make false [(3, "dark-red".toList)] = .ok ⟨false, [(3, "dark-red".toList)], [("dark-red".toList, 3)]⟩ ∧
    (⟨false, [(3, "dark-red".toList)], [("dark-red".toList, 3)]⟩ : Mapper).read AsInt.classic ⟨"dark-red".toList, true, false, false⟩ 0 =
      (⟨"-red".toList, true, false, true⟩, 0) := by
  refine ⟨rfl, by decide +kernel⟩

example : (colorMapper false).read AsInt.classic ⟨" dark_brown, x".toList, true, false, false⟩ 5 = (⟨", x".toList, true, false, false⟩, 7) := by
  decide +kernel
example : (colorMapper false).read AsInt.classic ⟨" grey x".toList, true, false, false⟩ 5 = (⟨" x".toList, true, false, true⟩, 5) := by
  decide +kernel
example : (colorMapper false).write 7 = "dark_brown".toList := by decide +kernel
example : (colorMapper false).write (-12) = "-12".toList := by decide +kernel

end Verif.Enum
