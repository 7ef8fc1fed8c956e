import Verif.Log.Main
import Mathlib.Data.Nat.Basic

/-! # C147–C151: properties of loggers -/

namespace Verif.Log

variable {N S : Type} [LinearOrder N]

/-! ## Loggers used in examples -/

/-- A root logger in examples. -/
def exRoot : Root := ⟨7, levelPrefix⟩
/-- A constant prefix in examples. -/
def exPre (t : String) : Unit → List Char := fun _ => t.toList
/-- Get the logger in examples. -/
def exGet {N S : Type} (L : Except Failure (Logger N S)) (default : Logger N S) : Logger N S :=
  match L with
  | .ok L => L
  | .error _ => default
/-- The type of failure in examples. -/
def exFailed {A : Type} : Except Failure A → Option Bool
  | .ok _ => none
  | .error .noSuchChannel => some false
  | .error .assertion => some true
/-- A logger with prefix in examples. -/
def exA : Logger ℕ Unit := prefixLogger (rootLogger exRoot 0) (exPre "a: ")
/-- A logger with an extra channel in examples. -/
def exB : Logger ℕ Unit := exGet (channelLogger exA [Rule.new 1 (prefixLogger exA (exPre "b: "))]) exA

/-! ## C147: routing of messages -/

/-- A message is written exactly to those root loggers to which there is a route whose limits all allow the level, and with the prefixes in
the order in which they were added. This is about loggers where the limit is the one of the selected channel, i.e., about all loggers but
those limit loggers whose pattern does not match the selected channel. -/
theorem C147_log_partial {L : Logger N S} {d : Desc N S} (h : Built L d) (ht : d.tied = true) (s : S) (level : ℕ) (hl : level ≤ 8)
    (message : List Char) : L.log s level message = d.expected s level message := by
  rw [log_eq (inv h)]
  split
  · rfl
  · rename_i hn
    exact (expected_nil (inv h) ht s level hl hn message).symm

example : exB.log () 3 "x".toList = [(7, "a: WARNING: x\n".toList)] := by decide +kernel
example : (exGet (select exB 1) exA).log () 4 "x".toList = [(7, "a: b: x\n".toList)] := by decide +kernel
example : (exGet (duplicatingLogger exB [Rule.new 1 (rootLogger ⟨9, levelPrefix⟩ 5)]) exA).channels.map (fun c =>
    c.sink () 4 c.pre nullPrefix "x".toList) =
    [[(7, "a: x\n".toList)], [(7, "a: b: x\n".toList), (9, "x\n".toList)]] := by decide +kernel

/-- For all loggers: the reported limit of the logger itself comes on top of the limits of the routes. -/
theorem C147_log_untied {L : Logger N S} {d : Desc N S} (h : Built L d) (s : S) (level : ℕ) (message : List Char) :
    L.log s level message = if level ≤ d.limit s then d.expected s level message else [] :=
  log_eq (inv h) s level message

/-- What a logger that is obtained by adding prefixes writes: the routes are unchanged, and the prefix comes last. -/
theorem C147_prefix_order {L : Logger N S} {d : Desc N S} (h : Built L d) (ps : List (S → List Char)) (s : S) (level : ℕ) (hl : level ≤ 8)
    (message : List Char) : (ps.foldl prefixLogger (copy L)).log s level message =
      match d.chan d.selected with
      | some c => c.routes.flatMap (Route.deliver s level (d.pre s ++ ps.flatMap (· s)) message)
      | none => [] := by
  have key : ∀ ps : List (S → List Char), ∃ e : Desc N S, Built (ps.foldl prefixLogger (copy L)) e ∧ e.tied = true ∧ e.chan = d.chan ∧
      e.selected = d.selected ∧ ∀ s, e.pre s = d.pre s ++ ps.flatMap (· s) := by
    intro ps
    induction ps using List.reverseRecOn with
    | nil => exact ⟨_, Built.copy h, rfl, rfl, rfl, fun s => rfl⟩
    | append_singleton ps p ih =>
      obtain ⟨e, h1, _, h3, h4, h5⟩ := ih
      rw [List.foldl_append]
      refine ⟨_, Built.pre p h1, rfl, h3, h4, fun s => ?_⟩
      show e.pre s ++ p s = _
      rw [h5, List.flatMap_append]
      simp
  obtain ⟨e, h1, h2, h3, h4, h5⟩ := key ps
  rw [C147_log_partial h1 h2 s level hl, Desc.expected, h3, h4, h5]
  cases d.chan d.selected <;> rfl

/-- A limit logger whose pattern does not match the selected channel. -/
def exUntied : Logger ℕ Unit := exGet (limitLogger exB ⟨some warn, fun _ => warn⟩ (fun n => n == 1)) exA

/-- Negation of the full statement: if the pattern of a limit logger does not match the selected channel, the limit still applies to
messages that are logged through the limit logger itself, but not to those that are logged through a copy of it. -/
theorem C147_limit_on_unmatched_channel : exUntied.channel.name = 0 ∧ exUntied.log () info "x".toList = [] ∧
    (copy exUntied).log () info "x".toList = [(7, "a: x\n".toList)] ∧ exB.log () info "x".toList = [(7, "a: x\n".toList)] ∧
    (exGet (select exUntied 1) exA).log () info "x".toList = [] ∧ (exGet (select exUntied 0) exA).log () info "x".toList = [(7, "a: x\n".toList)] := by
  decide +kernel

/-! ## C148: log level limits -/

/-- `will_log()` and `get_log_level_limit()` agree, and reflect the limit that is supposed to be reported. -/
theorem C148_will_log {L : Logger N S} {d : Desc N S} (h : Built L d) (s : S) (level : ℕ) :
    (L.willLog s level = true ↔ level ≤ L.levelLimit s) ∧ L.levelLimit s = d.limit s := by
  rw [willLog_iff (inv h), levelLimit_eq (inv h)]
  exact ⟨Iff.rfl, rfl⟩

/-- Nothing is written unless `will_log()` holds. -/
theorem C148_will_log_necessary (L : Logger N S) (s : S) (level : ℕ) (message : List Char) (h : L.log s level message ≠ []) :
    L.willLog s level = true := by
  unfold Logger.log at h
  by_contra hn
  rw [if_neg hn] at h
  exact h rfl

/-- If there is a route that is open for the level, then `will_log()` holds. -/
theorem C148_open_route {L : Logger N S} {d : Desc N S} (h : Built L d) (ht : d.tied = true) (s : S) (level : ℕ) (hl : level ≤ 8) (c : Chan S)
    (hc : d.chan d.selected = some c) (r : Route S) (hr : r ∈ c.routes) (ho : r.Open s level) : L.willLog s level = true := by
  apply C148_will_log_necessary L s level []
  rw [C147_log_partial h ht s level hl]
  unfold Desc.expected
  rw [hc]
  intro e
  have := List.flatMap_eq_nil_iff.1 e r hr
  rw [Route.deliver, if_pos ho] at this
  cases this

/-- A limit logger with a pattern that matches the selected channel: the new limit is the one that is reported, and messages above it are
dropped. All other messages are treated as they were by the original logger. -/
theorem C148_limit_partial {L L' : Logger N S} {d : Desc N S} (h : Built L d) (ht : d.tied = true) (limit : Limit S) (isMatch : N → Bool)
    (hf : ∀ f, limit.fixed = some f → ∀ s, limit.level s = f) (hm : isMatch d.selected = true) (hL : limitLogger L limit isMatch = .ok L')
    (s : S) (level : ℕ) (hl : level ≤ 8) (message : List Char) :
    L'.levelLimit s = limit.level s ∧
    L'.log s level message = if level ≤ limit.level s then L.log s level message else [] := by
  have h' := Built.limited limit isMatch h hf hL
  refine ⟨(C148_will_log h' s level).2, ?_⟩
  rw [C147_log_partial h' hm s level hl, C147_log_partial h ht s level hl]
  simp only [Desc.expected, Desc.limited]
  cases d.chan d.selected with
  | none => simp
  | some c => simp only [Option.map_some, if_pos hm, List.flatMap_map, deliver_addLimit, flatMap_limit]

example : (exGet (limitLogger exB ⟨some warn, fun _ => warn⟩ (fun _ => true)) exA).log () warn "x".toList = [(7, "a: WARNING: x\n".toList)] ∧
    (exGet (limitLogger exB ⟨some warn, fun _ => warn⟩ (fun _ => true)) exA).log () info "x".toList = [] := by decide +kernel

/-- Negation of sufficiency: with one limit logger on top of another one, the limit of the outer one is reported, even when the inner one is
more restrictive, so `will_log()` holds, although nothing is written. -/
theorem C148_nested_limits :
    let inner := exGet (limitLogger exB ⟨some warn, fun _ => warn⟩ (fun _ => true)) exA
    let outer := exGet (limitLogger inner ⟨some info, fun _ => info⟩ (fun _ => true)) exA
    outer.willLog () info = true ∧ outer.levelLimit () = info ∧ outer.log () info "x".toList = [] := by
  decide +kernel

/-- Change of a variable limit fails when assertions are enabled, and works when they are disabled. -/
theorem C148_set_variable_limit (v : LimitVar) (limit : ℕ) (h : v.fixed = none) :
    v.set true limit = .error .assertion ∧ v.set false limit = .ok ⟨none, limit⟩ := by
  cases v; cases h; exact ⟨rfl, rfl⟩

/-- Change of a fixed limit is accepted even when assertions are enabled, and the result is in conflict with the fixed limit. -/
theorem C148_set_fixed_limit (assertions : Bool) (f limit : ℕ) : (LimitVar.new (some f)).set assertions limit = .ok ⟨some f, limit⟩ := by
  cases assertions <;> rfl

/-! ## C149: formatting by root loggers -/

theorem render_intercalate (pre : List Char) : ∀ ls : List (List Char), ls ≠ [] → (∀ l ∈ ls, '\n' ∉ l) →
    render pre (List.intercalate ['\n'] ls) = ls.flatMap (fun l => pre ++ l ++ ['\n'])
  | [], h, _ => absurd rfl h
  | [l], _, h => by
    have : List.intercalate ['\n'] [l] = l := by simp [List.intercalate]
    rw [this, render, lines_no_newline _ (h l (List.mem_singleton_self _))]
  | l :: m :: rest, _, h => by
    have e : List.intercalate ['\n'] (l :: m :: rest) = l ++ '\n' :: List.intercalate ['\n'] (m :: rest) := by
      simp [List.intercalate]
    rw [e, render, lines_append _ _ (h l (List.mem_cons_self ..)), List.flatMap_cons, List.flatMap_cons]
    congr 1
    exact render_intercalate pre (m :: rest) (by simp) (fun x hx => h x (List.mem_cons_of_mem _ hx))

/-- Every line of a message is written with the complete prefix and the level text, and with a terminating newline. It all happens in one
write operation. -/
theorem C149_lines (root : Root) (name : N) (ps : List (S → List Char)) (s : S) (level : ℕ) (hl : level ≤ 8) (ls : List (List Char))
    (hne : ls ≠ []) (hn : ∀ l ∈ ls, '\n' ∉ l) :
    (ps.foldl prefixLogger (rootLogger root name)).log s level (List.intercalate ['\n'] ls) =
      [(root.id, ls.flatMap (fun l => ps.flatMap (· s) ++ root.levelText level ++ l ++ ['\n']))] := by
  have h := C147_prefix_order (Built.root (S := S) root name) ps s level hl (List.intercalate ['\n'] ls)
  have hc : copy (rootLogger root name : Logger N S) = rootLogger root name := rfl
  rw [hc] at h
  rw [h]
  simp only [Desc.root, if_true, List.flatMap_cons, List.flatMap_nil, Route.deliver, List.append_nil, List.nil_append]
  rw [if_pos (show ({ root } : Route S).Open s level from fun l hm => by cases hm), render_intercalate _ _ hne hn]

example : exA.log () 2 "x\n\ny".toList = [(7, "a: ERROR: x\na: ERROR: \na: ERROR: y\n".toList)] := by decide +kernel

/-- Every message has lines, so the above is about all messages. -/
theorem C149_all_messages (message : List Char) : ∃ ls : List (List Char), ls ≠ [] ∧ (∀ l ∈ ls, '\n' ∉ l) ∧
    message = List.intercalate ['\n'] ls := by
  induction message with
  | nil => exact ⟨[[]], by simp, by simp, by simp [List.intercalate]⟩
  | cons c rest ih =>
    obtain ⟨ls, h1, h2, h3⟩ := ih
    cases ls with
    | nil => exact absurd rfl h1
    | cons l ls =>
      by_cases hc : c = '\n'
      · refine ⟨[] :: l :: ls, by simp, ?_, ?_⟩
        · intro x hx
          rcases List.mem_cons.1 hx with rfl | hx
          · simp
          · exact h2 x hx
        · rw [h3, hc]; simp [List.intercalate]
      · refine ⟨(c :: l) :: ls, by simp, ?_, ?_⟩
        · intro x hx
          rcases List.mem_cons.1 hx with rfl | hx
          · simp only [List.mem_cons, not_or]
            exact ⟨fun e => hc e.symm, h2 l (List.mem_cons_self ..)⟩
          · exact h2 x (List.mem_cons_of_mem _ hx)
        · rw [h3]
          cases ls with
          | nil => simp [List.intercalate]
          | cons m ls => simp [List.intercalate]

/-! ## C150: channels -/

/-- The channels of a logger are in order and have unique names. The set of names is the expected one. -/
theorem C150_channels {L : Logger N S} {d : Desc N S} (h : Built L d) :
    (L.channels.map (·.name)).Pairwise (· < ·) ∧ L.channel ∈ L.channels ∧ L.channel.name = d.selected ∧
    ∀ n, n ∈ L.channels.map (·.name) ↔ d.chan n ≠ none := by
  have hi := inv h
  refine ⟨List.pairwise_map.2 hi.chans.sorted, hi.mem, hi.name, fun n => ?_⟩
  rw [ne_eq, hi.chans.none]
  simp

example : exB.channels.map (·.name) = [0, 1] := by decide +kernel

/-- Selection of a channel succeeds precisely if the logger has a channel of that name. -/
theorem C150_select {L : Logger N S} {d : Desc N S} (h : Built L d) (name : N) :
    (d.chan name ≠ none → ∃ L', select L name = .ok L' ∧ L'.channel.name = name) ∧
    (d.chan name = none → select L name = .error .noSuchChannel) := by
  have hi := inv h
  constructor
  · intro hn
    obtain ⟨c, hc, e⟩ := exists_selected hi.chans hn
    have := findChannel_mem hi.chans.sorted hc
    rw [e] at this
    exact ⟨Logger.of L.pre c L.channels, by simp only [select, this]; rfl, e⟩
  · intro hn
    have := findChannel_error hi.chans.sorted ((hi.chans.none name).1 hn)
    simp only [select, this]
    rfl

/-- A limit logger can be constructed precisely if the pattern matches a channel. No assertion fails. -/
theorem C150_limit {L : Logger N S} {d : Desc N S} (h : Built L d) (limit : Limit S) (isMatch : N → Bool) :
    ((∃ n, d.chan n ≠ none ∧ isMatch n = true) → ∃ L', limitLogger L limit isMatch = .ok L') ∧
    ((∀ n, d.chan n ≠ none → isMatch n = false) → limitLogger L limit isMatch = .error .noSuchChannel) := by
  have hi := inv h
  rw [limitLogger_eq hi]
  constructor
  · rintro ⟨n, hn, hm⟩
    obtain ⟨c, hc, e⟩ := exists_selected hi.chans hn
    rw [if_neg]
    · exact ⟨_, rfl⟩
    · rw [List.countP_eq_zero]
      intro hz
      exact hz c hc (by rw [e]; exact hm)
  · intro hm
    rw [if_pos]
    rw [List.countP_eq_zero]
    intro c hc
    rw [hm c.name]
    · simp
    · intro hn
      exact (hi.chans.none c.name).1 hn c hc rfl

/-- A channel logger can always be constructed. No assertion fails. -/
theorem C150_channel_logger {L : Logger N S} {d : Desc N S} (h : Built L d) (refs : List (Ref N S))
    (hb : ∀ x ∈ refs, Built x.rule.logger x.desc) (hv : ∀ x ∈ refs, x.Valid) :
    ∃ L', channelLogger L (refs.map (·.rule)) = .ok L' :=
  (channelLogger_spec (inv h) refs (fun x hx => inv (hb x hx)) hv).imp (fun _ h => h.1)

/-- A duplicating logger can be constructed precisely if all origin channels exist. No assertion fails. -/
theorem C150_duplicating_logger {L : Logger N S} {d : Desc N S} (h : Built L d) (refs : List (Ref N S))
    (hb : ∀ x ∈ refs, Built x.rule.logger x.desc) (hv : ∀ x ∈ refs, x.Valid) :
    ((∀ x ∈ refs, d.chan x.rule.name ≠ none) → ∃ L', duplicatingLogger L (refs.map (·.rule)) = .ok L') ∧
    ((∃ x ∈ refs, d.chan x.rule.name = none) → duplicatingLogger L (refs.map (·.rule)) = .error .noSuchChannel) := by
  constructor
  · intro he
    exact (duplicatingLogger_spec (inv h) refs (fun x hx => inv (hb x hx)) hv he).imp (fun _ h => h.1)
  · rintro ⟨x, hx, hn⟩
    exact duplicatingLogger_error (inv h) _ ⟨x.rule, List.mem_map_of_mem hx, hn⟩

example : exFailed (duplicatingLogger exB [Rule.new 3 exA]) = some false ∧ exFailed (duplicatingLogger exB [Rule.new 1 exA]) = none ∧
    exFailed (limitLogger exB ⟨some 3, fun _ => 3⟩ (fun n => n == 2)) = some false ∧ exFailed (select exB 2) = some false := by
  decide +kernel

/-! ## C151: encoding loggers -/

/-- Logging through an encoding logger, with a prefix added on top of it, is the same as adding the encoded prefix to the base logger, and
then log the encoded message. -/
theorem C151_encoding {L : Logger N S} {d : Desc N S} (h : Built L d) (ht : d.tied = true) (encode : List Char → List Char)
    (he : encode [] = []) (text : S → List Char) (s : S) (level : ℕ) (message : List Char) :
    (encodingLogger encode L).log s level message = L.log s level (encode message) ∧
    (prefixLogger (encodingLogger encode L) text).log s level message =
      (prefixLogger L (fun s => encode (text s))).log s level (encode message) := by
  have hi := inv h
  obtain ⟨k, hk, ok⟩ := hi.chans.some _ hi.mem
  obtain ⟨rs, h1, h2⟩ := ok.sink
  have hl := hi.tied ht
  have hf := hi.fixedEq
  constructor
  · have e1 : (encodingLogger encode L).willLog s level = L.willLog s level := by
      simp only [Logger.willLog, encodingLogger, Logger.of, Logger.ofLimit, hf, hl]
      cases L.channel.limit.fixed <;> rfl
    have e2 : (encodingLogger encode L).channel.sink s level (encodingLogger encode L).channel.pre (encodingLogger encode L).pre message =
        L.channel.sink s level L.channel.pre L.pre (encode message) := by
      rw [h2]
      simp only [encodingLogger, Logger.of, Logger.ofLimit, encodingSink, h2, nullPrefix, he, List.append_nil]
    unfold Logger.log
    rw [e1, e2]
  · have e1 : (prefixLogger (encodingLogger encode L) text).willLog s level = (prefixLogger L (fun s => encode (text s))).willLog s level := rfl
    have e2 : (prefixLogger (encodingLogger encode L) text).channel.sink s level (prefixLogger (encodingLogger encode L) text).channel.pre
        (prefixLogger (encodingLogger encode L) text).pre message =
        L.channel.sink s level L.channel.pre (prefixLogger L (fun s => encode (text s))).pre (encode message) := by
      rw [h2]
      simp only [prefixLogger, addPrefix, encodingLogger, Logger.of, Logger.ofLimit, encodingSink, h2, nullPrefix, he, List.append_nil,
        List.nil_append]
    unfold Logger.log
    rw [e1, e2]
    rfl

example : (prefixLogger (encodingLogger (fun t => t.map Char.toUpper) exA) (exPre "b: ")).log () 4 "x\ny".toList =
    [(7, "a: B: X\na: B: Y\n".toList)] := by decide +kernel

/-- A channel logger with no rules on top of a prefix logger makes no difference for the prefixes, unless there is an encoding logger
below. -/
theorem C151_channel_logger_same_partial {L L' : Logger N S} {d : Desc N S} (h : Built L d) (ht : d.tied = true) (hL : channelLogger L [] = .ok L')
    (s : S) (level : ℕ) (hl : level ≤ 8) (message : List Char) : L'.log s level message = L.log s level message := by
  have h' := Built.withChannels (refs := []) h (by simp) (by simp) hL
  rw [C147_log_partial h' rfl s level hl, C147_log_partial h ht s level hl]
  simp only [Desc.expected, Desc.withChannels, List.map_nil, lastTarget, List.filter_nil, List.getLast?_nil]
  cases d.chan d.selected with
  | none => rfl
  | some c => simp only [Option.map_some, Chan.addText, List.flatMap_map, deliver_addText, List.append_nil]

/-- With an encoding logger below, the prefixes change places. -/
theorem C151_prefix_order_inverted :
    let P := prefixLogger (encodingLogger id exA) (exPre "b: ")
    P.log () 4 "x".toList = [(7, "a: b: x\n".toList)] ∧
    (exGet (channelLogger P []) exA).log () 4 "x".toList = [(7, "b: a: x\n".toList)] := by
  decide +kernel

end Verif.Log
