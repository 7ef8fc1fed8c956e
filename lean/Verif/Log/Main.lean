import Verif.Log.Lemmas

/-! # The invariant of loggers -/

namespace Verif.Log

variable {N S : Type} [LinearOrder N]

/-- How a channel relates to its description. -/
structure ChanOk (c : Channel N S) (k : Chan S) : Prop where
  sink : ∃ rs : List (Route S), k.routes = rs.map (Route.addText c.pre.text) ∧
    ∀ s level cp mp message, c.sink s level cp mp message = rs.flatMap (Route.deliver s level (cp.text s ++ mp.text s) message)
  limit : ∀ s, c.limit.level s = k.limit s
  fixed : ∀ f, c.limit.fixed = some f → ∀ s, c.limit.level s = f
  bound : ∀ s level, level ≤ all → (∃ r ∈ k.routes, r.Open s level) → level ≤ k.limit s
  null : c.pre.isNull = true → ∀ s, c.pre.text s = []

/-- How channels relate to their descriptions. -/
structure ChansOk (channels : List (Channel N S)) (chan : N → Option (Chan S)) : Prop where
  sorted : Sorted channels
  none : ∀ n, chan n = none ↔ ∀ c ∈ channels, c.name ≠ n
  some : ∀ c ∈ channels, ∃ k, chan c.name = some k ∧ ChanOk c k

/-- How a logger relates to its description. -/
structure Inv (L : Logger N S) (d : Desc N S) : Prop where
  chans : ChansOk L.channels d.chan
  mem : L.channel ∈ L.channels
  name : L.channel.name = d.selected
  pre : ∀ s, L.pre.text s = d.pre s
  null : L.pre.isNull = true → ∀ s, L.pre.text s = []
  fixedEq : L.fixed = L.limit.fixed
  limit : ∀ s, L.limit.level s = d.limit s
  fixed : ∀ f, L.limit.fixed = some f → ∀ s, L.limit.level s = f
  tied : d.tied = true → L.limit = L.channel.limit

theorem deliver_addText (s : S) (level : ℕ) (p : S → List Char) (rest message : List Char) (r : Route S) :
    Route.deliver s level rest message (r.addText p) = Route.deliver s level (p s ++ rest) message r := by
  unfold Route.deliver
  by_cases h : r.Open s level
  · rw [if_pos h, if_pos (show (r.addText p).Open s level from h)]
    simp [Route.addText]
  · rw [if_neg h, if_neg (show ¬ (r.addText p).Open s level from h)]

theorem deliver_addLimit (s : S) (level : ℕ) (l : S → ℕ) (rest message : List Char) (r : Route S) :
    Route.deliver s level rest message (r.addLimit l) = if level ≤ l s then Route.deliver s level rest message r else [] := by
  unfold Route.deliver
  have h : (r.addLimit l).Open s level ↔ level ≤ l s ∧ r.Open s level := by
    unfold Route.Open Route.addLimit
    simp
  by_cases h1 : level ≤ l s
  · rw [if_pos h1]
    by_cases h2 : r.Open s level
    · rw [if_pos h2, if_pos (h.2 ⟨h1, h2⟩)]; rfl
    · rw [if_neg h2, if_neg (fun x => h2 (h.1 x).2)]
  · rw [if_neg h1, if_neg (fun x => h1 (h.1 x).1)]

theorem addText_addText (p q : S → List Char) (r : Route S) : (r.addText p).addText q = r.addText (fun s => p s ++ q s) := by
  unfold Route.addText
  simp

theorem addText_nil (r : Route S) : r.addText (fun _ => []) = r := by
  unfold Route.addText
  simp

theorem map_addText_congr {p q : S → List Char} (h : ∀ s, p s = q s) : Route.addText p = Route.addText q := by
  rw [funext h]

/-! ## Root and null -/

theorem chansOk_single (c : Channel N S) (k : Chan S) (h : ChanOk c k) : ChansOk [c] (fun n => if n = c.name then some k else none) where
  sorted := List.pairwise_singleton _ _
  none := fun n => by
    by_cases e : n = c.name
    · simp [e]
    · simp only [if_neg e, List.mem_singleton, forall_eq, true_iff]
      exact fun e' => e e'.symm
  some := fun c' hc' => by
    rw [List.mem_singleton] at hc'
    subst hc'
    exact ⟨k, by simp, h⟩

theorem inv_root (root : Root) (name : N) : Inv (rootLogger root name : Logger N S) (Desc.root root name) where
  chans := chansOk_single (rootChannel root name) ⟨[{ root }], fun _ => all⟩
    { sink := ⟨[{ root }], by simp [rootChannel, nullPrefix, addText_nil], by
        intro s level cp mp message
        simp [rootChannel, rootSink, assemble_eq, Route.deliver, Route.Open]⟩
      limit := fun _ => rfl
      fixed := fun f h s => by cases h; rfl
      bound := fun s level h _ => h
      null := fun _ _ => rfl }
  mem := List.mem_singleton_self _
  name := rfl
  pre := fun _ => rfl
  null := fun _ _ => rfl
  fixedEq := rfl
  limit := fun _ => rfl
  fixed := fun f h s => by cases h; rfl
  tied := fun _ => rfl

theorem inv_null (name : N) : Inv (nullLogger name : Logger N S) (Desc.null name) where
  chans := chansOk_single (nullChannel name) ⟨[], fun _ => off⟩
    { sink := ⟨[], rfl, fun _ _ _ _ _ => rfl⟩
      limit := fun _ => rfl
      fixed := fun f h s => by cases h; rfl
      bound := fun s level _ h => by obtain ⟨r, hr, _⟩ := h; simp at hr
      null := fun _ _ => rfl }
  mem := List.mem_singleton_self _
  name := rfl
  pre := fun _ => rfl
  null := fun _ _ => rfl
  fixedEq := rfl
  limit := fun _ => rfl
  fixed := fun f h s => by cases h; rfl
  tied := fun _ => rfl

/-! ## Selection of channel, and prefixes -/

theorem inv_of {channels : List (Channel N S)} {chan : N → Option (Chan S)} (h : ChansOk channels chan) {c : Channel N S} (hc : c ∈ channels)
    (pre : Prefix S) (hn : pre.isNull = true → ∀ s, pre.text s = []) (text : S → List Char) (ht : ∀ s, pre.text s = text s) (limit : S → ℕ)
    (hl : limit = match chan c.name with
      | some k => k.limit
      | none => fun _ => 0) :
    Inv (Logger.of pre c channels) ⟨chan, text, c.name, limit, true⟩ := by
  obtain ⟨k, hk, ok⟩ := h.some c hc
  rw [hk] at hl
  exact
    { chans := h
      mem := hc
      name := rfl
      pre := ht
      null := hn
      fixedEq := rfl
      limit := fun s => by rw [hl]; exact ok.limit s
      fixed := ok.fixed
      tied := fun _ => rfl }

theorem inv_derive {L : Logger N S} {d : Desc N S} (h : Inv L d) {c : Channel N S} (hc : c ∈ L.channels) (pre : Prefix S)
    (hn : pre.isNull = true → ∀ s, pre.text s = []) (text : S → List Char) (ht : ∀ s, pre.text s = d.pre s ++ text s) :
    Inv (Logger.of pre c L.channels) (d.derive c.name text) :=
  inv_of h.chans hc pre hn _ ht _ rfl

theorem select_ok {L L' : Logger N S} {name : N} (h : select L name = .ok L') :
    ∃ c ∈ L.channels, c.name = name ∧ L' = Logger.of L.pre c L.channels := by
  unfold select at h
  cases hf : findChannel L.channels name with
  | error e => rw [hf] at h; cases h
  | ok c =>
    rw [hf] at h
    cases h
    exact ⟨c, (findChannel_ok hf).1, (findChannel_ok hf).2, rfl⟩

theorem prefixLoggerOn_ok {L L' : Logger N S} {text : S → List Char} {name : N} (h : prefixLoggerOn L text name = .ok L') :
    ∃ c ∈ L.channels, c.name = name ∧ L' = addPrefix L c text := by
  unfold prefixLoggerOn at h
  cases hf : findChannel L.channels name with
  | error e => rw [hf] at h; cases h
  | ok c =>
    rw [hf] at h
    cases h
    exact ⟨c, (findChannel_ok hf).1, (findChannel_ok hf).2, rfl⟩

theorem inv_addPrefix {L : Logger N S} {d : Desc N S} (h : Inv L d) {c : Channel N S} (hc : c ∈ L.channels) (text : S → List Char) :
    Inv (addPrefix L c text) (d.derive c.name text) :=
  inv_derive h hc _ (fun e => by cases e) text (fun s => by rw [← h.pre])

/-! ## Limits -/

theorem limitChannel_name (limit : Limit S) (isMatch : N → Bool) (c : Channel N S) : (limitChannel limit isMatch c).name = c.name := by
  unfold limitChannel; split <;> rfl

theorem sorted_map {channels : List (Channel N S)} (h : Sorted channels) (f : Channel N S → Channel N S) (hf : ∀ c, (f c).name = c.name) :
    Sorted (channels.map f) := by
  unfold Sorted
  rw [List.pairwise_map]
  exact List.Pairwise.imp (fun {a b} hab => by rw [hf, hf]; exact hab) h

theorem flatMap_limit {A B : Type} (P : Prop) [Decidable P] (f : A → List B) (l : List A) :
    l.flatMap (fun a => if P then f a else []) = if P then l.flatMap f else [] := by
  by_cases h : P <;> simp [h]

theorem limitChannel_ok {c : Channel N S} {k : Chan S} (h : ChanOk c k) (limit : Limit S) (isMatch : N → Bool)
    (hf : ∀ f, limit.fixed = some f → ∀ s, limit.level s = f) :
    ChanOk (limitChannel limit isMatch c) (if isMatch c.name then ⟨k.routes.map (Route.addLimit limit.level), limit.level⟩ else k) := by
  unfold limitChannel
  by_cases hm : isMatch c.name = true
  · rw [if_pos hm, if_pos hm]
    obtain ⟨rs, h1, h2⟩ := h.sink
    exact
      { sink := by
          refine ⟨rs.map (Route.addLimit limit.level), ?_, ?_⟩
          · simp only [h1, List.map_map]; rfl
          · intro s level cp mp message
            simp only [limitSink, List.flatMap_map, deliver_addLimit, flatMap_limit, h2]
        limit := fun _ => rfl
        fixed := hf
        bound := fun s level _ ho => by
          obtain ⟨r, hr, ho⟩ := ho
          obtain ⟨r', _, rfl⟩ := List.mem_map.1 hr
          exact ho limit.level (List.mem_cons_self ..)
        null := h.null }
  · rw [if_neg hm, if_neg hm]
    exact h

theorem chansOk_limited {L : Logger N S} {d : Desc N S} (h : ChansOk L.channels d.chan) (limit : Limit S) (isMatch : N → Bool)
    (hf : ∀ f, limit.fixed = some f → ∀ s, limit.level s = f) :
    ChansOk (L.channels.map (limitChannel limit isMatch)) (d.limited limit.level isMatch).chan where
  sorted := sorted_map h.sorted _ (limitChannel_name limit isMatch)
  none := fun n => by
    show Option.map _ (d.chan n) = none ↔ _
    rw [Option.map_eq_none_iff, h.none]
    simp [limitChannel_name]
  some := fun c hc => by
    obtain ⟨c', hc', rfl⟩ := List.mem_map.1 hc
    obtain ⟨k, h1, h2⟩ := h.some c' hc'
    refine ⟨_, ?_, limitChannel_ok h2 limit isMatch hf⟩
    show Option.map _ (d.chan _) = _
    rw [limitChannel_name, h1]
    rfl

theorem limitLogger_eq {L : Logger N S} {d : Desc N S} (h : Inv L d) (limit : Limit S) (isMatch : N → Bool) :
    limitLogger L limit isMatch = if L.channels.countP (fun c => isMatch c.name) = 0 then .error .noSuchChannel
      else .ok ⟨limit.fixed, limit, L.pre, limitChannel limit isMatch L.channel, L.channels.map (limitChannel limit isMatch)⟩ := by
  unfold limitLogger
  split
  · rfl
  · have := reselect_mem (sorted_map h.chans.sorted _ (limitChannel_name limit isMatch)) (List.mem_map_of_mem h.mem)
    rw [limitChannel_name] at this
    simp only [this]
    rfl

theorem inv_limited {L L' : Logger N S} {d : Desc N S} (h : Inv L d) (limit : Limit S) (isMatch : N → Bool)
    (hf : ∀ f, limit.fixed = some f → ∀ s, limit.level s = f) (hL : limitLogger L limit isMatch = .ok L') :
    Inv L' (d.limited limit.level isMatch) := by
  rw [limitLogger_eq h] at hL
  split at hL
  · cases hL
  · cases hL
    exact
      { chans := chansOk_limited h.chans limit isMatch hf
        mem := List.mem_map_of_mem h.mem
        name := (limitChannel_name ..).trans h.name
        pre := h.pre
        null := h.null
        fixedEq := rfl
        limit := fun _ => rfl
        fixed := hf
        tied := fun ht => by
          have : isMatch L.channel.name = true := by rw [h.name]; exact ht
          simp [limitChannel, this] }

/-! ## Combination of prefixes -/

theorem combine_text {a b : Prefix S} (ha : a.isNull = true → ∀ s, a.text s = []) (hb : b.isNull = true → ∀ s, b.text s = []) (s : S) :
    (combine a b).1.text s = a.text s ++ b.text s := by
  unfold combine
  split
  · rename_i h; rw [hb h, List.append_nil]
  · split
    · rename_i h; rw [ha h, List.nil_append]
    · rfl

theorem combine_null {a b : Prefix S} (ha : a.isNull = true → ∀ s, a.text s = []) (hb : b.isNull = true → ∀ s, b.text s = [])
    (h : (combine a b).1.isNull = true) (s : S) : (combine a b).1.text s = [] := by
  revert h
  unfold combine
  split
  · exact fun h => ha h s
  · split
    · exact fun h => hb h s
    · intro h; cases h

theorem combine_count (a b : Prefix S) : (combine a b).2 = countPrefix a b := by
  unfold combine countPrefix
  cases a.isNull <;> cases b.isNull <;> rfl

theorem combine_ok {c : Channel N S} {k : Chan S} (h : ChanOk c k) (p : Prefix S) (hp : p.isNull = true → ∀ s, p.text s = [])
    (name : N) : ChanOk ⟨name, c.limit, (combine c.pre p).1, c.sink⟩ (k.addText p.text) := by
  obtain ⟨rs, h1, h2⟩ := h.sink
  exact
    { sink := by
        refine ⟨rs, ?_, h2⟩
        show k.routes.map _ = _
        rw [h1, List.map_map]
        congr 1
        funext r
        rw [Function.comp_apply, addText_addText, map_addText_congr (combine_text h.null hp)]
      limit := h.limit
      fixed := h.fixed
      bound := fun s level hl ho => by
        obtain ⟨r, hr, ho⟩ := ho
        obtain ⟨r', hr', rfl⟩ := List.mem_map.1 hr
        exact h.bound s level hl ⟨r', hr', ho⟩
      null := fun e s => combine_null h.null hp e s }

/-! ## Channel loggers -/

/-- What is known about the target of a rule. -/
theorem ref_ok {x : Ref N S} (hi : Inv x.rule.logger x.desc) (hv : x.Valid) :
    ∃ k, x.desc.chan x.channel = some k ∧ ChanOk x.rule.channel k := by
  rcases hv with ⟨h1, h2⟩ | h
  · obtain ⟨k, e, ok⟩ := hi.chans.some _ hi.mem
    refine ⟨k, ?_, ?_⟩
    · rw [h2, ← hi.name]; exact e
    · rw [h1]; exact ok
  · unfold Rule.newOn at h
    cases hf : findChannel x.rule.logger.channels x.channel with
    | error e => rw [hf] at h; cases h
    | ok c =>
      rw [hf] at h
      have hc : x.rule.channel = c := by
        have : Except.ok (ε := Failure) (⟨x.rule.name, x.rule.logger, c⟩ : Rule N S) = .ok x.rule := h
        have := Except.ok.inj this
        rw [← this]
      obtain ⟨h1, h2⟩ := findChannel_ok hf
      obtain ⟨k, e, ok⟩ := hi.chans.some c h1
      exact ⟨k, by rw [← h2]; exact e, by rw [hc]; exact ok⟩

theorem filter_getLast?_unique {channels : List (Channel N S)} (hs : Sorted channels) {c : Channel N S} (hc : c ∈ channels) :
    (channels.filter (fun a => a.name = c.name)).getLast? = some c := by
  have hm : c ∈ channels.filter (fun a => a.name = c.name) := List.mem_filter.2 ⟨hc, by simp⟩
  cases hg : (channels.filter (fun a => a.name = c.name)).getLast? with
  | none => rw [List.getLast?_eq_none_iff] at hg; rw [hg] at hm; simp at hm
  | some a =>
    have ha := List.mem_of_getLast? hg
    rw [List.mem_filter] at ha
    rw [sorted_unique hs ha.1 hc (by simpa using ha.2)]

theorem channelTable_spec {L : Logger N S} (hs : Sorted L.channels) (rules : List (Rule N S)) :
    SortedKeys (channelTable L rules) ∧ ∀ n v, (n, v) ∈ channelTable L rules ↔
      match (rules.filter (fun r => r.name = n)).getLast? with
      | some r => v = (some r.logger, r.channel)
      | none => v.1 = none ∧ v.2 ∈ L.channels ∧ v.2.name = n := by
  have h0 := foldl_assign (fun c : Channel N S => c.name) (fun c => ((none : Option (Logger N S)), c)) [] List.Pairwise.nil L.channels
  have h1 := foldl_assign (fun r : Rule N S => r.name) (fun r => (some r.logger, r.channel)) _ h0.1 rules
  refine ⟨h1.1, fun n v => ?_⟩
  refine (h1.2 n v).trans ?_
  cases (rules.filter (fun r => decide (r.name = n))).getLast? with
  | some r => exact Iff.rfl
  | none =>
    refine (h0.2 n v).trans ?_
    constructor
    · intro h
      cases hg : (L.channels.filter (fun a => decide (a.name = n))).getLast? with
      | none => rw [hg] at h; simp at h
      | some c =>
        rw [hg] at h
        have hm := List.mem_filter.1 (List.mem_of_getLast? hg)
        simp only at h
        rw [h]
        exact ⟨rfl, hm.1, by simpa using hm.2⟩
    · rintro ⟨e1, e2, e3⟩
      subst e3
      rw [filter_getLast?_unique hs e2]
      exact Prod.ext e1 rfl

theorem lastTarget_map (refs : List (Ref N S)) (n : N) :
    lastTarget (refs.map Ref.target) n = ((refs.filter (fun x => x.rule.name = n)).getLast?).map Ref.target := by
  unfold lastTarget
  rw [List.filter_map, List.getLast?_map]
  rfl

theorem lastRule_map (refs : List (Ref N S)) (n : N) :
    ((refs.map (·.rule)).filter (fun r => r.name = n)).getLast? = ((refs.filter (fun x => x.rule.name = n)).getLast?).map (·.rule) := by
  rw [List.filter_map, List.getLast?_map]
  rfl

theorem makeChannel_name (p : Prefix S) (e : N × Option (Logger N S) × Channel N S) : (makeChannel p e).1.name = e.1 := rfl

theorem chansOk_withChannels {L : Logger N S} {d : Desc N S} (h : Inv L d) (refs : List (Ref N S))
    (hi : ∀ x ∈ refs, Inv x.rule.logger x.desc) (hv : ∀ x ∈ refs, x.Valid) :
    ChansOk (((channelTable L (refs.map (·.rule))).map (makeChannel L.pre)).map (·.1)) (d.withChannels (refs.map Ref.target)).chan := by
  obtain ⟨ts, tm⟩ := channelTable_spec h.chans.sorted (refs.map (·.rule))
  have hpre : L.pre.text = d.pre := funext h.pre
  have key : ∀ e ∈ channelTable L (refs.map (·.rule)),
      ∃ k, (d.withChannels (refs.map Ref.target)).chan e.1 = some k ∧ ChanOk (makeChannel L.pre e).1 k := by
    rintro ⟨n, v⟩ he
    have he := (tm n v).1 he
    rw [lastRule_map] at he
    simp only [Desc.withChannels, lastTarget_map]
    cases hg : (refs.filter (fun x => decide (x.rule.name = n))).getLast? with
    | none =>
      rw [hg] at he
      simp only [Option.map_none] at he ⊢
      obtain ⟨e1, e2, e3⟩ := he
      obtain ⟨k, hk, ok⟩ := h.chans.some _ e2
      rw [e3] at hk
      refine ⟨k.addText d.pre, by rw [hk]; rfl, ?_⟩
      unfold makeChannel
      simp only [e1]
      rw [← hpre]
      exact combine_ok ok L.pre h.null n
    | some x =>
      rw [hg] at he
      simp only [Option.map_some] at he ⊢
      have hx := (List.mem_filter.1 (List.mem_of_getLast? hg)).1
      obtain ⟨k, hk, ok⟩ := ref_ok (hi x hx) (hv x hx)
      have hp : x.rule.logger.pre.text = x.desc.pre := funext (hi x hx).pre
      refine ⟨k.addText x.desc.pre, by simp [Target.chan, Ref.target, hk], ?_⟩
      unfold makeChannel
      simp only [he]
      rw [← hp]
      exact combine_ok ok _ (hi x hx).null n
  refine ⟨?_, fun n => ?_, fun c hc => ?_⟩
  · unfold Sorted
    rw [List.pairwise_map, List.pairwise_map]
    exact ts
  · constructor
    · intro hn c hc e
      rw [List.map_map] at hc
      obtain ⟨x, hx, rfl⟩ := List.mem_map.1 hc
      obtain ⟨k, hk, _⟩ := key x hx
      have e : x.1 = n := e
      rw [e, hn] at hk
      cases hk
    · intro hn
      have hn' : ∀ v, (n, v) ∉ channelTable L (refs.map (·.rule)) := fun v hm =>
        hn _ (List.mem_map_of_mem (List.mem_map_of_mem hm)) rfl
      simp only [Desc.withChannels, lastTarget_map]
      cases hg : (refs.filter (fun x => decide (x.rule.name = n))).getLast? with
      | none =>
        simp only [Option.map_none]
        rw [Option.map_eq_none_iff, h.chans.none]
        intro c hc e
        refine hn' (none, c) ((tm n _).2 ?_)
        rw [lastRule_map, hg]
        exact ⟨rfl, hc, e⟩
      | some x =>
        exfalso
        refine hn' (some x.rule.logger, x.rule.channel) ((tm n _).2 ?_)
        rw [lastRule_map, hg]
        rfl
  · rw [List.map_map] at hc
    obtain ⟨x, hx, rfl⟩ := List.mem_map.1 hc
    exact key x hx

theorem makeChannel_count (p : Prefix S) (e : N × Option (Logger N S) × Channel N S) :
    (makeChannel p e).2 = match e.2.1 with
      | some logger => countPrefix e.2.2.pre logger.pre
      | none => countPrefix e.2.2.pre p := by
  unfold makeChannel
  cases h : e.2.1 <;> simp only [h, combine_count]

/-- The channel that remains selected. -/
theorem exists_selected {channels : List (Channel N S)} {chan : N → Option (Chan S)} (h : ChansOk channels chan) {name : N}
    (hn : chan name ≠ none) : ∃ c ∈ channels, c.name = name := by
  by_contra hc
  exact hn ((h.none name).2 (fun c hm e => hc ⟨c, hm, e⟩))

theorem withChannels_selected {L : Logger N S} {d : Desc N S} (h : Inv L d) (refs : List (Ref N S))
    (hi : ∀ x ∈ refs, Inv x.rule.logger x.desc) (hv : ∀ x ∈ refs, x.Valid) :
    (d.withChannels (refs.map Ref.target)).chan L.channel.name ≠ none := by
  simp only [Desc.withChannels, lastTarget_map]
  cases hg : (refs.filter (fun x => decide (x.rule.name = L.channel.name))).getLast? with
  | none =>
    obtain ⟨k, hk, _⟩ := h.chans.some _ h.mem
    simp [hk]
  | some x =>
    have hx := (List.mem_filter.1 (List.mem_of_getLast? hg)).1
    obtain ⟨k, hk, ok⟩ := ref_ok (hi x hx) (hv x hx)
    simp [Target.chan, Ref.target, hk]

theorem channelLogger_spec {L : Logger N S} {d : Desc N S} (h : Inv L d) (refs : List (Ref N S))
    (hi : ∀ x ∈ refs, Inv x.rule.logger x.desc) (hv : ∀ x ∈ refs, x.Valid) :
    ∃ L', channelLogger L (refs.map (·.rule)) = .ok L' ∧ Inv L' (d.withChannels (refs.map Ref.target)) := by
  have ok := chansOk_withChannels h refs hi hv
  obtain ⟨c, hc, hn⟩ := exists_selected ok (withChannels_selected h refs hi hv)
  have hr := reselect_mem ok.sorted hc
  rw [hn] at hr
  refine ⟨Logger.of nullPrefix c (((channelTable L (refs.map (·.rule))).map (makeChannel L.pre)).map (·.1)), ?_, ?_⟩
  · unfold channelLogger
    simp only []
    rw [if_neg]
    · simp only [hr]; rfl
    · rw [not_not, List.map_map]
      congr 1
      exact List.map_congr_left (fun e _ => makeChannel_count L.pre e)
  · have := inv_of ok hc nullPrefix (fun _ _ => rfl) (fun _ => []) (fun _ => rfl) _ rfl
    have hsel : c.name = d.selected := hn.trans h.name
    rw [hsel] at this
    exact this

/-! ## Duplicating loggers -/

theorem index_unique {channels : List (Channel N S)} (hs : Sorted channels) {i j : ℕ} {a b : Channel N S} (ha : channels[i]? = some a)
    (hb : channels[j]? = some b) (h : a.name = b.name) : i = j := by
  obtain ⟨hi, ea⟩ := List.getElem?_eq_some_iff.1 ha
  obtain ⟨hj, eb⟩ := List.getElem?_eq_some_iff.1 hb
  have hp := List.pairwise_iff_getElem.1 hs
  rcases Nat.lt_trichotomy i j with hlt | he | hgt
  · have := hp i j hi hj hlt
    rw [ea, eb, h] at this
    exact absurd this (lt_irrefl _)
  · exact he
  · have := hp j i hj hi hgt
    rw [ea, eb, h] at this
    exact absurd this (lt_irrefl _)

theorem originTable_ok {channels : List (Channel N S)} (hs : Sorted channels) : ∀ (rules : List (Rule N S)) (m : ℕ → Option (Rule N S)),
    (∀ r ∈ rules, ∃ c ∈ channels, c.name = r.name) → ∃ m', originTable channels rules m = .ok m' ∧
      ∀ i c, channels[i]? = some c → m' i = ((rules.filter (fun r => r.name = c.name)).getLast?).or (m i)
  | [], m, _ => ⟨m, rfl, fun i c _ => by simp⟩
  | r :: rules, m, h => by
    obtain ⟨c0, hc0, e0⟩ := h r (List.mem_cons_self ..)
    obtain ⟨i0, f0, g0⟩ := findIndex_mem hs hc0
    rw [e0] at f0
    obtain ⟨m', h1, h2⟩ := originTable_ok hs rules (fun k => if k = i0 then some r else m k) (fun x hx => h x (List.mem_cons_of_mem _ hx))
    refine ⟨m', by simp only [originTable, f0]; exact h1, fun i c hc => ?_⟩
    rw [h2 i c hc]
    by_cases hn : r.name = c.name
    · have hi : i = i0 := index_unique hs hc g0 (by rw [e0, hn])
      rw [List.filter_cons_of_pos (by simpa using hn), List.getLast?_cons, if_pos hi]
      cases (rules.filter (fun r => decide (r.name = c.name))).getLast? <;> rfl
    · have hi : i ≠ i0 := by
        intro e
        subst e
        rw [hc] at g0
        cases g0
        exact hn e0.symm
      rw [List.filter_cons_of_neg (by simpa using hn), if_neg hi]

theorem originTable_error {channels : List (Channel N S)} (hs : Sorted channels) : ∀ (rules : List (Rule N S)) (m : ℕ → Option (Rule N S)),
    (∃ r ∈ rules, ∀ c ∈ channels, c.name ≠ r.name) → originTable channels rules m = .error .noSuchChannel
  | [], m, h => by obtain ⟨r, hr, _⟩ := h; simp at hr
  | r :: rules, m, h => by
    unfold originTable
    cases hf : findIndex channels r.name with
    | none => rfl
    | some i =>
      refine originTable_error hs rules _ ?_
      obtain ⟨x, hx, hn⟩ := h
      rcases List.mem_cons.1 hx with rfl | hx
      · rw [(findIndex_none hs).2 hn] at hf; cases hf
      · exact ⟨x, hx, hn⟩

theorem mapIdx_eq_map {A B : Type} (l : List A) (f : ℕ → A → B) (g : A → B) (h : ∀ i a, l[i]? = some a → f i a = g a) :
    l.mapIdx f = l.map g := by
  apply List.ext_getElem?
  intro i
  rw [List.getElem?_mapIdx, List.getElem?_map]
  cases hi : l[i]? with
  | none => rfl
  | some a => simp [h i a hi]

theorem sum_map_add' {A : Type} (l : List A) (f g : A → ℕ) : (l.map (fun a => f a + g a)).sum = (l.map f).sum + (l.map g).sum := by
  induction l with
  | nil => rfl
  | cons a l ih => simp only [List.map_cons, List.sum_cons, ih]; omega

theorem duplicate_name (p : Prefix S) (t : Option (Rule N S)) (c : Channel N S) : (duplicate p t c).1.name = c.name := by
  cases t <;> rfl

theorem duplicate_count (p : Prefix S) (t : Option (Rule N S)) (c : Channel N S) :
    (duplicate p t c).2 = (match t with
      | some rule => countPrefix rule.channel.pre rule.logger.pre
      | none => 0) + countPrefix c.pre p := by
  cases t with
  | none => simp [duplicate, combine_count]
  | some r => simp [duplicate, combine_count, Nat.add_comm]

theorem duplicatingLimit_fixed {a b : Limit S} (ha : ∀ f, a.fixed = some f → ∀ s, a.level s = f) (hb : ∀ f, b.fixed = some f → ∀ s, b.level s = f)
    (f : ℕ) (h : (duplicatingLimit a b).fixed = some f) (s : S) : (duplicatingLimit a b).level s = f := by
  unfold duplicatingLimit at h ⊢
  simp only at h ⊢
  cases ea : a.fixed with
  | none => rw [ea] at h; cases h
  | some x =>
    cases eb : b.fixed with
    | none => rw [ea, eb] at h; cases h
    | some y =>
      rw [ea, eb] at h
      cases h
      rw [ha x ea, hb y eb]

theorem both_ok {c1 c2 : Channel N S} {k1 k2 : Chan S} (h1 : ChanOk c1 k1) (h2 : ChanOk c2 k2) (name : N) :
    ChanOk ⟨name, duplicatingLimit c1.limit c2.limit, nullPrefix, duplicatingSink c1.pre c2.pre c1.sink c2.sink⟩ (both k1 k2) := by
  obtain ⟨r1, a1, b1⟩ := h1.sink
  obtain ⟨r2, a2, b2⟩ := h2.sink
  exact
    { sink := by
        refine ⟨k1.routes ++ k2.routes, ?_, ?_⟩
        · show _ = List.map (Route.addText (fun _ => [])) _
          rw [show (Route.addText (fun _ => []) : Route S → Route S) = id from funext addText_nil, List.map_id]
          rfl
        · intro s level cp mp message
          rw [List.flatMap_append, a1, a2, List.flatMap_map, List.flatMap_map]
          simp only [duplicatingSink, b1, b2, deliver_addText, compound, List.append_assoc]
      limit := fun s => by simp only [duplicatingLimit, both, h1.limit, h2.limit]
      fixed := fun f hf s => duplicatingLimit_fixed h1.fixed h2.fixed f hf s
      bound := fun s level hl ho => by
        obtain ⟨r, hr, ho⟩ := ho
        rcases List.mem_append.1 hr with hr | hr
        · exact Nat.le_trans (h1.bound s level hl ⟨r, hr, ho⟩) (Nat.le_max_left _ _)
        · exact Nat.le_trans (h2.bound s level hl ⟨r, hr, ho⟩) (Nat.le_max_right _ _)
      null := fun _ _ => rfl }

theorem duplicate_ok {L : Logger N S} {d : Desc N S} (h : Inv L d) (refs : List (Ref N S)) (hi : ∀ x ∈ refs, Inv x.rule.logger x.desc)
    (hv : ∀ x ∈ refs, x.Valid) {c : Channel N S} (hc : c ∈ L.channels) :
    ∃ k, (d.duplicated (refs.map Ref.target)).chan c.name = some k ∧
      ChanOk (duplicate L.pre (((refs.map (·.rule)).filter (fun r => r.name = c.name)).getLast?) c).1 k := by
  obtain ⟨k, hk, ok⟩ := h.chans.some c hc
  have hpre : L.pre.text = d.pre := funext h.pre
  rw [lastRule_map]
  simp only [Desc.duplicated, lastTarget_map, hk, Option.map_some]
  have ok1 := combine_ok ok L.pre h.null c.name
  cases hg : (refs.filter (fun x => decide (x.rule.name = c.name))).getLast? with
  | none =>
    refine ⟨_, rfl, ?_⟩
    rw [← hpre]
    exact ok1
  | some x =>
    have hx := (List.mem_filter.1 (List.mem_of_getLast? hg)).1
    obtain ⟨k2, hk2, ok2⟩ := ref_ok (hi x hx) (hv x hx)
    have hp : x.rule.logger.pre.text = x.desc.pre := funext (hi x hx).pre
    refine ⟨both (k.addText d.pre) (k2.addText x.desc.pre), by simp [Target.chan, Ref.target, hk2], ?_⟩
    rw [← hpre, ← hp]
    exact both_ok ok1 (combine_ok ok2 x.rule.logger.pre (hi x hx).null c.name) c.name

theorem duplicated_none {d : Desc N S} (targets : List (Target N S)) (n : N) : (d.duplicated targets).chan n = none ↔ d.chan n = none := by
  simp only [Desc.duplicated]
  cases d.chan n with
  | none => simp
  | some k =>
    simp only [Option.map_some, reduceCtorEq, iff_false]
    cases (lastTarget targets n).map Target.chan with
    | none => simp
    | some o => cases o <;> simp

theorem duplicatingLogger_spec {L : Logger N S} {d : Desc N S} (h : Inv L d) (refs : List (Ref N S))
    (hi : ∀ x ∈ refs, Inv x.rule.logger x.desc) (hv : ∀ x ∈ refs, x.Valid) (he : ∀ x ∈ refs, d.chan x.rule.name ≠ none) :
    ∃ L', duplicatingLogger L (refs.map (·.rule)) = .ok L' ∧ Inv L' (d.duplicated (refs.map Ref.target)) := by
  obtain ⟨m, hm1, hm2⟩ := originTable_ok h.chans.sorted (refs.map (·.rule)) (fun _ => none) (by
    intro r hr
    obtain ⟨x, hx, rfl⟩ := List.mem_map.1 hr
    exact exists_selected h.chans (he x hx))
  let f : Channel N S → Channel N S × ℕ :=
    fun c => duplicate L.pre (((refs.map (·.rule)).filter (fun r => r.name = c.name)).getLast?) c
  have hm3 : ∀ i c, L.channels[i]? = some c → m i = ((refs.map (·.rule)).filter (fun r => r.name = c.name)).getLast? := fun i c hc => by
    rw [hm2 i c hc]; cases ((refs.map (·.rule)).filter (fun r => decide (r.name = c.name))).getLast? <;> rfl
  have hmade : L.channels.mapIdx (fun i c => duplicate L.pre (m i) c) = L.channels.map f :=
    mapIdx_eq_map _ _ _ (fun i c hc => by rw [hm3 i c hc])
  have hnum : L.channels.mapIdx (fun i _ => match m i with
      | some rule => countPrefix rule.channel.pre rule.logger.pre
      | none => 0) = L.channels.map (fun c => match ((refs.map (·.rule)).filter (fun r => r.name = c.name)).getLast? with
      | some rule => countPrefix rule.channel.pre rule.logger.pre
      | none => 0) :=
    mapIdx_eq_map _ _ _ (fun i c hc => by rw [hm3 i c hc])
  have ok : ChansOk ((L.channels.map f).map (·.1)) (d.duplicated (refs.map Ref.target)).chan := by
    rw [List.map_map]
    refine ⟨sorted_map h.chans.sorted _ (fun c => duplicate_name _ _ c), fun n => ?_, fun c hc => ?_⟩
    · rw [duplicated_none, h.chans.none]
      simp [f, duplicate_name]
    · obtain ⟨c', hc', rfl⟩ := List.mem_map.1 hc
      have := duplicate_ok h refs hi hv hc'
      rw [Function.comp_apply, duplicate_name]
      exact this
  obtain ⟨c, hc, hn⟩ := exists_selected ok (name := L.channel.name) (by
    rw [ne_eq, duplicated_none]
    obtain ⟨k, hk, _⟩ := h.chans.some _ h.mem
    rw [hk]; simp)
  have hr := reselect_mem ok.sorted hc
  rw [hn] at hr
  refine ⟨Logger.of nullPrefix c ((L.channels.map f).map (·.1)), ?_, ?_⟩
  · unfold duplicatingLogger
    simp only [hm1]
    show (if _ then _ else _) = _
    simp only [hmade]
    rw [if_neg]
    · simp only [hr]; rfl
    · rw [not_not, List.map_map]
      refine Eq.trans ?_ (congrArg (fun x => List.sum x + _) hnum.symm)
      rw [← sum_map_add']
      congr 1
      exact List.map_congr_left (fun c _ => duplicate_count L.pre _ c)
  · have := inv_of ok hc nullPrefix (fun _ _ => rfl) (fun _ => []) (fun _ => rfl) _ rfl
    have hsel : c.name = d.selected := hn.trans h.name
    rw [hsel] at this
    exact this

theorem duplicatingLogger_error {L : Logger N S} {d : Desc N S} (h : Inv L d) (rules : List (Rule N S))
    (he : ∃ r ∈ rules, d.chan r.name = none) : duplicatingLogger L rules = .error .noSuchChannel := by
  unfold duplicatingLogger
  rw [originTable_error h.chans.sorted]
  · rfl
  · obtain ⟨r, hr, hn⟩ := he
    exact ⟨r, hr, (h.chans.none _).1 hn⟩

/-! ## All loggers -/

theorem inv {L : Logger N S} {d : Desc N S} (h : Built L d) : Inv L d := by
  induction h with
  | root root name => exact inv_root root name
  | null name => exact inv_null name
  | @copy L d _ ih =>
    have := inv_derive ih ih.mem L.pre ih.null (fun _ => []) (fun s => by rw [ih.pre, List.append_nil])
    rw [ih.name] at this
    exact this
  | select name _ he ih =>
    obtain ⟨c, hc, rfl, rfl⟩ := select_ok he
    exact inv_derive ih hc _ ih.null (fun _ => []) (fun s => by rw [ih.pre, List.append_nil])
  | pre text _ ih =>
    have := inv_addPrefix ih ih.mem text
    rw [ih.name] at this
    exact this
  | preOn text name _ he ih =>
    obtain ⟨c, hc, rfl, rfl⟩ := prefixLoggerOn_ok he
    exact inv_addPrefix ih hc text
  | limited limit isMatch _ hf he ih => exact inv_limited ih limit isMatch hf he
  | withChannels refs _ _ hv he ih ihs =>
    obtain ⟨L', h1, h2⟩ := channelLogger_spec ih refs ihs hv
    rw [h1] at he
    cases he
    exact h2
  | @duplicated L L' d refs _ _ hv he ih ihs =>
    by_cases hn : ∀ x ∈ refs, d.chan x.rule.name ≠ none
    · obtain ⟨L', h1, h2⟩ := duplicatingLogger_spec ih refs ihs hv hn
      rw [h1] at he
      cases he
      exact h2
    · exfalso
      rw [duplicatingLogger_error ih] at he
      · cases he
      · by_contra hc
        refine hn (fun x hx hx' => hc ⟨x.rule, List.mem_map_of_mem hx, hx'⟩)

theorem willLog_iff {L : Logger N S} {d : Desc N S} (h : Inv L d) (s : S) (level : ℕ) : L.willLog s level = true ↔ level ≤ d.limit s := by
  unfold Logger.willLog
  rw [h.fixedEq, ← h.limit]
  cases hf : L.limit.fixed with
  | none => simp
  | some f =>
    rw [h.fixed f hf]
    simp only
    split
    · rename_i hg; simp only [Bool.false_eq_true, false_iff]; omega
    · rename_i hg; simp only [true_iff]; omega

theorem levelLimit_eq {L : Logger N S} {d : Desc N S} (h : Inv L d) (s : S) : L.levelLimit s = d.limit s := by
  unfold Logger.levelLimit
  rw [h.fixedEq, ← h.limit]
  cases hf : L.limit.fixed with
  | none => rfl
  | some f => exact (h.fixed f hf s).symm

theorem sink_eq {L : Logger N S} {d : Desc N S} (h : Inv L d) (s : S) (level : ℕ) (message : List Char) :
    L.channel.sink s level L.channel.pre L.pre message = d.expected s level message := by
  obtain ⟨k, hk, ok⟩ := h.chans.some _ h.mem
  obtain ⟨rs, h1, h2⟩ := ok.sink
  unfold Desc.expected
  rw [← h.name, hk, h2]
  simp only [h1, List.flatMap_map, deliver_addText, h.pre]

theorem log_eq {L : Logger N S} {d : Desc N S} (h : Inv L d) (s : S) (level : ℕ) (message : List Char) :
    L.log s level message = if level ≤ d.limit s then d.expected s level message else [] := by
  unfold Logger.log
  rw [sink_eq h]
  by_cases hl : level ≤ d.limit s
  · rw [if_pos hl, if_pos ((willLog_iff h s level).2 hl)]
  · rw [if_neg hl, if_neg (fun e => hl ((willLog_iff h s level).1 e))]

theorem expected_nil {L : Logger N S} {d : Desc N S} (h : Inv L d) (ht : d.tied = true) (s : S) (level : ℕ) (ha : level ≤ all)
    (hl : ¬ level ≤ d.limit s) (message : List Char) : d.expected s level message = [] := by
  obtain ⟨k, hk, ok⟩ := h.chans.some _ h.mem
  unfold Desc.expected
  rw [← h.name, hk]
  simp only [List.flatMap_eq_nil_iff]
  intro r hr
  unfold Route.deliver
  rw [if_neg]
  intro ho
  apply hl
  rw [← h.limit, h.tied ht, ok.limit]
  exact ok.bound s level ha ⟨r, hr, ho⟩

end Verif.Log
