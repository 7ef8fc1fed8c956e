import Mathlib.Order.Defs.LinearOrder
import Mathlib.Data.List.Basic

/-!
# Model of loggers

Model of `/repo/src/archon/log/`: root loggers, the null logger, and loggers that are built on top of other loggers. An object is modelled
by what can be observed through its interface. A sink is the function that maps a call of `sink_log()` to the list of messages that are
written to root loggers as a result. `S` is the type of the state of the variable log level limits, and of the clock. `N` is the type of
channel names.
-/

namespace Verif.Log

/-- `LogLevel::off` (`/repo/src/archon/log/log_level.hpp:46`). Log levels are represented by their numeric values. -/
def off : ℕ := 0
/-- `LogLevel::warn` (`/repo/src/archon/log/log_level.hpp:55`). -/
def warn : ℕ := 3
/-- `LogLevel::info` (`/repo/src/archon/log/log_level.hpp:59`). -/
def info : ℕ := 4
/-- `LogLevel::all` (`/repo/src/archon/log/log_level.hpp:72`). -/
def all : ℕ := 8

/-- `log::Limit` (`/repo/src/archon/log/limit.hpp:33-40`). For the fixed limit, `none` is `std::numeric_limits<int>::max()`, which means
that the limit is variable. -/
structure Limit (S : Type) where
  fixed : Option ℕ
  level : S → ℕ

/-- `RootLimit` (`/repo/src/archon/log/limit.hpp:77-86`). -/
def rootLimit {S : Type} : Limit S := ⟨some all, fun _ => all⟩

/-- `NullLimit` (`/repo/src/archon/log/limit.hpp:93-102`). -/
def nullLimit {S : Type} : Limit S := ⟨some off, fun _ => off⟩

/-- `BasicPrefix` (`/repo/src/archon/log/prefix.hpp:34-43`): the result of `is_null_prefix()`, and the text that is written by
`format_prefix()`. -/
structure Prefix (S : Type) where
  isNull : Bool
  text : S → List Char

/-- `BasicNullPrefix` (`/repo/src/archon/log/prefix.hpp:115-125`). -/
def nullPrefix {S : Type} : Prefix S := ⟨true, fun _ => []⟩

/-- `BasicCompoundPrefix` (`/repo/src/archon/log/prefix.hpp:132-156`). -/
def compound {S : Type} (left right : Prefix S) : Prefix S := ⟨false, fun s => left.text s ++ right.text s⟩

/-- `BasicSink::sink_log()` (`/repo/src/archon/log/sink.hpp:49-50`): log level, channel prefix, message prefix, and message. The result is
what gets written, and to which root loggers. -/
abbrev Sink (S : Type) := S → ℕ → Prefix S → Prefix S → List Char → List (ℕ × List Char)

/-- `BasicChannel` (`/repo/src/archon/log/channel.hpp:41-69`). -/
structure Channel (N S : Type) where
  name : N
  limit : Limit S
  pre : Prefix S
  sink : Sink S

/-- `BasicLogger` (`/repo/src/archon/log/logger.hpp:99-293`). A channel map is modelled by its channels. -/
structure Logger (N S : Type) where
  fixed : Option ℕ
  limit : Limit S
  pre : Prefix S
  channel : Channel N S
  channels : List (Channel N S)

/-- The two ways that the construction of a logger can fail. -/
inductive Failure where
  | noSuchChannel
  | assertion

variable {N S : Type} [LinearOrder N]

/-! ## Searching for channels -/

/-- `BasicChannelMap::do_find_channel()` (`/repo/src/archon/log/channel_map.hpp:112-124`). A channel is represented by its index.
`std::lower_bound()` gives the position of the first channel whose name is not less than the specified one. -/
def findIndex (channels : List (Channel N S)) (name : N) : Option ℕ :=
  let i := (channels.takeWhile (fun c => decide (c.name < name))).length
  match channels[i]? with
  | some c => if c.name = name then some i else none
  | none => none

/-- `BasicChannelMap::find_channel()` (`/repo/src/archon/log/channel_map.hpp:78-94`). -/
def findChannel (channels : List (Channel N S)) (name : N) : Except Failure (Channel N S) :=
  match (findIndex channels name).bind (fun i => channels[i]?) with
  | some c => .ok c
  | none => .error .noSuchChannel

/-- Search for the channel to be selected in a new logger with assertion that it exists
(`/repo/src/archon/log/limit_logger.hpp:195-198`, `/repo/src/archon/log/channel_logger.hpp:196-199`,
`/repo/src/archon/log/duplicating_logger.hpp:269-272`). -/
def reselect (channels : List (Channel N S)) (name : N) : Except Failure (Channel N S) :=
  match (findIndex channels name).bind (fun i => channels[i]?) with
  | some c => .ok c
  | none => .error .assertion

/-! ## Logging -/

/-- `BasicLogger::will_log()` (`/repo/src/archon/log/logger.hpp:646-656`). -/
def Logger.willLog (L : Logger N S) (s : S) (level : ℕ) : Bool :=
  match L.fixed with
  | some f => if level > f then false else true
  | none => decide (level ≤ L.limit.level s)

/-- `BasicLogger::get_log_level_limit()` (`/repo/src/archon/log/logger.hpp:659-666`). -/
def Logger.levelLimit (L : Logger N S) (s : S) : ℕ :=
  match L.fixed with
  | some f => f
  | none => L.limit.level s

/-- `BasicLogger::log()` (`/repo/src/archon/log/logger.hpp:627-643`) and `BasicChannel::channel_log()`
(`/repo/src/archon/log/channel.hpp:85-106`). The message is the one that results from substitution of parameters. -/
def Logger.log (L : Logger N S) (s : S) (level : ℕ) (message : List Char) : List (ℕ × List Char) :=
  if L.willLog s level then L.channel.sink s level L.channel.pre L.pre message else []

/-! ## Construction -/

/-- `BasicLogger::BasicLogger()` with limit, prefix, channel, and channel map (`/repo/src/archon/log/logger.hpp:754-771`). -/
def Logger.ofLimit (limit : Limit S) (pre : Prefix S) (channel : Channel N S) (channels : List (Channel N S)) : Logger N S :=
  ⟨limit.fixed, limit, pre, channel, channels⟩

/-- `BasicLogger::BasicLogger()` with prefix, channel, and channel map (`/repo/src/archon/log/logger.hpp:690-695`). -/
def Logger.of (pre : Prefix S) (channel : Channel N S) (channels : List (Channel N S)) : Logger N S :=
  Logger.ofLimit channel.limit pre channel channels

/-- `BasicLogger::BasicLogger()` with base logger (`/repo/src/archon/log/logger.hpp:676-680`). -/
def copy (L : Logger N S) : Logger N S := Logger.of L.pre L.channel L.channels

/-- `BasicLogger::BasicLogger()` with base logger and channel (`/repo/src/archon/log/logger.hpp:683-687`). -/
def select (L : Logger N S) (name : N) : Except Failure (Logger N S) := do
  let channel ← findChannel L.channels name
  .ok (Logger.of L.pre channel L.channels)

/-- A root logger: its identity, and what is written by `format_log_level()` (`/repo/src/archon/log/logger.hpp:319`), which is a virtual
function. -/
structure Root where
  id : ℕ
  levelText : ℕ → List Char

/-- `BasicSink::get_level_prefix()` (`/repo/src/archon/log/sink.hpp:75-95`). -/
def levelPrefix (level : ℕ) : List Char :=
  if level = 3 then "WARNING: ".toList else if level = 2 then "ERROR: ".toList else if level = 1 then "FATAL: ".toList else []

/-- `message.find(newline, i)` in `BasicRootLogger::sink_log()` (`/repo/src/archon/log/logger.hpp:816` and `834`). -/
def findNewline (message : List Char) (i : ℕ) : Option ℕ :=
  if (message.drop i).contains '\n' then some (i + (message.drop i).idxOf '\n') else none

/-- The loop in `BasicRootLogger::sink_log()` (`/repo/src/archon/log/logger.hpp:829-836`) for the specified values of `i` and `j`, and what
comes after it (`/repo/src/archon/log/logger.hpp:837-840`). The last argument is what was appended so far. The number of iterations is
bounded. -/
def assembleLoop (pre message : List Char) : ℕ → ℕ → ℕ → List Char → Option (List Char)
  | 0, _, _, _ => none
  | fuel + 1, i, j, acc =>
    let j := j + 1
    let acc := acc ++ pre ++ (message.drop i).take (j - i)
    let i := j
    match findNewline message i with
    | some j => assembleLoop pre message fuel i j acc
    | none => some (acc ++ pre ++ message.drop i ++ ['\n'])

/-- `message_2` in `BasicRootLogger::sink_log()` (`/repo/src/archon/log/logger.hpp:813-841`). -/
def assemble (pre message : List Char) : Option (List Char) :=
  match findNewline message 0 with
  | none => some (pre ++ message ++ ['\n'])
  | some j => assembleLoop pre message (message.length + 1) 0 j []

/-- `BasicRootLogger::sink_log()` (`/repo/src/archon/log/logger.hpp:804-843`). -/
def rootSink (root : Root) : Sink S := fun s level channelPrefix messagePrefix message =>
  match assemble (channelPrefix.text s ++ messagePrefix.text s ++ root.levelText level) message with
  | some text => [(root.id, text)]
  | none => []

/-- The only channel of a root logger (`/repo/src/archon/log/logger.hpp:789`). `name` is the empty string. -/
def rootChannel (root : Root) (name : N) : Channel N S := ⟨name, rootLimit, nullPrefix, rootSink root⟩

/-- `BasicRootLogger::BasicRootLogger()` (`/repo/src/archon/log/logger.hpp:785-794`). -/
def rootLogger (root : Root) (name : N) : Logger N S := Logger.ofLimit rootLimit nullPrefix (rootChannel root name) [rootChannel root name]

/-- The only channel of a null logger (`/repo/src/archon/log/logger.hpp:967`). -/
def nullChannel (name : N) : Channel N S := ⟨name, nullLimit, nullPrefix, fun _ _ _ _ _ => []⟩

/-- `BasicNullLogger::BasicNullLogger()` (`/repo/src/archon/log/logger.hpp:963-976`). -/
def nullLogger (name : N) : Logger N S := Logger.ofLimit nullLimit nullPrefix (nullChannel name) [nullChannel name]

/-- `BasicPrefixLogger::BasicPrefixLogger()` (`/repo/src/archon/log/prefix_logger.hpp:128-135` and `148-153`), and
`BasicTimestampLogger::BasicTimestampLogger()` (`/repo/src/archon/log/timestamp_logger.hpp:186-191` and `205-219`). The text of a prefix
logger does not depend on the state. -/
def addPrefix (L : Logger N S) (channel : Channel N S) (text : S → List Char) : Logger N S :=
  Logger.of ⟨false, fun s => L.pre.text s ++ text s⟩ channel L.channels

/-- `BasicPrefixLogger::BasicPrefixLogger()` with base logger and prefix (`/repo/src/archon/log/prefix_logger.hpp:97-101`). -/
def prefixLogger (L : Logger N S) (text : S → List Char) : Logger N S := addPrefix L L.channel text

/-- `BasicPrefixLogger::BasicPrefixLogger()` with base logger, prefix, and channel (`/repo/src/archon/log/prefix_logger.hpp:120-125`). -/
def prefixLoggerOn (L : Logger N S) (text : S → List Char) (name : N) : Except Failure (Logger N S) := do
  let channel ← findChannel L.channels name
  .ok (addPrefix L channel text)

/-! ## Limits -/

/-- `LimitImpl` (`/repo/src/archon/log/limit_logger.hpp:92-124`): the fixed limit, and the value of the variable. -/
structure LimitVar where
  fixed : Option ℕ
  variable' : ℕ

/-- `LimitImpl::LimitImpl()` (`/repo/src/archon/log/limit_logger.hpp:96-101`). -/
def LimitVar.new (fixed : Option ℕ) : LimitVar := ⟨fixed, fixed.getD info⟩

/-- `LimitImpl::set()` (`/repo/src/archon/log/limit_logger.hpp:103-107`). -/
def LimitVar.set (assertions : Bool) (v : LimitVar) (limit : ℕ) : Except Failure LimitVar :=
  if assertions && !(v.fixed != none) then .error .assertion else .ok { v with variable' := limit }

/-- `SinkImpl::sink_log()` of a limit logger (`/repo/src/archon/log/limit_logger.hpp:141-147`). -/
def limitSink (limit : Limit S) (sink : Sink S) : Sink S := fun s level channelPrefix messagePrefix message =>
  if level ≤ limit.level s then sink s level channelPrefix messagePrefix message else []

/-- Construction of a channel of a limit logger (`/repo/src/archon/log/limit_logger.hpp:181-192`). -/
def limitChannel (limit : Limit S) (isMatch : N → Bool) (c : Channel N S) : Channel N S :=
  if isMatch c.name then { c with limit := limit, sink := limitSink limit c.sink } else c

/-- `BasicLimitLogger::BasicLimitLogger()` (`/repo/src/archon/log/limit_logger.hpp:155-232`). `isMatch` is the string matcher. -/
def limitLogger (L : Logger N S) (limit : Limit S) (isMatch : N → Bool) : Except Failure (Logger N S) :=
  if L.channels.countP (fun c => isMatch c.name) = 0 then .error .noSuchChannel
  else do
    let channels := L.channels.map (limitChannel limit isMatch)
    let channel ← reselect channels L.channel.name
    .ok ⟨limit.fixed, limit, L.pre, channel, channels⟩

/-! ## Channels -/

/-- A rule of a channel logger or of a duplicating logger (`/repo/src/archon/log/channel_logger.hpp:97-108`,
`/repo/src/archon/log/duplicating_logger.hpp:111-122`). -/
structure Rule (N S : Type) where
  name : N
  logger : Logger N S
  channel : Channel N S

/-- `Rule::Rule()` with name and logger (`/repo/src/archon/log/channel_logger.hpp:236-242`,
`/repo/src/archon/log/duplicating_logger.hpp:316-322`). -/
def Rule.new (name : N) (logger : Logger N S) : Rule N S := ⟨name, logger, logger.channel⟩

/-- `Rule::Rule()` with name, logger, and channel (`/repo/src/archon/log/channel_logger.hpp:245-252`,
`/repo/src/archon/log/duplicating_logger.hpp:325-332`). -/
def Rule.newOn (name : N) (logger : Logger N S) (channelName : N) : Except Failure (Rule N S) := do
  let channel ← findChannel logger.channels channelName
  .ok ⟨name, logger, channel⟩

/-- Assignment to an element of a `std::map`. Elements are in order of the keys. -/
def assign {V : Type} (key : N) (value : V) : List (N × V) → List (N × V)
  | [] => [(key, value)]
  | (k, v) :: rest => if k < key then (k, v) :: assign key value rest else if k = key then (key, value) :: rest else (key, value) :: (k, v) :: rest

/-- Combination of channel prefix and logger prefix (`/repo/src/archon/log/channel_logger.hpp:179-188`,
`/repo/src/archon/log/duplicating_logger.hpp:229-238` and `251-260`). The second component is the number of compound prefixes that are
added. -/
def combine (channelPrefix loggerPrefix : Prefix S) : Prefix S × ℕ :=
  if loggerPrefix.isNull then (channelPrefix, 0)
  else if channelPrefix.isNull then (loggerPrefix, 0)
  else (compound channelPrefix loggerPrefix, 1)

/-- Counting of a prefix in advance (`/repo/src/archon/log/channel_logger.hpp:155-158`,
`/repo/src/archon/log/duplicating_logger.hpp:207-212` and `217-219`). -/
def countPrefix (channelPrefix loggerPrefix : Prefix S) : ℕ := if !channelPrefix.isNull && !loggerPrefix.isNull then 1 else 0

/-- The map in `Interm::Interm()` of a channel logger (`/repo/src/archon/log/channel_logger.hpp:130-140`). -/
def channelTable (L : Logger N S) (rules : List (Rule N S)) : List (N × Option (Logger N S) × Channel N S) :=
  let map := L.channels.foldl (fun map c => assign c.name (none, c) map) []
  rules.foldl (fun map rule => assign rule.name (some rule.logger, rule.channel) map) map

/-- Construction of a channel of a channel logger (`/repo/src/archon/log/channel_logger.hpp:164-192`). -/
def makeChannel (basePrefix : Prefix S) (entry : N × Option (Logger N S) × Channel N S) : Channel N S × ℕ :=
  let loggerPrefix := match entry.2.1 with
    | some logger => logger.pre
    | none => basePrefix
  let r := combine entry.2.2.pre loggerPrefix
  (⟨entry.1, entry.2.2.limit, r.1, entry.2.2.sink⟩, r.2)

/-- `BasicChannelLogger::BasicChannelLogger()` (`/repo/src/archon/log/channel_logger.hpp:120-226`). The storage for the names of channels is
not modelled. -/
def channelLogger (L : Logger N S) (rules : List (Rule N S)) : Except Failure (Logger N S) := do
  let map := channelTable L rules
  let numPrefixes := (map.map (fun entry => match entry.2.1 with
    | some logger => countPrefix entry.2.2.pre logger.pre
    | none => countPrefix entry.2.2.pre L.pre)).sum
  let made := map.map (makeChannel L.pre)
  if (made.map (·.2)).sum ≠ numPrefixes then .error .assertion
  else do
    let channels := made.map (·.1)
    let channel ← reselect channels L.channel.name
    .ok (Logger.of nullPrefix channel channels)

/-- `SinkImpl::sink_log()` of a duplicating logger (`/repo/src/archon/log/duplicating_logger.hpp:154-161`). -/
def duplicatingSink (prefix1 prefix2 : Prefix S) (sink1 sink2 : Sink S) : Sink S := fun s level channelPrefix messagePrefix message =>
  sink1 s level (compound prefix1 channelPrefix) messagePrefix message ++ sink2 s level (compound prefix2 channelPrefix) messagePrefix message

/-- `SinkImpl::get_fixed_limit()` and `SinkImpl::get_level_limit()` of a duplicating logger
(`/repo/src/archon/log/duplicating_logger.hpp:164-177`). -/
def duplicatingLimit (limit1 limit2 : Limit S) : Limit S where
  fixed := match limit1.fixed, limit2.fixed with
    | some a, some b => some (max a b)
    | _, _ => none
  level := fun s => max (limit1.level s) (limit2.level s)

/-- The map in `Interm::Interm()` of a duplicating logger (`/repo/src/archon/log/duplicating_logger.hpp:199-204`). Origin channels are
represented by index. -/
def originTable (channels : List (Channel N S)) : List (Rule N S) → (ℕ → Option (Rule N S)) → Except Failure (ℕ → Option (Rule N S))
  | [], map => .ok map
  | rule :: rules, map =>
    match findIndex channels rule.name with
    | some i => originTable channels rules (fun k => if k = i then some rule else map k)
    | none => .error .noSuchChannel

/-- Construction of a channel of a duplicating logger (`/repo/src/archon/log/duplicating_logger.hpp:226-265`). -/
def duplicate (basePrefix : Prefix S) (target : Option (Rule N S)) (c : Channel N S) : Channel N S × ℕ :=
  let r1 := combine c.pre basePrefix
  match target with
  | none => (⟨c.name, c.limit, r1.1, c.sink⟩, r1.2)
  | some rule =>
    let r2 := combine rule.channel.pre rule.logger.pre
    (⟨c.name, duplicatingLimit c.limit rule.channel.limit, nullPrefix, duplicatingSink r1.1 r2.1 c.sink rule.channel.sink⟩, r1.2 + r2.2)

/-- `BasicDuplicatingLogger::BasicDuplicatingLogger()` (`/repo/src/archon/log/duplicating_logger.hpp:189-306`). -/
def duplicatingLogger (L : Logger N S) (rules : List (Rule N S)) : Except Failure (Logger N S) := do
  let map ← originTable L.channels rules (fun _ => none)
  let numPrefixes := (L.channels.mapIdx (fun i _ => match map i with
      | some rule => countPrefix rule.channel.pre rule.logger.pre
      | none => 0)).sum + (L.channels.map (fun c => countPrefix c.pre L.pre)).sum
  let made := L.channels.mapIdx (fun i c => duplicate L.pre (map i) c)
  if (made.map (·.2)).sum ≠ numPrefixes then .error .assertion
  else do
    let channels := made.map (·.1)
    let channel ← reselect channels L.channel.name
    .ok (Logger.of nullPrefix channel channels)

/-! ## Encoding -/

/-- `SinkImpl::sink_log()` of an encoding logger (`/repo/src/archon/log/impl/encoding_logger_impl.hpp:184-212` and `242-251`). -/
def encodingSink (encode : List Char → List Char) (sink : Sink S) (channelPrefix messagePrefix : Prefix S) : Sink S :=
  fun s level channelPrefix' messagePrefix' message =>
    sink s level ⟨false, fun s => channelPrefix.text s ++ encode (channelPrefix'.text s)⟩
      ⟨false, fun s => messagePrefix.text s ++ encode (messagePrefix'.text s)⟩ (encode message)

/-- `EncodingLoggerImpl2::EncodingLoggerImpl2()` (`/repo/src/archon/log/impl/encoding_logger_impl.hpp:215-239` and `254-259`), and
`BasicEncodingLogger::BasicEncodingLogger()` (`/repo/src/archon/log/encoding_logger.hpp:55-63`). -/
def encodingLogger (encode : List Char → List Char) (L : Logger N S) : Logger N S :=
  let channel : Channel N S := ⟨L.channel.name, L.channel.limit, nullPrefix, encodingSink encode L.channel.sink L.channel.pre L.pre⟩
  Logger.of nullPrefix channel [channel]

end Verif.Log
