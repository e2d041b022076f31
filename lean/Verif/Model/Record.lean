import Verif.Py.Unquote
import Verif.Model.Event
import Verif.Model.GameType
import Verif.Model.Stage
import Verif.Py.Order

/-! `mahjong/record/reader.py`: splitting a record into games, and final scores. -/
namespace Verif.Model
open Verif.Py

/-- sign and scale of a number: `num / 10 ^ scale` (`mahjong/record/utils/value/general.py:1-5`) -/
def Num.num : Num → Int
  | .int n => n
  | .dec m _ => m
/-- number of decimals of a number (`mahjong/record/utils/value/general.py:1-5`) -/
def Num.scale : Num → Nat
  | .int _ => 0
  | .dec _ k => k

/-- `a < b`, `a * 100`, `-a` on numbers (exact; Python rounds decimals to binary floating point,
    see `C95_order` and `C95_product`)
    (`mahjong/record/reader.py:164`, `mahjong/record/universe/tenhou/event_definition.py:285-288`). -/
def Num.lt (a b : Num) : Bool := decide (a.num * 10 ^ b.scale < b.num * 10 ^ a.scale)
/-- `a * 100` (`mahjong/record/universe/tenhou/event_definition.py:285`, `mahjong/record/reader.py:182-186`) -/
def Num.mul100 : Num → Num
  | .int n => .int (n * 100)
  | .dec m k => Num.norm (m * 100) k
/-- `-a` (`mahjong/record/universe/tenhou/event_definition.py:287`) -/
def Num.neg : Num → Num
  | .int n => .int (-n)
  | .dec m k => .dec (-m) k

/-- A `TenhouEvent` (`mahjong/record/utils/event.py:83-95`): the element and its timestamp.  `context_` and the
    derived fields `player_index_`, `see_tiles_`, `show_tiles_`, which nothing reads, are left out. -/
structure TEvent where
  timestamp : Nat
  ev : Event
  deriving DecidableEq, Repr

/-- `TenhouEvent.__init__` (`mahjong/record/utils/event.py:84-95`): drawing or discarding a number that is no
    tile raises. -/
def TEvent.make (i : Nat) (e : Event) : Except PyErr TEvent := do
  match wholeNumber DRAW_INDICATOR e.tag with
  | some (_, n) => discard (tileFromTenhou n)
  | none => pure ()
  match wholeNumber DISCARD_INDICATOR e.tag with
  | some (_, n) => discard (tileFromTenhou n)
  | none => pure ()
  pure ⟨i, e⟩

/-- `[TenhouEvent(event, ..., timestamp=i) for i, event in enumerate(events)]` (`mahjong/record/reader.py:137`). -/
def makeEvents (i : Nat) : List Event → Except PyErr (List TEvent)
  | [] => .ok []
  | e :: es => do
    let t ← TEvent.make i e
    let ts ← makeEvents (i + 1) es
    pure (t :: ts)

/-- `list_of_xml_configs(es).TAG.attr` (`mahjong/record/reader.py:126-132`): the reduction goes over the reversed
    list, so the first element with the tag is the one that stays. -/
def metaAttr (es : List TEvent) (tag attr : String) : Except PyErr Str :=
  match es.find? (fun e => decide (e.ev.tag = tag.toList)) with
  | none => .error .attributeError
  | some e =>
    match e.ev.attrib.lookup attr.toList with
    | some v => .ok v
    | none => .error .attributeError

/-- `is_game_end` (`mahjong/record/reader.py:42-43`). -/
def isGameEnd (e : TEvent) : Bool := isSomebodyWin e.ev || isNobodyWin e.ev

/-- A `TenhouGame` (`mahjong/record/reader.py:46-68`). -/
structure TGame where
  events : List TEvent
  playing : List TEvent
  endEvents : List TEvent
  seeds : List Num
  eastIndex : Int
  deriving DecidableEq, Repr

/-- `TenhouGame.__init__` (`mahjong/record/reader.py:47-68`). -/
def TGame.make (gameEvents : List TEvent) : Except PyErr TGame := do
  match gameEvents with
  | [] => .error .valueError
  | init :: playing =>
    match playing.dropWhile (fun e => !isGameEnd e) with
    | [] => .error .stopIteration
    | firstEnd :: rest =>
      let ends := (firstEnd :: rest).filter isGameEnd
      let seeds ← numberList (← metaAttr [init] "INIT" "seed")
      let east ← pyInt (← metaAttr [init] "INIT" "oya")
      pure ⟨gameEvents, playing, ends, seeds, east⟩

/-- A `TenhouPlayer` (`mahjong/record/player.py:11-18`); its name is `TPlayer.name`. -/
structure TPlayer where
  index : Nat
  nameEncoded : Str
  level : Num
  rate : Num
  sex : Str
  deriving DecidableEq, Repr

/-- `TenhouPlayer.name` (`mahjong/record/player.py:17`) -/
def TPlayer.name (p : TPlayer) : Str := unquote p.nameEncoded

/-- `zip(range(player_mode), [n0, n1, n2, n3], dan, rate, sx)` (`mahjong/record/reader.py:147-156`). -/
def makePlayers (i : Nat) : List Str → List Num → List Num → List Str → Nat → List TPlayer
  | n :: ns, d :: ds, r :: rs, s :: ss, k + 1 => ⟨i, n, d, r, s⟩ :: makePlayers (i + 1) ns ds rs ss k
  | _, _, _, _, _ => []

/-- `l[i::2]` for `i = 0`; `l[1::2]` is `everyOther l.tail` (`mahjong/record/reader.py:158-160`). -/
def everyOther {α : Type} : List α → List α
  | [] => []
  | [a] => [a]
  | a :: _ :: l => a :: everyOther l

/-- A `TenhouRecord` (`mahjong/record/reader.py:135-160`). -/
structure TRecord where
  events : List TEvent
  head : List TEvent
  gameType : GameType
  players : List TPlayer
  games : List TGame
  endScore : List Num
  endPoint : List Num
  deriving DecidableEq, Repr

/-- the chunks of `mahjong/record/reader.py:139` -/
def recordChunks (events : List TEvent) : List (List TEvent) :=
  groupLists [true, false] (fun e => isGameInit e.ev) events

/-- `TenhouRecord.__init__` (`mahjong/record/reader.py:136-160`). -/
def TRecord.make (es : List Event) : Except PyErr TRecord := do
  let events ← makeEvents 0 es
  match recordChunks events with
  | [] => .error .valueError
  | head :: chunks =>
    let gameType ← GameType.make (← pyInt (← metaAttr head "GO" "type"))
    let count ← gameType.playerCount
    let n0 ← metaAttr head "UN" "n0"
    let n1 ← metaAttr head "UN" "n1"
    let n2 ← metaAttr head "UN" "n2"
    let n3 ← metaAttr head "UN" "n3"
    let dan ← numberList (← metaAttr head "UN" "dan")
    let rate ← numberList (← metaAttr head "UN" "rate")
    let sx ← metaAttr head "UN" "sx"
    let players := makePlayers 0 [n0, n1, n2, n3] dan rate (splitOn ',' sx) count.toNat
    let games ← chunks.mapM TGame.make
    match events.getLast? with
    | none => .error .indexError
    | some endEvent =>
      let infos ← numberList (← endEvent.ev.get "owari".toList)
      pure ⟨events, head, gameType, players, games, everyOther infos, everyOther infos.tail⟩

/-- `player_scores.sort(key=lambda item: item[1], reverse=True)` (`mahjong/record/reader.py:163-164`): a stable
    sort, best score first. -/
def TRecord.standing (r : TRecord) : List (TPlayer × Num × Num) :=
  pySorted (fun a b => Num.lt b.2.1 a.2.1) (r.players.zip (r.endScore.zip r.endPoint))

/-- `TenhouRecord.__str__` (`mahjong/record/reader.py:162-173`) without the formatting: game type, and (rank,
    player, point) in printed order. -/
def TRecord.strParts (r : TRecord) : GameType × List (Nat × TPlayer × Num) :=
  (r.gameType, r.standing.zipIdx.map (fun e => (e.2 + 1, e.1.1, e.1.2.2)))

/-- the sort of `game_finish` on `(-score, pid)` (`mahjong/record/universe/tenhou/event_definition.py:287-288`) -/
def rankLt (a b : Num × Nat) : Bool :=
  if Num.lt a.1 b.1 then true else if Num.lt b.1 a.1 then false else decide (a.2 < b.2)

/-- final scores, final points and ranks by seat
    (`mahjong/record/universe/tenhou/event_definition.py:284-294`); the rank of a seat is its position in the
    sorted list plus one. -/
def finalScores (finals : List Num) : List Num := (everyOther finals).map Num.mul100
/-- `final_points` (`mahjong/record/universe/tenhou/event_definition.py:286`) -/
def finalPoints (finals : List Num) : List Num := everyOther finals.tail
/-- `player_ranks` (`mahjong/record/universe/tenhou/event_definition.py:287-288`) -/
def rankOrder (finals : List Num) (playerCount : Nat) : List (Num × Nat) :=
  pySorted rankLt (((finalScores finals).take playerCount).zipIdx.map (fun e => (e.1.neg, e.2)))
/-- `player_rank_map[pid]` (`mahjong/record/universe/tenhou/event_definition.py:289,294`) -/
def rankOf (finals : List Num) (playerCount : Nat) (pid : Nat) : Except PyErr Nat :=
  match (rankOrder finals playerCount).findIdx? (fun e => decide (e.2 = pid)) with
  | some i => .ok (i + 1)
  | none => .error .keyError

end Verif.Model
