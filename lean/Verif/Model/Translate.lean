import Verif.Model.Command
import Verif.Model.Const
import Verif.Model.Notation

/-!
`mahjong/record/universe/translator.py`, `tenhou/__init__.py`, `tenhou/xml_macher.py` and
`tenhou/event_definition.py`: turning Tenhou events into commands.

The handlers build commands with a `Builder` and nested `when` blocks; here every command is written with the
keywords it ends up with (`Model/Builder.lean` models the builder itself).  A generator that raises part-way loses
all its commands (`fallback_call` makes a list of it), so a handler is a function to `Except`.  Tile numbers and
indices read from attributes must be whole numbers (a fraction is a `TypeError` here).  A `set` of tile numbers is
gone through in the order of the list that models it; Python's order is that of the hash table.
Log messages are left out.
-/
namespace Verif.Model
open Verif.Py

/-- `GameInterpreter.state`, one dictionary with three kinds of keys: (sub scope, property) of the interpreter,
    `(player, "_right_most_tile_int")` (`event_definition.py:122`) and `"_game_indexer"` (`event_definition.py:164`).
    They never collide, so they are kept apart here. -/
structure Ctx where
  vals : IState := []
  right : List (Int × Option Int) := []
  indexer : Option SubCat := none
  deriving DecidableEq, Repr

/-- what a handler gives: the context it leaves and its commands (`mahjong/record/universe/translator.py:10`) -/
abbrev CmdGen := Except PyErr (Ctx × List Cmd)

/-- `str(tile)` (`mahjong/tile/definition.py:101-102`). -/
def Tile.str (t : Tile) : Str := pyStrInt t.number ++ [t.color.letter]

/-- `[str(tile_from_tenhou(x)) for x in tile_list]` (`event_definition.py:25`). -/
def tileNames (l : List Int) : Except PyErr (List Str) := l.mapM (fun x => (tileFromTenhou x).map Tile.str)

/-- a list of texts as a value (`mahjong/record/universe/tenhou/event_definition.py:25`) -/
def strs (l : List Str) : Val := .list (l.map Val.str)

/-- `tile_str_list` of a text (`event_definition.py:21-25`). -/
def tileStrList (s : Str) : Except PyErr (List Str) := do tileNames (← intList s)

/-- `ctx[("all", RecordView.player_count)]`, as the length of a `range`
    (`mahjong/record/universe/tenhou/event_definition.py:96,114,263`). -/
def Ctx.playerCount (ctx : Ctx) : Except PyErr Nat :=
  match ctx.vals.lookup (Sub.all, view .record "player_count") with
  | none => .error .keyError
  | some (.num (.int n)) => .ok n.toNat
  | some (.bool b) => .ok (if b then 1 else 0)
  | some _ => .error .typeError

/-- a command about a player
    (`mahjong/record/universe/command.py:58-66`, `mahjong/record/universe/translator.py:13-23`) -/
def pcmd (ev : EventType) (player : Int) (name : String) (update : Update) (value : Val := .none) : Cmd :=
  { prop := view .player name, update := update, sub := .num player, value := value, event := some ev }
/-- a command about the game or the record
    (`mahjong/record/universe/command.py:58-66`, `mahjong/record/universe/translator.py:13-23`) -/
def gcmd (ev : EventType) (name : String) (update : Update) (value : Val := .none) : Cmd :=
  { prop := view .game name, update := update, value := value, event := some ev }
/-- a command about the record
    (`mahjong/record/universe/command.py:58-66`, `mahjong/record/universe/translator.py:13-23`) -/
def rcmd (ev : EventType) (name : String) (update : Update) (value : Val := .none) : Cmd :=
  { prop := view .record name, update := update, value := value, event := some ev }

/-- a loop `for p in range(n)` with a generator body
    (`mahjong/record/universe/tenhou/event_definition.py:96,114,193,264,290`) -/
def forPlayers (body : Nat → Ctx → CmdGen) : List Nat → Ctx → CmdGen
  | [], ctx => .ok (ctx, [])
  | p :: ps, ctx => do
    let (ctx1, l1) ← body p ctx
    let (ctx2, l2) ← forPlayers body ps ctx1
    pure (ctx2, l1 ++ l2)

/-- `hand_update` (`event_definition.py:118-135`); `hand_raw` already as numbers. -/
def handUpdate (ev : EventType) (update : Update) (player : Int) (raw : List Int) (ctx : Ctx) : CmdGen := do
  let (newTile, before) ←
    match update with
    | .add =>
      match raw with
      | [t] => pure (some t, [])
      | _ => .error .assertionError
    | .remove => pure (none, [])
    | .replace => pure (none, [pcmd ev player "discard_from_hand" .resetDefault])
    | _ => pure ((ctx.right.lookup player).getD none, [])
  let names ← tileNames raw
  pure ({ ctx with right := putKey ctx.right player newTile }, before ++ [pcmd ev player "hand" update (strs names)])

/-- `tile_change_tenhou` (`event_definition.py:28-34`): tile and player. -/
def tileChange (indicator : List Char) (e : Event) : Option (Int × Int) :=
  (wholeNumber indicator e.tag).map (fun r => (r.2, (indicator.idxOf r.1 : Int)))

/-- `draw_command` (`event_definition.py:45-52`). -/
def drawCommand (ctx : Ctx) (e : Event) : CmdGen :=
  match tileChange DRAW_INDICATOR e with
  | none => .ok (ctx, [])
  | some (tile, player) => handUpdate .draw .add player [tile] ctx

/-- `discard_command` (`event_definition.py:55-74`). -/
def discardCommand (ctx : Ctx) (e : Event) : CmdGen :=
  match tileChange DISCARD_INDICATOR e with
  | none => .ok (ctx, [])
  | some (tile, player) => do
    let names ← tileNames [tile]
    match ctx.right.lookup player with
    | none => .error .keyError
    | some drawTile => do
      let (ctx', hand) ← handUpdate .discard .remove player [tile] ctx
      pure (ctx', [pcmd .discard player "round" .add (.num (.int 1)),
        pcmd .discard player "discard_from_hand" .add (.list [.bool (decide (some tile ≠ drawTile))])] ++ hand ++
        [pcmd .discard player "discard_tiles" .add (strs names)])

/-- `set_oya_command_yield` (`event_definition.py:112-115`). -/
def setOya (ctx : Ctx) (oya : Int) : Except PyErr (List Cmd) := do
  let n ← ctx.playerCount
  pure ((List.range n).map (fun (p : Nat) => pcmd .gameInit p "is_dealer" .replace (.bool (decide (oya = p)))))

/-- `x * n` (`mahjong/record/universe/tenhou/event_definition.py:92,109,271-272,285`) -/
def Num.times (x : Num) (n : Int) : Num := Num.norm (x.num * n) x.scale

/-- one player's part of `game_init_command` (`event_definition.py:97-109`). -/
def initPlayer (e : Event) (p : Nat) (ctx : Ctx) : CmdGen := do
  let scoreAll ← numberList (← e.get "ten".toList)
  let raw ← intList (← e.get ("hai".toList ++ natDigits p))
  let (ctx', hand) ← handUpdate .gameInit .replace p raw ctx
  let score ← pyIdx scoreAll p
  pure (ctx', [pcmd .gameInit p "discard_tiles" .resetDefault, pcmd .gameInit p "fixed_meld" .resetDefault,
    pcmd .gameInit p "meld_public_tiles" .resetDefault, pcmd .gameInit p "bonus_tiles" .resetDefault,
    pcmd .gameInit p "round" .resetDefault, pcmd .gameInit p "in_richii" .replace (.bool false)] ++ hand ++
    [pcmd .gameInit p "score" .assertEqualOrSet (.num (score.times 100))])

/-- `a, b = l` (`mahjong/record/universe/tenhou/event_definition.py:88`) -/
def twoOf : List Int → Except PyErr (Int × Int)
  | [a, b] => .ok (a, b)
  | _ => .error .valueError

/-- `game_init_command` (`event_definition.py:77-109`). -/
def initCommand (ctx : Ctx) (e : Event) : CmdGen := do
  let seed ← numberList (← e.get "seed".toList)
  match ctx.indexer with
  | none => .error .keyError
  | some indexer => do
    let sub ← pyIdx seed 1
    let richii ← pyIdx seed 2
    let dora ← pyIdx seed (-1)
    let s0 ← pyIdx seed 0
    let (wind, game) ← twoOf (← indexer.category (← s0.toInt))
    let oya ← pyInt (← e.get "oya".toList)
    let dealers ← setOya ctx oya
    let doraNames ← tileNames [← dora.toInt]
    let n ← ctx.playerCount
    let (ctx', rest) ← forPlayers (initPlayer e) (List.range n) ctx
    pure (ctx', [gcmd .gameInit "wind" .replace (.num (.int wind)), gcmd .gameInit "round" .replace (.num (.int game)),
      gcmd .gameInit "sub_round" .replace (.num sub),
      gcmd .gameInit "richii_remain_scores" .replace (.num (richii.times 1000))] ++ dealers ++
      [gcmd .newDora "dora_indicators" .replace (strs doraNames)] ++ rest)

/-- `open_hand` (`event_definition.py:142-156`). -/
def openHandCommand (ctx : Ctx) (e : Event) : CmdGen := do
  let meld ← meldFrom e
  let who ← pyInt (← e.get "who".toList)
  let own ← tileNames meld.selfTiles
  let all ← tileNames (meld.selfTiles ++ meld.borrowedTiles).eraseDups
  let (ctx', hand) ← handUpdate .openHand .remove who meld.selfTiles ctx
  pure (ctx', [pcmd .openHand who "meld_public_tiles" .add (strs own),
    if meld.cls ≠ .kita then pcmd .openHand who "fixed_meld" .add (.list [strs all])
    else pcmd .openHand who "bonus_tiles" .add (strs all)] ++ hand)

/-- `game_type_command` (`event_definition.py:159-178`). -/
def goCommand (ctx : Ctx) (e : Event) : CmdGen := do
  let g ← GameType.make (← pyInt (← e.get "type".toList))
  let winds ← g.playWindCount
  let indexer ← SubCat.make [winds + 1, 4]
  let level ← pyIdx (ifValue (← g.bit "with_tips") "若銀琥孔".toList "般上特鳳".toList) (← g.playLevel)
  let shadow ← g.bit "show_discard_shadow"
  let tanyao ← g.allowTanyaoOpen
  let speed ← g.bit "speed_up"
  let count ← g.playerCount
  let aka ← g.hasAkaDora
  pure ({ ctx with indexer := some indexer },
    [rcmd .recordInit "play_level" .replace (.str [level]),
     rcmd .recordInit "show_discard_shadow" .replace (.bool shadow),
     rcmd .recordInit "play_wind_count" .replace (.num (.int winds)),
     rcmd .recordInit "allow_tanyao_open" .replace (.bool tanyao),
     rcmd .recordInit "speed_up" .replace (.bool speed),
     rcmd .recordInit "player_count" .replace (.num (.int count)),
     rcmd .recordInit "using_tiles" .replace (strs (initialTiles count aka))])

/-- `set_oya_command` (`event_definition.py:180-183`). -/
def taikyokuCommand (ctx : Ctx) (e : Event) : CmdGen := do
  let oya ← pyInt (← e.get "oya".toList)
  let l ← setOya ctx oya
  pure (ctx, l)

/-- `RANKS` (`mahjong/record/utils/constant.py:13-35`). -/
def RANKS : List String :=
  ["新人", "9級", "8級", "7級", "6級", "5級", "4級", "3級", "2級", "1級", "初段", "二段", "三段", "四段", "五段", "六段",
   "七段", "八段", "九段", "十段", "天鳳位"]

/-- `get_list_attr` (`event_definition.py:213-217`). -/
def getListAttr (name : Str) (e : Event) : Str :=
  match e.attrib.lookup name with
  | some v => v
  | none => "-127,-127,-127,-127".toList

/-- the level and the rate of a player (`event_definition.py:207-210`, `mahjong/record/player.py:28-30`). -/
def levelCmds (e : Event) (p : Nat) (level : Num) : Except PyErr (List Cmd) :=
  match e.attrib.lookup "dan".toList with
  | none => .ok []
  | some _ => do
    let s ← pyIdx RANKS (← level.toInt)
    pure [pcmd .recordInit p "level" .replace (.str s.toList)]
/-- the `extra_level` command (`mahjong/record/universe/tenhou/event_definition.py:209-210`) -/
def rateCmds (e : Event) (p : Nat) (rate : Num) : List Cmd :=
  match e.attrib.lookup "rate".toList with
  | none => []
  | some _ => [pcmd .recordInit p "extra_level" .replace (.num rate)]

/-- one player's part of `set_player_command` (`event_definition.py:194-210`); the name is decoded by `TenhouPlayer`
    (`mahjong/record/player.py:17`). -/
def unPlayer (e : Event) (dan rate : List Num) (sex : List Str) (p : Nat) (ctx : Ctx) : CmdGen :=
  match e.attrib.lookup ("n".toList ++ natDigits p) with
  | none => .ok (ctx, [])
  | some name =>
    if name.all isSpace then .ok (ctx, [])
    else do
      let level ← pyIdx dan p
      let r ← pyIdx rate p
      let _ ← pyIdx sex p
      let levels ← levelCmds e p level
      pure (ctx, [pcmd .connectChange p "disconnected" .replace (.bool false),
        pcmd .recordInit p "name" .assertEqualOrSet (.str (unquote name))] ++ levels ++ rateCmds e p r)

/-- `set_player_command` (`event_definition.py:186-210`); `PlayerId` has four members. -/
def unCommand (ctx : Ctx) (e : Event) : CmdGen := do
  let dan ← numberList (getListAttr "dan".toList e)
  let rate ← numberList (getListAttr "rate".toList e)
  forPlayers (unPlayer e dan rate (splitOn ',' (getListAttr "sx".toList e))) (List.range 4) ctx

/-- `dora_command` (`event_definition.py:220-227`). -/
def doraCommand (ctx : Ctx) (e : Event) : CmdGen := do
  let names ← tileStrList (← e.get "hai".toList)
  pure (ctx, [gcmd .newDora "dora_indicators" .add (strs names)])

/-- `richii_command` (`event_definition.py:230-239`). -/
def reachCommand (ctx : Ctx) (e : Event) : CmdGen := do
  let who ← pyInt (← e.get "who".toList)
  let step ← e.get "step".toList
  if step = "1".toList then pure (ctx, [pcmd .richii who "in_richii" .replace (.bool true)])
  else if step = "2".toList then pure (ctx, [pcmd .richii who "score" .remove (.num (.int 1000))])
  else pure (ctx, [])

/-- the scores part of `game_finish` for one player (`event_definition.py:266-272`). -/
def finishScores (sc : Option (List Num)) (p : Nat) : Except PyErr (List Cmd) :=
  match sc with
  | none => .ok []
  | some l => do
    let a ← pyIdx (everyOther l) p
    let d ← pyIdx (everyOther l.tail) p
    pure [pcmd .gameFinish p "score" .assertEqualOrSet (.num (a.times 100)),
      pcmd .gameFinish p "score" .add (.num (d.times 100))]

/-- the outcome part of `game_finish` for one player (`event_definition.py:273-282`).  `win` is (`player_id`,
    `from_player_id`), `none` when both are NaN, which equals nothing. -/
def finishFlags (win : Option (Int × Int)) (yaku : List Str) (p : Nat) : List Cmd :=
  let isWin := match win with | some (w, _) => decide (w = p) | none => false
  let selfWin := match win with | some (w, f) => decide (w = f) | none => false
  let lose := !selfWin && (match win with | some (_, f) => decide ((p : Int) = f) | none => false)
  [pcmd .gameFinish p "is_win" .replace (.bool isWin), pcmd .gameFinish p "is_self_win" .replace (.bool selfWin),
   pcmd .gameFinish p "is_discard_lose_game" .replace (.bool lose),
   pcmd .gameFinish p "faans" .replace (if selfWin || lose || isWin then strs yaku else .list [])]

/-- the end-of-record part of `game_finish` for one player (`event_definition.py:290-294`). -/
def finishRecord (finals : List Num) (count p : Nat) : Except PyErr (List Cmd) := do
  let s ← pyIdx (finalScores finals) p
  let q ← pyIdx (finalPoints finals) p
  let r ← rankOf finals count p
  pure [pcmd .recordFinish p "final_score" .replace (.num s), pcmd .recordFinish p "final_point" .replace (.num q),
    pcmd .recordFinish p "rank" .replace (.num (.int r))]

/-- the end-of-record part of `game_finish` (`event_definition.py:283-294`). -/
def finishEnds (e : Event) (n : Nat) : Except PyErr (List (List Cmd)) :=
  match e.attrib.lookup "owari".toList with
  | none => .ok []
  | some o => do
    let finals ← numberList o
    (List.range n).mapM (finishRecord finals n)

/-- `game_finish` (`event_definition.py:262-294`). -/
def gameFinish (ctx : Ctx) (win : Option (Int × Int)) (sc : Option (List Num)) (yaku : List Str) (e : Event) :
    Except PyErr (List Cmd) := do
  let n ← ctx.playerCount
  let parts ← (List.range n).mapM (fun p => do
    let s ← finishScores sc p
    pure (s ++ finishFlags win yaku p))
  let ends ← finishEnds e n
  pure (parts.flatten ++ ends.flatten)

/-- `SCORE_PATTERN` (`mahjong/record/utils/constant.py:45-113`). -/
def SCORE_PATTERN : List String :=
  ["門前清自摸和", "立直", "一発", "槍槓", "嶺上開花", "海底摸月", "河底撈魚", "平和", "断幺九", "一盃口",
   "自風 東", "自風 南", "自風 西", "自風 北", "場風 東", "場風 南", "場風 西", "場風 北", "役牌 白", "役牌 發", "役牌 中",
   "両立直", "七対子", "混全帯幺九", "一気通貫", "三色同順", "三色同刻", "三槓子", "対々和", "三暗刻", "小三元", "混老頭",
   "二盃口", "純全帯幺九", "混一色", "清一色", "人和",
   "天和", "地和", "大三元", "四暗刻", "四暗刻単騎", "字一色", "緑一色", "清老頭", "九蓮宝燈", "純正九蓮宝燈", "国士無双",
   "国士無双１３面", "大四喜", "小四喜", "四槓子", "ドラ", "裏ドラ", "赤ドラ"]

/-- the list of yaku of `agari_command` (`event_definition.py:257-258`); with neither attribute `number_list(None)`
    fails. -/
def yakuOf (e : Event) : Except PyErr (List Str) :=
  match e.attrib.lookup "yaku".toList, e.attrib.lookup "yakuman".toList with
  | some s, _ => do (← numberList s).mapM (fun t => do pure (← pyIdx SCORE_PATTERN (← t.toInt)).toList)
  | none, some s => do (← numberList s).mapM (fun t => do pure (← pyIdx SCORE_PATTERN (← t.toInt)).toList)
  | none, none => .error .attributeError

/-- `list.remove` of a text (`mahjong/record/universe/tenhou/event_definition.py:253`) -/
def removeText (l : List Str) (x : Str) : Except PyErr (List Str) :=
  if x ∈ l then .ok (l.erase x) else .error .valueError

/-- the hand a winner must have: without the called tile (`event_definition.py:251-253`). -/
def expectedHand (e : Event) (who from_ : Int) (hai : List Str) : Except PyErr (List Str) :=
  if who ≠ from_ then do
    let machi ← tileStrList (← e.get "machi".toList)
    removeText hai (← pyIdx machi 0)
  else .ok hai

/-- `agari_command` (`event_definition.py:242-259`). -/
def agariCommand (ctx : Ctx) (e : Event) : CmdGen := do
  let who ← pyInt (← e.get "who".toList)
  let from_ ← pyInt (← e.get "fromWho".toList)
  let sc ← numberList (← e.get "sc".toList)
  let hai ← tileStrList (← e.get "hai".toList)
  let expected ← expectedHand e who from_ hai
  let yaku ← yakuOf e
  let rest ← gameFinish ctx (some (who, from_)) (some sc) yaku e
  pure (ctx, [pcmd .gameFinish who "hand" .assertEqualOrSet (strs expected),
    gcmd .gameFinish "nobody_win" .replace (.bool false)] ++ rest)

/-- `shuffle_command` (`event_definition.py:297-304`). -/
def shuffleCommand (ctx : Ctx) (e : Event) : CmdGen := do
  let seed ← e.get "seed".toList
  pure (ctx, [rcmd .recordInit "seed" .replace (.str seed)])

/-- `disconnected_command` (`event_definition.py:307-315`). -/
def byeCommand (ctx : Ctx) (e : Event) : CmdGen := do
  let who ← pyInt (← e.get "who".toList)
  pure (ctx, [pcmd .connectChange who "disconnected" .replace (.bool true)])

/-- `DRAWN_TYPES` (`mahjong/record/utils/constant.py:36-43`). -/
def DRAWN_TYPES : List (String × String) :=
  [("kaze4", "四風連打"), ("yao9", "九種九牌"), ("ron3", "三家和了"), ("reach4", "四家立直"), ("kan4", "四槓散了"),
   ("nm", "流局滿貫")]

/-- why nobody won, and the scores (`event_definition.py:325,327`). -/
def drawnReason (e : Event) : Except PyErr Str :=
  match e.attrib.lookup "type".toList with
  | none => .ok "EXHAUSTED".toList
  | some t =>
    match DRAWN_TYPES.find? (fun d => decide (d.1.toList = t)) with
    | some d => .ok d.2.toList
    | none => .error .keyError
/-- `sc_list` of a drawn game (`mahjong/record/universe/tenhou/event_definition.py:327`) -/
def drawnScores (e : Event) : Except PyErr (Option (List Num)) :=
  match e.attrib.lookup "sc".toList with
  | none => .ok none
  | some s => do pure (some (← numberList s))

/-- `no_win_command` (`event_definition.py:318-328`). -/
def ryuukyokuCommand (ctx : Ctx) (e : Event) : CmdGen := do
  let reason ← drawnReason e
  let sc ← drawnScores e
  let rest ← gameFinish ctx none sc [] e
  pure (ctx, [gcmd .gameFinish "nobody_win" .replace (.bool true),
    gcmd .gameFinish "extra_reason" .replace (.str reason)] ++ rest)

/-- `name_match` (`tenhou/xml_macher.py:13,17-22`): the handlers of `event_definition.py` by tag, one per tag. -/
def nameMatch : List (String × (Ctx → Event → CmdGen)) :=
  [("INIT", initCommand), ("N", openHandCommand), ("GO", goCommand), ("TAIKYOKU", taikyokuCommand),
   ("UN", unCommand), ("DORA", doraCommand), ("REACH", reachCommand), ("AGARI", agariCommand),
   ("SHUFFLE", shuffleCommand), ("BYE", byeCommand), ("RYUUKYOKU", ryuukyokuCommand)]

/-- `translate` (`tenhou/xml_macher.py:52-79`); nothing is registered in `both_match` and `attr_match`.  No
    commands is `None`. -/
def translateNamed (ctx : Ctx) (e : Event) : CmdGen :=
  match nameMatch.find? (fun h => decide (h.1.toList = e.tag)) with
  | some h => h.2 ctx e
  | none => .ok (ctx, [])

/-- the commands of an event before they are interpreted: the handlers of its tag, or else the default handlers
    (`translator.py:32-36,58-64`). -/
def generate (ctx : Ctx) (e : Event) : CmdGen := do
  let (ctx1, l1) ← translateNamed ctx e
  if l1 ≠ [] then pure (ctx1, l1)
  else do
    let (ctx2, l2) ← drawCommand ctx1 e
    if l2 ≠ [] then pure (ctx2, l2)
    else discardCommand ctx2 e

/-- `postprocess` (`translator.py:47-50`, `xml_macher.py:32-36`): every command is interpreted in order, its state
    and timestamp are filled in. -/
def postprocess (timestamp : Option Int) : IState → List Cmd → Except PyErr (IState × List Cmd)
  | s, [] => .ok (s, [])
  | s, c :: cs => do
    let (v, s1) ← interpret s c
    let (s2, l) ← postprocess timestamp s1 cs
    pure (s2, { c with state := v, timestamp := timestamp } :: l)

/-- `CommandTranslator.__call__` (`translator.py:58-71`). -/
def callTranslator (strict : Bool) (ctx : Ctx) (t : TEvent) : CmdGen := do
  let (ctx1, l) ← generate ctx t.ev
  if l ≠ [] then
    let (s, out) ← postprocess (some t.timestamp) ctx1.vals l
    pure ({ ctx1 with vals := s }, out)
  else if strict then .error .valueError
  else pure (ctx1, [])

/-- all events of a record from a context (`mahjong/record/universe/tenhou/__init__.py:5-8`) -/
def translateAll (strict : Bool) : Ctx → List TEvent → CmdGen
  | ctx, [] => .ok (ctx, [])
  | ctx, t :: ts => do
    let (ctx1, l1) ← callTranslator strict ctx t
    let (ctx2, l2) ← translateAll strict ctx1 ts
    pure (ctx2, l1 ++ l2)

/-! ### The process: one translator shared by all iterators -/

/-- `clear` (`translator.py:55-56`). -/
def Ctx.clear (_ : Ctx) : Ctx := {}

/-- An iterator of `to_command_iter` (`tenhou/__init__.py:5-8`): not started, suspended with the commands of the
    current event still to hand out and the events after it, or finished. -/
inductive Iter where
  | fresh (strict : Bool) (events : List TEvent)
  | live (strict : Bool) (pending : List Cmd) (events : List TEvent)
  | done
  deriving DecidableEq, Repr

/-- What `next` gives: a command, `StopIteration`, or the exception raised
    (`mahjong/record/universe/tenhou/__init__.py:5-20`). -/
inductive Out where
  | cmd (c : Cmd)
  | stop
  | error (e : PyErr)
  deriving DecidableEq, Repr

/-- resume the loop over events until a command can be handed out.  A call that raises may have changed the
    context: what it leaves is `left`, about which nothing is assumed
    (`mahjong/record/universe/tenhou/__init__.py:5-20`). -/
def resume (left : Ctx → TEvent → Ctx) (strict : Bool) : Ctx → List TEvent → Ctx × Iter × Out
  | ctx, [] => (ctx, .done, .stop)
  | ctx, t :: ts =>
    match callTranslator strict ctx t with
    | .error x => (left ctx t, .done, .error x)
    | .ok (ctx1, []) => resume left strict ctx1 ts
    | .ok (ctx1, c :: cs) => (ctx1, .live strict cs ts, .cmd c)

/-- `next(iterator)`: the first one starts with `tenhou_command.clear()`
    (`mahjong/record/universe/tenhou/__init__.py:5-20`). -/
def Iter.next (left : Ctx → TEvent → Ctx) (ctx : Ctx) : Iter → Ctx × Iter × Out
  | .fresh strict events => resume left strict ctx.clear events
  | .live strict (c :: cs) events => (ctx, .live strict cs events, .cmd c)
  | .live strict [] events => resume left strict ctx events
  | .done => (ctx, .done, .stop)

/-- `list(iterator)` of a new iterator: what `to_commands` returns or raises, and the context left
    (`tenhou/__init__.py:19-20`). -/
def listAll (left : Ctx → TEvent → Ctx) (strict : Bool) : Ctx → List TEvent → Ctx × Except PyErr (List Cmd)
  | ctx, [] => (ctx, .ok [])
  | ctx, t :: ts =>
    match callTranslator strict ctx t with
    | .error x => (left ctx t, .error x)
    | .ok (ctx1, l) =>
      match listAll left strict ctx1 ts with
      | (ctx2, .ok r) => (ctx2, .ok (l ++ r))
      | (ctx2, .error x) => (ctx2, .error x)

/-- `to_commands` (`mahjong/record/universe/tenhou/__init__.py:19-20`) -/
def toCommands (left : Ctx → TEvent → Ctx) (strict : Bool) (ctx : Ctx) (events : List TEvent) :
    Ctx × Except PyErr (List Cmd) := listAll left strict ctx.clear events

/-- A running program: the shared context and the iterators made so far
    (callers of `mahjong/record/universe/tenhou/__init__.py:5-20`). -/
structure Proc where
  ctx : Ctx := {}
  iters : List Iter := []
  deriving DecidableEq, Repr

/-- What a program does with the translator (callers of `mahjong/record/universe/tenhou/__init__.py:5-20`). -/
inductive ProcOp where
  | newIter (strict : Bool) (events : List TEvent)
  | next (i : Nat)
  | toCommands (strict : Bool) (events : List TEvent)

/-- one action of a program (callers of `mahjong/record/universe/tenhou/__init__.py:5-20`) -/
def Proc.step (left : Ctx → TEvent → Ctx) (p : Proc) : ProcOp → Proc × Option Out
  | .newIter strict events => ({ p with iters := p.iters ++ [.fresh strict events] }, none)
  | .next i =>
    match p.iters[i]? with
    | none => (p, none)
    | some it =>
      let (ctx, it', o) := it.next left p.ctx
      ({ ctx := ctx, iters := p.iters.set i it' }, some o)
  | .toCommands strict events => ({ p with ctx := (toCommands left strict p.ctx events).1 }, none)

/-- several actions of a program (callers of `mahjong/record/universe/tenhou/__init__.py:5-20`) -/
def Proc.run (left : Ctx → TEvent → Ctx) (p : Proc) (ops : List ProcOp) : Proc :=
  ops.foldl (fun p o => (p.step left o).1) p

end Verif.Model
