import Verif.Model.Record
import Verif.Model.Translate

/-!
`to_paifu` of events, games and records (`mahjong/record/utils/event.py:152-247`,
`mahjong/record/reader.py:115-123,178-190`) and the titles of games (`mahjong/record/reader.py:64-71,82-110`).

A row is a dictionary with text keys; its values are texts, except that the row of a `DORA` event holds the `Tile`
object itself.  `self_tiles` and `borrowed_tiles` are sets; `iter l` is the order in which Python goes through the
set with the elements `l`.  Log messages are left out.
-/
namespace Verif.Model
open Verif.Py

/-- a value in a row (`mahjong/record/utils/event.py:156-244`) -/
inductive PVal where
  | str (s : Str)
  | tile (t : Tile)
  deriving DecidableEq, Repr

/-- a row: a dictionary in insertion order (`mahjong/record/utils/event.py:156-244`) -/
abbrev Row := List (Str × PVal)

/-- a row with text values (`mahjong/record/utils/event.py:156-244`) -/
def textRow (l : List (String × Str)) : Row := l.map (fun e => (e.1.toList, PVal.str e.2))

/-- `''.join([str(tile_from_tenhou(i)) for i in l])` (`mahjong/record/utils/event.py:156-157,194-221`). -/
def joinedNames (l : List Int) : Except PyErr Str := do pure (← tileNames l).flatten

/-- `''.join([str(tile_from_tenhou(i)) for i in sorted([int(i) for i in attrs[key].split(',')])])`
    (`mahjong/record/utils/event.py:156-157`). -/
def dealtNames (e : Event) (key : String) : Except PyErr Str := do
  let ns ← (splitOn ',' (← e.get key.toList)).mapM pyInt
  joinedNames (pySorted (fun a b => decide (a < b)) ns)

/-- one of `dict0` .. `dict3` (`mahjong/record/utils/event.py:156-172`). -/
def initRow (e : Event) (kind hai player : String) (i : Int) : Except PyErr Row := do
  let names ← dealtNames e hai
  let ten ← pyIdx (splitOn ',' (← e.get "ten".toList)) i
  pure (textRow [("event_type", kind.toList), ("player", player.toList), ("player_see", names),
    ("score", ten ++ "00".toList)])

/-- `('hai3' in attrs.keys()) and (attrs['hai3'] != '')` (`mahjong/record/utils/event.py:169`). -/
def hasFourth (e : Event) : Bool :=
  match e.attrib.lookup "hai3".toList with
  | some s => decide (s ≠ [])
  | none => false

/-- the rows of a deal (`mahjong/record/utils/event.py:155-175`). -/
def dealRows (e : Event) : Except PyErr (List Row) := do
  let r0 ← initRow e "INIT1" "hai0" "0" 0
  let r1 ← initRow e "INIT2" "hai1" "1" 1
  let r2 ← initRow e "INIT3" "hai2" "2" 2
  let seed := splitOn ',' (← e.get "seed".toList)
  let d ← tileFromTenhou (← pyInt (← pyIdx seed (-1)))
  let dora := textRow [("event_type", "DORA".toList), ("player", "0".toList), ("player_see", d.str),
    ("player_show", d.str)]
  let sticks ← pyIdx seed 2
  let round := textRow [("event_type", "ROUND".toList), ("score", sticks ++ "000".toList)]
  if hasFourth e then
    let r3 ← initRow e "INIT4" "hai3" "3" 3
    pure [r0, r1, r2, r3, dora, round]
  else pure [r0, r1, r2, dora, round]

/-- `tile_change` with a regular expression and an indicator (`mahjong/record/utils/event.py:49-63`): player and
    tile. -/
def rowTileChange (cs : List Char) (tag : Str) : Except PyErr (Option (Nat × Tile)) :=
  match wholeNumber cs tag with
  | none => .ok none
  | some (c, n) => do
    let t ← tileFromTenhou n
    pure (some (cs.idxOf c, t))

/-- `{'event_type': .., 'player': .., 'player_show': .., 'player_open': .., 'origin': ..}` of a meld
    (`mahjong/record/utils/event.py:193-196`). -/
def meldRow (kind : String) (player : Str) (own borrowed : List Int) (source : Int) : Except PyErr Row := do
  let show_ ← joinedNames own
  let open_ ← joinedNames borrowed
  pure (textRow [("event_type", kind.toList), ("player", player), ("player_show", show_),
    ("player_open", open_ ++ show_), ("origin", pyStrInt source)])

/-- the row of a meld (`mahjong/record/utils/event.py:184-221`). -/
def meldRows (iter : List Int → List Int) (e : Event) : Except PyErr (List Row) := do
  let player ← e.get "who".toList
  let item ← meldFrom e
  let kind ← meldType (← pyInt (← e.get "m".toList))
  let own := iter item.selfTiles
  let borrowed := iter item.borrowedTiles
  match kind with
  | .flush => pure [← meldRow "CHI" player own borrowed item.fromWho]
  | .triplet => pure [← meldRow "PENG " player own borrowed item.fromWho]
  | .addKan => pure [← meldRow "GANG" player own borrowed item.fromWho]
  | .kita =>
    let t ← pyIdx (← tileNames own) 0
    pure [textRow [("event_type", "KITA".toList), ("player", player), ("player_show", t), ("player_open", t)]]
  | .kan =>
    if borrowed = [] then
      let names ← joinedNames own
      pure [textRow [("event_type", "ANGANG".toList), ("player", player), ("player_show", names),
        ("player_open", names), ("origin", pyStrInt item.fromWho)]]
    else pure [← meldRow "MINGGANG" player own borrowed item.fromWho]

/-- `DRAWN_TYPES[attrs['type']] if 'type' in attrs else ''` (`mahjong/record/utils/event.py:244`). -/
def drawnText (e : Event) : Except PyErr Str :=
  match e.attrib.lookup "type".toList with
  | none => .ok []
  | some t =>
    match DRAWN_TYPES.find? (fun d => decide (d.1.toList = t)) with
    | some d => .ok d.2.toList
    | none => .error .keyError

/-- what is left of `to_paifu` after the declarations of riichi (`mahjong/record/utils/event.py:233-247`). -/
def lateRows (e : Event) : Except PyErr (List Row) := do
  if isDora e then
    let t ← tileFromTenhou (← pyInt (← e.get "hai".toList))
    pure [[("event_type".toList, .str "DORA".toList), ("player".toList, .str "0".toList), ("player_see".toList, .tile t),
      ("player_show".toList, .tile t)]]
  else if isSomebodyWin e then
    let player ← e.get "who".toList
    let loser ← e.get "fromWho".toList
    let _ ← pyIdx (← numberList (← e.get "ten".toList)) 1
    pure [textRow [("event_type", "WIN".toList), ("player", player), ("origin", loser)]]
  else if isNobodyWin e then
    let reason ← drawnText e
    pure [textRow [("event_type", "EVEN".toList), ("origin", reason)]]
  else pure []

/-- the rows of a riichi declaration (`mahjong/record/utils/event.py:223-231`); `none` goes on. -/
def richiiRows (e : Event) : Except PyErr (Option (List Row)) := do
  let player ← e.get "who".toList
  let status ← e.get "step".toList
  if status = "1".toList then
    pure (some [textRow [("event_type", "CALLRICHI".toList), ("player", player)]])
  else if status = "2".toList then
    pure (some [textRow [("event_type", "RICHI".toList), ("player", player)],
      textRow [("event_type", "SCORE".toList), ("player", player), ("score", "-1000".toList)]])
  else pure none

/-- `TenhouEvent.to_paifu` (`mahjong/record/utils/event.py:152-247`). -/
def eventRows (iter : List Int → List Int) (e : Event) : Except PyErr (List Row) := do
  if e.tag = "INIT".toList then dealRows e
  else
    match ← rowTileChange DRAW_INDICATOR e.tag with
    | some (p, t) =>
      pure [textRow [("event_type", "DRAW".toList), ("player", pyStrInt p), ("player_see", t.str)]]
    | none =>
      match ← rowTileChange DISCARD_INDICATOR e.tag with
      | some (p, t) =>
        pure [textRow [("event_type", "DISCARD".toList), ("player", pyStrInt p), ("player_show", t.str)]]
      | none =>
        if isOpenHand e then meldRows iter e
        else if isRichii e then
          match ← richiiRows e with
          | some rows => pure rows
          | none => lateRows e
        else lateRows e

/-- `TenhouGame.game_index` (`mahjong/record/reader.py:64-71`): the round wind and the number of the game. -/
def TGame.gameIndex (g : TGame) (type : GameType) : Except PyErr (Int × Int) := do
  let cat ← SubCat.make [(← type.playWindCount) + 1, 4]
  match ← cat.category (← (← pyIdx g.seeds 0).toInt) with
  | [w, k] => pure (w, k)
  | _ => .error .valueError

/-- the text of a number put into `{}` or `%d`: whole numbers only (a fraction is a `TypeError` here)
    (`mahjong/record/reader.py:105-118`). -/
def wholeText (n : Num) : Except PyErr Str := do pure (pyStrInt (← n.toInt))

/-- `game_str` (`mahjong/record/reader.py:117-118`). -/
def TGame.gameStr (g : TGame) (type : GameType) : Except PyErr Str := do
  let (w, k) ← g.gameIndex type
  let c ← pyIdx "ESWN".toList w
  let honba ← wholeText (← pyIdx g.seeds 1)
  pure (c :: '-' :: pyStrInt (k + 1) ++ '-' :: honba)

/-- `TenhouGame.to_paifu` (`mahjong/record/reader.py:115-123`): the rows are fresh dictionaries without a
    `game_str`, so setting it adds it at the end. -/
def TGame.rows (iter : List Int → List Int) (g : TGame) (type : GameType) : Except PyErr (List Row) := do
  let s ← g.gameStr type
  let rows ← g.events.mapM (fun e => eventRows iter e.ev)
  pure (rows.flatten.map (fun r => r ++ [("game_str".toList, PVal.str s)]))

/-- one of `fin1` .. `fin4` (`mahjong/record/reader.py:182-186`). -/
def finRow (r : TRecord) (kind player : String) (i : Int) : Except PyErr Row := do
  let s ← pyIdx r.endScore i
  pure (textRow [("event_type", kind.toList), ("player", player.toList), ("score", ← wholeText s.mul100)])

/-- `TenhouRecord.to_paifu` (`mahjong/record/reader.py:178-190`). -/
def TRecord.rows (iter : List Int → List Int) (r : TRecord) : Except PyErr (List Row) := do
  let games ← r.games.mapM (fun g => g.rows iter r.gameType)
  let f1 ← finRow r "FIN1" "0" 0
  let f2 ← finRow r "FIN2" "1" 1
  let f3 ← finRow r "FIN3" "2" 2
  if r.players.length = 4 then
    let f4 ← finRow r "FIN4" "3" 3
    pure (games.flatten ++ [f1, f2, f3, f4])
  else pure (games.flatten ++ [f1, f2, f3])

/-- `TenhouGame.end_stringify` (`mahjong/record/reader.py:82-101`) of a win or a draw; `name` is
    `TPlayer.name` in the program; a parameter, since nothing depends on how names are decoded (`mahjong/record/player.py:17`). -/
def endText (name : TPlayer → Str) (players : List TPlayer) (e : Event) : Except PyErr Str := do
  if isSomebodyWin e then
    let who ← pyInt (← e.get "who".toList)
    let from_ ← pyInt (← e.get "fromWho".toList)
    let score ← wholeText (← pyIdx (← numberList (← e.get "ten".toList)) 1)
    let winner ← pyIdx players who
    if who = from_ then
      pure (name winner ++ ":ツモ(".toList ++ score ++ ")".toList)
    else
      let loser ← pyIdx players from_
      pure (name winner ++ "<-".toList ++ name loser ++ ":ロン(".toList ++ score ++ ")".toList)
  else
    pure ("流局 ".toList ++ (← drawnText e))

/-- `TenhouGame.__str__` (`mahjong/record/reader.py:103-110`). -/
def TGame.title (name : TPlayer → Str) (g : TGame) (type : GameType) (players : List TPlayer) : Except PyErr Str := do
  let (w, k) ← g.gameIndex type
  let c ← pyIdx "東南西北".toList w
  let honba ← wholeText (← pyIdx g.seeds 1)
  let ends ← g.endEvents.mapM (fun e => endText name players e.ev)
  pure (c :: pyStrInt (k + 1) ++ "局".toList ++ honba ++ "本 ".toList ++ joinWith ',' ends)

end Verif.Model
