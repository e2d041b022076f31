import Verif.Model.Checker
import Verif.Model.Paifu
import Verif.Model.Url

/-!
`mahjong/tenhou_record_check.py` (`main`, `render_template`) and `mahjong/record/checker.py`: which players are
reported on, what the page template is given, and the names of the files.  Reading the record from the network
and writing files are not modelled, the text of the page is in `Model/PageText.lean`; `name` is `TPlayer.name` and `decode` is `unquote` in the program,
`semi` as in `Model/Url.lean`; both are parameters, since nothing depends on them.
-/
namespace Verif.Model
open Verif.Py

/-- `all_tiles` (`mahjong/tenhou_record_check.py:191-192`). -/
def shownTiles : List Str :=
  ("mps".toList.flatMap (fun t => (List.range 10).map (fun n => natDigits n ++ [t]))) ++
    (List.range 7).flatMap (fun n => "z".toList.map (fun t => natDigits (n + 1) ++ [t]))

/-- the files `mahjong/templates/mjpic/*.png`, without the ending
    (read by `mahjong/tenhou_record_check.py:126-134`) -/
def pictures : List Str :=
  ["0m", "0p", "0s", "1m", "1p", "1s", "1z", "2m", "2p", "2s", "2z", "3m", "3p", "3s", "3z", "4m", "4p", "4s", "4z",
   "5m", "5p", "5s", "5z", "6m", "6p", "6s", "6z", "7m", "7p", "7s", "7z", "8m", "8p", "8s", "9m", "9p", "9s"].map
    String.toList

/-- What `template.render` is given (`mahjong/tenhou_record_check.py:193-194`). -/
structure Page where
  player : TPlayer
  record : TRecord
  logUrl : Option Str
  /-- `GameAnalysis` (`mahjong/tenhou_record_check.py:91-94`): the title of a game and its reports -/
  games : List (Str × List RoundReasoning)
  tiles : List Str

/-- `game_reason_list(game, player, record)` (`mahjong/tenhou_record_check.py:201-206`); a record with neither three
    nor four players is taken for one of three (see `initialInvisible`). -/
def playerReports (iter : List Int → List Int) (r : TRecord) (p : TPlayer) (g : TGame) : Except PyErr (List RoundReasoning) :=
  if h : p.index < 4 then
    gameReasonList iter ⟨p.index, h⟩ (decide (r.players.length = 4)) (g.events.map TEvent.ev)
  else .error .indexError

/-- `"tenhou_record_%s_%s_%d.html" % (log_id, player.name, player.index)` (`mahjong/tenhou_record_check.py:196`). -/
def reportName (id name : Str) (index : Nat) : Str :=
  "tenhou_record_".toList ++ id ++ '_' :: name ++ '_' :: natDigits index ++ ".html".toList

/-- `render_template` (`mahjong/tenhou_record_check.py:183-198`): the name of the file, if one is wanted, and the
    page. -/
def renderTemplate (iter : List Int → List Int) (decode : Str → Str) (semi : Bool) (name : TPlayer → Str) (player : TPlayer)
    (record : TRecord) (logUrl logId : Option Str) (generate : Bool) : Except PyErr (Option Str × Page) := do
  let games ← record.games.mapM (fun g => do
    let title ← g.title name record.gameType record.players
    let rounds ← playerReports iter record player g
    pure (title, rounds))
  let (url, id) ← (match logUrl, logId with
    | some u, _ => do
      let id ← logIdFromUrl decode semi u
      pure (some u, some id)
    | none, some i => pure (some (logIdToUrl i), some i)
    | none, none => if generate then .error .valueError else pure (none, none) : Except PyErr (Option Str × Option Str))
  let page : Page := ⟨player, record, url, games, shownTiles⟩
  if generate then pure (some (reportName (id.getD "None".toList) (name player) player.index), page)
  else pure (none, page)

/-- The players `main` reports on (`mahjong/tenhou_record_check.py:166-171`), for the text typed in.  `isdigit` is
    taken for ASCII digits (`int` also reads other decimal digits; for digits such as `²` it raises). -/
def plannedPlayers {α : Type} (input : Str) (players : List α) : List α :=
  if input ≠ [] ∧ input.all isDigit then
    let n := digitsVal 0 input
    if 1 ≤ n ∧ n < players.length + 1 then
      match players[(n - 1).toNat]? with
      | some p => [p]
      | none => players
    else players
  else players

/-- the loop of `main` (`mahjong/tenhou_record_check.py:176-180`): the files written, in order, and the exception that
    ended it, if any. -/
def writeReports (render : TPlayer → Except PyErr (Option Str × Page)) : List TPlayer → List (Str × Page) × Option PyErr
  | [] => ([], none)
  | p :: ps =>
    match render p with
    | .error x => ([], some x)
    | .ok (file, page) =>
      let (rest, x) := writeReports render ps
      ((file.getD [], page) :: rest, x)

/-- `main` (`mahjong/tenhou_record_check.py:152-180`) once the record is read: `url` and `input` are what was typed. -/
def mainRun (iter : List Int → List Int) (decode : Str → Str) (semi : Bool) (name : TPlayer → Str) (record : TRecord)
    (url input : Str) : List (Str × Page) × Option PyErr :=
  writeReports (fun p => renderTemplate iter decode semi name p record (some url) none true) (plannedPlayers input record.players)

/-- what `TenhouChecker.parse` is called with (`mahjong/record/checker.py:12-20`) -/
inductive Source where
  | url (u : Str)
  | record (r : TRecord)
  | other

/-- `TenhouChecker.parse` (`mahjong/record/checker.py:12-23`); `fetch` is `from_url`. -/
def checkerParse (iter : List Int → List Int) (decode : Str → Str) (semi : Bool) (name : TPlayer → Str)
    (fetch : Str → Except PyErr TRecord) (source : Source) (playerIndex : Int) (generate : Bool) :
    Except PyErr (Option Str × Page) := do
  let (record, url) ← (match source with
    | .url u => do pure (← fetch u, some u)
    | .record r => pure (r, none)
    | .other => .error .typeError : Except PyErr (TRecord × Option Str))
  let player ← pyIdx record.players playerIndex
  renderTemplate iter decode semi name player record url none generate

end Verif.Model
