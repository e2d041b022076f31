import Verif.Model.Executor

/-!
`mahjong/record/universe/executor.py:14-31,59-77`: reading a table of states back.

A table is a list of columns: the labels of a column, outermost first, and its cells from top to bottom.  What pandas
does with the file itself (quoting, guessing the type of a column, filling cells without a text) is not modelled: a
column comes in as the `Cell`s pandas has made of it.
-/
namespace Verif.Model
open Verif.Py

/-- the names of `PlayerId` (`mahjong/record/universe/format.py:5-9`) -/
def playerNames : List (String × Fin 4) := [("first", 0), ("second", 1), ("third", 2), ("forth", 3)]

/-- the name of the view class of a scope (`format.py:94,110,128`) -/
def Scope.className : Scope → Str
  | .game => "GameView".toList
  | .player => "PlayerView".toList
  | .record => "RecordView".toList

/-- `str(key)`, with which pandas writes a label: `Class.name` for members of enums.  A view that is no property has no
    name here; no state has such a key
    (`mahjong/record/universe/executor.py:113-116,` enum classes in `mahjong/record/universe/format.py`). -/
def Key.label : Key → Str
  | .text s => s
  | .scope s => "ViewScope".toList ++ '.' :: s.name
  | .player p => "PlayerId".toList ++ '.' ::
      (match playerNames.find? (fun n => decide (n.2 = p)) with | some n => n.1.toList | none => [])
  | .prop v => v.scope.className ++ '.' :: v.name.getD []

/-- What a label is read as: a dictionary key, or a member of one of the other enums
    (`mahjong/record/universe/executor.py:14-30`). -/
inductive Label where
  | key (k : Key)
  | member (cls name : Str)
  deriving DecidableEq, Repr

/-- `enums[typ][name]` (`mahjong/record/universe/executor.py:14-22,29`): the enums of `format.py`.  `Enum` and `Flag`
    are among them and have no members, so they raise the same `KeyError` as a name that is no enum. -/
def enumMember (cls name : Str) : Except PyErr Label :=
  if cls = "PlayerId".toList then
    match playerNames.find? (fun n => decide (n.1.toList = name)) with
    | some n => .ok (.key (.player n.2))
    | none => .error .keyError
  else if cls = "ViewScope".toList then do pure (.key (.scope (← Scope.ofName name)))
  else if cls = "GameView".toList then do pure (.key (.prop (← View.byName .game name)))
  else if cls = "PlayerView".toList then do pure (.key (.prop (← View.byName .player name)))
  else if cls = "RecordView".toList then do pure (.key (.prop (← View.byName .record name)))
  else if cls = "Update".toList then do let _ ← Update.ofName name; pure (.member cls name)
  else if cls = "EventType".toList then do let _ ← EventType.ofName name; pure (.member cls name)
  else if cls = "ViewType".toList then
    if ["index", "score", "tiles", "melds", "str", "bool", "float", "int", "list"].any (fun n => decide (n.toList = name))
    then .ok (.member cls name) else .error .keyError
  else .error .keyError

/-- `replace_enum_values` (`executor.py:25-31`). -/
def replaceEnumValues (s : Str) : Except PyErr Label :=
  match splitOn '.' s with
  | [typ, name] => enumMember typ name
  | _ => .ok (.key (.text s))

/-- What stands in a cell of the table after reading: the cell itself, or the value made of it
    (`mahjong/record/universe/executor.py:60-67,76`). -/
inductive Got where
  | cell (c : Cell)
  | val (v : Val)
  deriving Repr

/-- `state_series_apply` (`executor.py:59-67`): only views have an attribute `type`. -/
def stateSeriesApply (name : List Label) (cells : List Cell) : Except PyErr (List Got) :=
  match name.getLast? with
  | some (.key (.prop v)) => cells.mapM (fun c => do pure (.val (← fromStr v c)))
  | _ => .ok (cells.map .cell)

/-- `GameExecutor.read_clean_csv` (`executor.py:72-77`) from the columns pandas has read. -/
def readStates (cols : List (List Str × List Cell)) : Except PyErr (List (List Label × List Got)) := do
  let named ← cols.mapM (fun c => do pure (← c.1.mapM replaceEnumValues, c.2))
  named.mapM (fun c => do pure (c.1, ← stateSeriesApply c.1 c.2))

end Verif.Model
