import Verif.Model.Frame

/-!
`mahjong/record/universe/command.py`: commands as tables of Python objects ("raw"), and the cleaning of a table read
from a file.
-/
namespace Verif.Model
open Verif.Py

/-- The tuple `to_raw_record` makes (`mahjong/record/universe/command.py:34-48`). -/
structure RawRec where
  timestamp : Option Int
  event : Option EventType
  scope : Scope
  sub : Sub
  property : View
  update : Update
  value : Val
  state : Val
  deriving DecidableEq, Repr

/-- `to_raw_record` (`mahjong/record/universe/command.py:104-114`). -/
def Cmd.toRaw (c : Cmd) : RawRec :=
  ⟨c.timestamp, c.event, c.prop.scope, c.sub, c.prop, c.update, c.value, c.state⟩

/-- `from_raw_record` (`mahjong/record/universe/command.py:116-126`); `norm_empty` (`:11-16`) only changes NaN, which
    the values of the model do not have. -/
def Cmd.fromRaw (r : RawRec) : Cmd :=
  { prop := r.property, event := r.event, update := r.update, sub := r.sub.tryInt, value := r.value,
    timestamp := r.timestamp, state := r.state }

/-- `GameCommand.to_dataframe(commands, raw=True)` (`mahjong/record/universe/command.py:78-84`) and
    `command_to_raw_dataframe` (`mahjong/record/util_functions.py:12-15`): the rows. -/
def rawTable (cs : List Cmd) : List RawRec := cs.map Cmd.toRaw

/-- `pandas_columns_clean` (`mahjong/record/universe/command.py:93-102`).  A row is the columns of the command and
    others (an index, the name of a log), here with texts in them. -/
def cleanRow (row : Rec × List (Str × Str)) : Except PyErr (RawRec × List (Str × Str)) := do
  let command ← Cmd.fromRecord row.1
  pure (command.toRaw, row.2)

/-- `clean` (`mahjong/record/universe/command.py:74-76`): row by row. -/
def cleanTable (rows : List (Rec × List (Str × Str))) : Except PyErr (List (RawRec × List (Str × Str))) := rows.mapM cleanRow

/-- `parse_dataframe_from_tenhou_record(record, return_state=False, for_serialize=False)`
    (`mahjong/record/util_functions.py:22-28`). -/
def parseRaw (left : Ctx → TEvent → Ctx) (ctx : Ctx) (events : List TEvent) : Except PyErr (List RawRec) := do
  let commands ← (toCommands left false ctx events).2
  pure (rawTable commands)

/-- the same with `for_serialize=True` (`mahjong/record/util_functions.py:22-28`) -/
def parseSerial (showVal : Val → Str) (left : Ctx → TEvent → Ctx) (ctx : Ctx) (events : List TEvent) :
    Except PyErr (List Rec) := do
  let commands ← (toCommands left false ctx events).2
  commands.mapM (Cmd.toRecord showVal)

end Verif.Model
