import Verif.Py.Csv
import Verif.Model.Frame

/-!
The file `paifu-extract` writes, and reading it with `GameCommand.read_clean_csv`.  Download and console are not modelled.
-/
namespace Verif.Model
open Verif.Py

/-- `to_command_records(record)` (`mahjong/record/universe/tenhou/__init__.py:11-16`) with `raw` false, as far as it goes
    without an exception -/
def toCommandRecords (showVal : Val → Str) (left : Ctx → TEvent → Ctx) (strict : Bool) (ctx : Ctx) (events : List TEvent) :
    Except PyErr (List Rec) := do
  let cs ← (toCommands left strict ctx events).2
  cs.mapM (Cmd.toRecord showVal)

/-- `command_field_names` (`mahjong/record/universe/command.py:34-43`) -/
def commandFieldNames : List Str :=
  ["timestamp".toList, "event".toList, "scope".toList, "sub_scope_id".toList, "property".toList, "update_method".toList, "value".toList,
   "state".toList]

/-- how pandas writes a column of numbers: as floats if one is missing
    (`DataFrame.to_csv` in `mahjong/universe_paifu_convert.py:16`) -/
def timeText (allThere : Bool) : Option Int → Str
  | none => []
  | some n => if allThere then pyStrInt n else pyStrInt n ++ ".0".toList

/-- how pandas writes a cell that was made from a record
    (`DataFrame.to_csv` in `mahjong/universe_paifu_convert.py:16`) -/
def Cell.csv : Cell → Str
  | .nan => []
  | c => c.str

/-- the text of a `sub_scope_id` in a file (`DataFrame.to_csv` in `mahjong/universe_paifu_convert.py:16`) -/
def Sub.csv : Sub → Str
  | .text s => s
  | .num n => pyStrInt n

/-- a row of the file: the number of the row and the texts of the record
    (`DataFrame.to_csv` in `mahjong/universe_paifu_convert.py:16`, fields of `mahjong/record/universe/command.py:34-43`) -/
def recFields (allThere : Bool) (i : Nat) (r : Rec) : List Str :=
  [natDigits i, timeText allThere r.timestamp, r.event.getD [], r.scope, r.sub.csv, r.property, r.update, r.value.csv, r.state.csv]

/-- `pandas.DataFrame(records).to_csv(path)` (`mahjong/universe_paifu_convert.py:16`); without records there are no columns -/
def commandCsv (nl : Str) (rs : List Rec) : Str :=
  if rs = [] then "\"\"".toList ++ nl
  else csvText nl (([] :: commandFieldNames) ::
    rs.zipIdx.map (fun p => recFields (rs.all (fun r => r.timestamp.isSome)) p.2 p.1))

/-- The file of `main` (`mahjong/universe_paifu_convert.py:11-18`) -/
def convertFile (showVal : Val → Str) (nl : Str) (left : Ctx → TEvent → Ctx) (ctx : Ctx) (events : List TEvent) : Except PyErr Str := do
  pure (commandCsv nl (← toCommandRecords showVal left false ctx events))

/-- `row[name]` (`mahjong/record/universe/command.py:96-97`) -/
def cellNamed (header : List Str) (row : List Cell) (name : Str) : Except PyErr Cell :=
  match (header.zip row).find? (fun p => decide (p.1 = name)) with
  | some p => .ok p.2
  | none => .error .keyError

/-- a cell that is used as the name of an enum member (`mahjong/record/universe/command.py:142-146`) -/
def Cell.asName : Cell → Except PyErr Str
  | .text s => .ok s
  | _ => .error .keyError

/-- `pandas_columns_clean` (`mahjong/record/universe/command.py:93-102`) up to the command.  Timestamps that are no whole numbers,
    and sub-scopes that are no text and no whole number, are errors here. -/
def csvCommand (header : List Str) (row : List Cell) : Except PyErr Cmd := do
  let timestamp ← match ← cellNamed header row "timestamp".toList with
    | .nan => pure none
    | .num (.int n) => pure (some n)
    | _ => .error .typeError
  let event ← match ← cellNamed header row "event".toList with
    | .nan => pure none
    | c => do pure (some (← c.asName))
  let scope ← (← cellNamed header row "scope".toList).asName
  let sub ← match ← cellNamed header row "sub_scope_id".toList with
    | .text s => pure (Sub.text s)
    | .num (.int n) => pure (Sub.num n)
    | _ => .error .typeError
  let property ← (← cellNamed header row "property".toList).asName
  let update ← (← cellNamed header row "update_method".toList).asName
  let value ← cellNamed header row "value".toList
  let state ← cellNamed header row "state".toList
  Cmd.fromRecord ⟨timestamp, event, scope, sub, property, update, value, state⟩

/-- `GameCommand.read_clean_csv` (`mahjong/record/universe/command.py:74-75,89-91`): the commands of the rows.  `pandas` is what
    pandas makes of the texts below the header.  Rows of different lengths are not modelled (they are errors here). -/
def readCleanCsv (pandas : List (List Str) → List (List Cell)) (text : Str) : Except PyErr (List Cmd) := do
  match ← csvRows text with
  | [] => .error .valueError
  | header :: rows =>
    if rows.all (fun r => r.length = header.length) then (pandas rows).mapM (csvCommand header) else .error .valueError

end Verif.Model
