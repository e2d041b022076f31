import Verif.Model.Translate
import Verif.Model.Executor

/-!
`mahjong/record/util_functions.py`: the tables made of a record.  A data frame is the list of rows it is made of; how
pandas stores it is not modelled.
-/
namespace Verif.Model
open Verif.Py

/-- `parse_dataframe_from_tenhou_record(record)` (`util_functions.py:22-28`): the rows of `command_df`
    (`command.py:86-88`) and of `state_df` (`executor.py:113-114`).  pandas goes through the states while they are
    made; here an exception of the run is raised before one of `flatten`. -/
def parseDataframes (showVal : Val → Str) (left : Ctx → TEvent → Ctx) (ctx : Ctx) (events : List TEvent) :
    Except PyErr (List Rec × List (List (List Key × Str))) := do
  let commands ← (toCommands left false ctx events).2
  let commandRows ← commands.mapM (Cmd.toRecord showVal)
  let (states, failure) := execute false commands
  match failure with
  | some x => .error x
  | none => do
    let stateRows ← states.mapM (TD.flatten showVal)
    pure (commandRows, stateRows)

/-- `[A-Za-z]` (`mahjong/record/util_functions.py:33`) -/
def isLetter (c : Char) : Bool := ('A' ≤ c && c ≤ 'Z') || ('a' ≤ c && c ≤ 'z')

/-- the groups of `last_num.match(tag)` for `^([A-Za-z]+)([0-9]+)$` (`util_functions.py:33`); `$` also accepts one
    trailing newline. -/
def lastNum (tag : Str) : Option (Str × Str) :=
  let name := tag.takeWhile isLetter
  let rest := tag.dropWhile isLetter
  let number := rest.takeWhile isDigit
  let tail := rest.dropWhile isDigit
  if name ≠ [] ∧ number ≠ [] ∧ (tail = [] ∨ tail = ['\n']) then some (name, number) else none

/-- A row `{"index": i, "tag": tag, "attr": k, "value": v}` (`util_functions.py:51`). -/
structure DfRow where
  index : Nat
  tag : Str
  attr : Str
  value : Str
  deriving DecidableEq, Repr

/-- the body of the loop of `_event_df_iter` (`util_functions.py:38-51`). -/
def elementRows (abstract : Bool) (i : Nat) (e : Event) : List DfRow :=
  let matched := lastNum e.tag
  let extra : List (Str × Str) := match matched with | some (_, d) => [("<tag_extra>".toList, d)] | none => []
  let tag := match matched with | some (t, _) => t | none => e.tag
  let result := putKey extra "<tag>".toList tag
  if matched.isSome && abstract then []
  else (e.attrib.foldl (fun r kv => putKey r kv.1 kv.2) result).map (fun kv => ⟨i, tag, kv.1, kv.2⟩)

/-- `_event_df_iter` (`util_functions.py:36-51`). -/
def eventDfFrom (abstract : Bool) : Nat → List Event → List DfRow
  | _, [] => []
  | i, e :: es => elementRows abstract i e ++ eventDfFrom abstract (i + 1) es
/-- all rows of `_event_df_iter` (`mahjong/record/util_functions.py:36-51`) -/
def eventDf (abstract : Bool) (events : List Event) : List DfRow := eventDfFrom abstract 0 events

end Verif.Model
