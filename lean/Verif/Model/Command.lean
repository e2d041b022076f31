import Verif.Model.Json
import Verif.Model.Format

/-!
`mahjong/record/universe/property_manager.py`, `command.py` and `interpreter.py`.
-/
namespace Verif.Model
open Verif.Py

/-- the functions registered in `prop_manager`, by name (`mahjong/record/universe/property_manager.py:53-109`) -/
inductive Func where
  | defaultIndex | emptyList | tilesEqual | generalEqual | plainStr | jsonDump | jsonLoadAny | removeAll | addGeneral
  | removeGeneral
  deriving DecidableEq, Repr

/-- the methods: `PropertyMethod` members and `Update` members used as methods
    (`mahjong/record/universe/property_manager.py:8-13,94-109`) -/
inductive Method where
  | defaultValue | isType | checkEqual | toStr | fromStr
  | update (u : Update)
  deriving DecidableEq, Repr

/-- `_func_mapper` in registration order (`mahjong/record/universe/property_manager.py:53-109`; the inner of two
    stacked decorators registers first); `none` is the type `None`. -/
def funcTable : List ((Option ViewType × Method) × Func) :=
  [((some ViewType.index, .defaultValue), .defaultIndex),
   ((some ViewType.list, .defaultValue), .emptyList),
   ((some ViewType.tiles, .checkEqual), .tilesEqual),
   ((none, .checkEqual), .generalEqual),
   ((some ViewType.str, .fromStr), .plainStr),
   ((some ViewType.str, .toStr), .plainStr),
   ((none, .toStr), .jsonDump),
   ((none, .fromStr), .jsonLoadAny),
   ((some ViewType.list, .update .remove), .removeAll),
   ((none, .update .add), .addGeneral),
   ((none, .update .remove), .removeGeneral)]

/-- `lookup_func_table` (`mahjong/record/universe/property_manager.py:123-127`) up to the call: the first entry
    with this method and no type, or a type containing the type of the view.  `none` is a key that is no view
    (no attribute `type`). -/
def lookupFunc (method : Method) (v : Option View) : Except PyErr Func :=
  let rec go : List ((Option ViewType × Method) × Func) → Except PyErr Func
    | [] => .error .valueError
    | ((typ, m), f) :: rest =>
      if m = method then
        match typ with
        | none => .ok f
        | some t =>
          match v with
          | none => go rest
          | some v => do
            let vt ← v.type
            if flagIn vt t then pure f else go rest
      else go rest
  go funcTable

/-- `prop_manager.default_value(prop=v)` (`mahjong/record/universe/property_manager.py:27-37,53-60`) -/
def defaultValue (v : View) : Except PyErr Val := do
  match ← lookupFunc .defaultValue (some v) with
  | .defaultIndex => pure (.num (.int 0))
  | .emptyList => pure (.list [])
  | _ => .error .typeError

/-- `prop_manager.check_equal(expected, actual, prop=v)`
    (`mahjong/record/universe/property_manager.py:27-37,63-70`) -/
def checkEqual (v : View) (expected actual : Val) : Except PyErr Bool := do
  match ← lookupFunc .checkEqual (some v) with
  | .tilesEqual => tilesEqual expected actual
  | .generalEqual => pure (expected.eq actual)
  | _ => .error .typeError

/-- `prop_manager.call(old, value, prop=v, method=u)`
    (`mahjong/record/universe/property_manager.py:27-28,94-109`) -/
def callUpdate (v : View) (u : Update) (old value : Val) : Except PyErr Val := do
  match ← lookupFunc (.update u) (some v) with
  | .removeAll => removeAll old value
  | .addGeneral => old.add value
  | .removeGeneral => old.sub value
  | _ => .error .typeError

/-- `str(x)`: a text is itself; `showVal` is what Python prints for other values
    (`mahjong/record/universe/property_manager.py:76,88`). -/
def pyStrVal (showVal : Val → Str) : Val → Str
  | .str s => s
  | v => showVal v

/-- `prop_manager.to_str(x, prop=v)`; `none` is a key that is no view
    (`mahjong/record/universe/property_manager.py:27-37,73-81`). -/
def toStr (showVal : Val → Str) (v : Option View) (x : Val) : Except PyErr Str := do
  match ← lookupFunc .toStr v with
  | .plainStr => pure (pyStrVal showVal x)
  | .jsonDump => pure (jsonDumps x)
  | _ => .error .typeError

/-- What a table cell can hold when a record is read back: a text, or what pandas makes of a column (NaN, bool,
    number) (`mahjong/record/universe/command.py:90-98`). -/
inductive Cell where
  | text (s : Str)
  | nan
  | bool (b : Bool)
  | num (n : Num)
  deriving DecidableEq, Repr

/-- `str(x)` of a cell (`mahjong/record/universe/property_manager.py:88-91`) -/
def Cell.str : Cell → Str
  | .text s => s
  | .nan => "nan".toList
  | .bool true => "True".toList
  | .bool false => "False".toList
  | .num n => numText n

/-- `json_load_any` (`mahjong/record/universe/property_manager.py:84-91`). -/
def jsonLoadAny : Cell → Except PyErr Val
  | .nan => .ok .none
  | .bool true => jsonLoads "true".toList
  | .bool false => jsonLoads "false".toList
  | c => jsonLoads c.str

/-- `prop_manager.from_str(x, prop=v)` (`mahjong/record/universe/property_manager.py:27-37,73-91`) -/
def fromStr (v : View) (x : Cell) : Except PyErr Val := do
  match ← lookupFunc .fromStr (some v) with
  | .plainStr => pure (.str x.str)
  | .jsonLoadAny => jsonLoadAny x
  | _ => .error .typeError

/-- A `sub_scope_id`: a text (`"all"` by default) or a number (`mahjong/record/universe/command.py:58,61`). -/
inductive Sub where
  | text (s : Str)
  | num (n : Int)
  deriving DecidableEq, Repr

/-- the default `sub_scope` (`mahjong/record/universe/command.py:58`) -/
def Sub.all : Sub := .text "all".toList

/-- `try_int` (`mahjong/record/universe/command.py:52-55`); `isdigit` for ASCII digits (other Unicode digits are
    left out). -/
def Sub.tryInt : Sub → Sub
  | .text s => if s ≠ [] ∧ s.all isDigit then .num (digitsVal 0 s) else .text s
  | s => s

/-- A `GameCommand` (`mahjong/record/universe/command.py:57-66`). -/
structure Cmd where
  prop : View
  update : Update
  sub : Sub := Sub.all
  value : Val := .none
  timestamp : Option Int := none
  state : Val := .none
  event : Option EventType := none
  deriving DecidableEq, Repr

/-- The tuple `to_record` makes (`mahjong/record/universe/command.py:34-48`). -/
structure Rec where
  timestamp : Option Int
  event : Option Str
  scope : Str
  sub : Sub
  property : Str
  update : Str
  value : Cell
  state : Cell
  deriving DecidableEq, Repr

/-- `to_record` (`mahjong/record/universe/command.py:128-138`); a flag value without a name gives `None` as
    property name, which is no text: an error here. -/
def Cmd.toRecord (showVal : Val → Str) (c : Cmd) : Except PyErr Rec := do
  let property ← match c.prop.name with | some n => pure n | none => .error .typeError
  let value ← toStr showVal (some c.prop) c.value
  let state ← toStr showVal (some c.prop) c.state
  pure ⟨c.timestamp, c.event.map EventType.name, c.prop.scope.name, c.sub, property, c.update.name, .text value,
    .text state⟩

/-- `from_record` (`mahjong/record/universe/command.py:140-151`). -/
def Cmd.fromRecord (r : Rec) : Except PyErr Cmd := do
  let prop ← View.byName (← Scope.ofName r.scope) r.property
  let event ← match r.event with
    | none => pure none
    | some e => do pure (some (← EventType.ofName e))
  let update ← Update.ofName r.update
  let value ← fromStr prop r.value
  let state ← fromStr prop r.state
  pure ⟨prop, update, r.sub.tryInt, value, r.timestamp, state, event⟩

/-- `execute_new_value` (`mahjong/record/universe/interpreter.py:20-36`). -/
def newValue (c : Cmd) (old : Val) : Except PyErr Val :=
  match c.update with
  | .replace => .ok c.value
  | .add => callUpdate c.prop .add old c.value
  | .remove => callUpdate c.prop .remove old c.value
  | .resetDefault => defaultValue c.prop
  | .assertEqualOrSet => .ok c.value
  | .clear => .error .valueError

/-- `d[key] = value`, `{**d, key: value}`: an existing key keeps its place
    (`mahjong/record/universe/interpreter.py:16`, `mahjong/record/universe/executor.py:183-186`). -/
def putKey {κ β : Type} [DecidableEq κ] (d : List (κ × β)) (k : κ) (v : β) : List (κ × β) :=
  match d with
  | [] => [(k, v)]
  | (a, b) :: l => if a = k then (a, v) :: l else (a, b) :: putKey l k v

/-- The state of a `GameInterpreter` (`mahjong/record/universe/interpreter.py:8-10`): a dictionary from
    (sub scope, property) to value. -/
abbrev IState := List ((Sub × View) × Val)

/-- `state.get(key, None)` (`mahjong/record/universe/interpreter.py:14`) -/
def IState.get (s : IState) (k : Sub × View) : Val := (s.lookup k).getD .none

/-- `state[key] = v` (`mahjong/record/universe/interpreter.py:16`) -/
def IState.set (s : IState) (k : Sub × View) (v : Val) : IState := putKey s k v

/-- `interpret` (`mahjong/record/universe/interpreter.py:12-17`). -/
def interpret (s : IState) (c : Cmd) : Except PyErr (Val × IState) := do
  let v ← newValue c (s.get (c.sub, c.prop))
  pure (v, s.set (c.sub, c.prop) v)

end Verif.Model
