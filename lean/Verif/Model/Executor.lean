import Verif.Model.Command

/-!
`mahjong/record/universe/executor.py`: `TransferDict` and `GameExecutor`.

Reading CSV files (`executor.py:14-31,59-77`) is in `StateCsv.lean`.  Not modelled: the log text and the warning itself,
the unused tables `listExecutor`/`setExecutor` (`executor.py:33-52`).
-/
namespace Verif.Model
open Verif.Py

/-- What is used as a dictionary key: a text, a view scope, a player id, a property
    (`mahjong/record/universe/executor.py:81-95,134-137`). -/
inductive Key where
  | text (s : Str)
  | scope (s : Scope)
  | player (p : Fin 4)
  | prop (v : View)
  deriving DecidableEq, Repr

/-- The content of a `TransferDict`: every dictionary inside is one, anything else is a value
    (`mahjong/record/universe/executor.py:141-148`). -/
inductive Tree where
  | leaf (v : Val)
  | node (kids : List (Key × Tree))
  deriving Repr

/-- A `TransferDict` (`mahjong/record/universe/executor.py:141-148`): its entries and, innermost first, the
    entries of the dictionaries around it with the key under which it sits there (`parent`, `parent_key`).
    A child gets its link when the dictionary around it is built (`executor.py:216-222`), so it always points to
    the dictionary it was taken from. -/
structure TD where
  kids : List (Key × Tree)
  parents : List (List (Key × Tree) × Key)
  deriving Repr

/-- `d[item]` (`mahjong/record/universe/executor.py:165-166`) where a dictionary is expected. -/
def TD.child (d : TD) (k : Key) : Except PyErr TD :=
  match d.kids.lookup k with
  | some (.node kids) => .ok ⟨kids, (d.kids, k) :: d.parents⟩
  | some (.leaf _) => .error .typeError
  | none => .error .keyError

/-- `item in d` (`mahjong/record/universe/executor.py:168-169`). -/
def TD.has (d : TD) (k : Key) : Bool := (d.kids.lookup k).isSome

/-- `d.get(k, None)` for a property (`mahjong/record/universe/executor.py:162-163`). -/
def TD.get (d : TD) (k : Key) : Except PyErr Val :=
  match d.kids.lookup k with
  | some (.leaf v) => .ok v
  | some (.node _) => .error .typeError
  | none => .ok .none

/-- the upward chain of `set` (`mahjong/record/universe/executor.py:187-194`) -/
def TD.rebuild (kids : List (Key × Tree)) : List (List (Key × Tree) × Key) → TD
  | [] => ⟨kids, []⟩
  | (up, key) :: ps => TD.rebuild (putKey up key (.node kids)) ps

/-- `set` (`mahjong/record/universe/executor.py:182-194`): the new root. -/
def TD.set (d : TD) (k : Key) (t : Tree) : TD := TD.rebuild (putKey d.kids k t) d.parents

/-- `drop` (`mahjong/record/universe/executor.py:202-208`). -/
def TD.drop (d : TD) (k : Key) : Except PyErr TD :=
  if d.has k then .ok (TD.rebuild (d.kids.filter (fun e => decide (e.1 ≠ k))) d.parents) else .error .keyError

/-- `setdefault` (`mahjong/record/universe/executor.py:210-214`): the new root, or the dictionary itself. -/
def TD.setdefault (d : TD) (k : Key) (t : Tree) : TD := if d.has k then d else d.set k t

mutual
/-- `flatten_iter` (`mahjong/record/universe/executor.py:150-157`). -/
def flattenKids : List (Key × Tree) → List (List Key × Val)
  | [] => []
  | (k, t) :: l => flattenTree k t ++ flattenKids l
/-- `flatten_iter` of a nested dictionary (`mahjong/record/universe/executor.py:150-157`) -/
def flattenTree (k : Key) : Tree → List (List Key × Val)
  | .leaf v => [([k], v)]
  | .node kids => (flattenKids kids).map (fun e => (k :: e.1, e.2))
end

/-- `flatten` (`mahjong/record/universe/executor.py:159-160`): keys that are properties use the text form of
    their type, other keys the general one. -/
def TD.flatten (showVal : Val → Str) (d : TD) : Except PyErr (List (List Key × Str)) :=
  (flattenKids d.kids).mapM (fun e => do
    let v : Option View := match e.1.getLast? with | some (.prop v) => some v | _ => none
    pure (e.1, ← toStr showVal v e.2))

/-- the dictionaries of `GameExecutor.__init__` (`mahjong/record/universe/executor.py:79-96`) -/
def initialTree : TD :=
  ⟨[(.text "global".toList, .node [(.text "time".toList, .node [])]),
    (.scope .game, .node [(.text "single".toList, .node [])]),
    (.scope .player, .node [(.player 0, .node []), (.player 1, .node []), (.player 2, .node []), (.player 3, .node [])]),
    (.scope .record, .node [(.text "single".toList, .node [])])], []⟩

/-- `PlayerId(sub_scope_id)` (`mahjong/record/universe/format.py:5-9`). -/
def playerId : Sub → Except PyErr (Fin 4)
  | .num 0 => .ok 0
  | .num 1 => .ok 1
  | .num 2 => .ok 2
  | .num 3 => .ok 3
  | _ => .error .valueError

/-- `state_value` (`mahjong/record/universe/executor.py:98-105`). -/
def stateValue (d : TD) (c : Cmd) : Except PyErr TD :=
  match c.prop.scope with
  | .player => do (← d.child (.scope .player)).child (.player (← playerId c.sub))
  | s => do (← d.child (.scope s)).child (.text "single".toList)

/-- `execute_update_state` (`mahjong/record/universe/executor.py:118-138`). -/
def executeUpdate (strict : Bool) (c : Cmd) (curr : TD) : Except PyErr TD := do
  let vw ← stateValue curr c
  let old ← vw.get (.prop c.prop)
  let new ← newValue c old
  if c.update = .assertEqualOrSet ∧ vw.has (.prop c.prop) = true then
    let isEqual ← checkEqual c.prop new old
    if strict && !isEqual then .error .assertionError
    else pure (vw.set (.prop c.prop) (.leaf new))
  else pure (vw.set (.prop c.prop) (.leaf new))

/-- The value of a timestamp in a state (`mahjong/record/universe/executor.py:111`). -/
def stamp (t : Option Int) : Val := match t with | some n => .num (.int n) | none => .none

/-- what `execute` yields for a command (`mahjong/record/universe/executor.py:111`) -/
def stamped (curr : TD) (c : Cmd) : Except PyErr TD := do
  let g ← curr.child (.text "global".toList)
  let t ← g.child (.text "time".toList)
  pure (t.set (.text "timestamp".toList) (.leaf (stamp c.timestamp)))

/-- `execute` (`mahjong/record/universe/executor.py:107-111`): the states yielded and the exception that ends the
    run, if any.  The timestamp goes into the yielded state only, not into the state carried on. -/
def executeFrom (strict : Bool) (curr : TD) : List Cmd → List TD × Option PyErr
  | [] => ([], none)
  | c :: cs =>
    match executeUpdate strict c curr with
    | .error e => ([], some e)
    | .ok curr' =>
      match stamped curr' c with
      | .error e => ([], some e)
      | .ok y =>
        let r := executeFrom strict curr' cs
        (y :: r.1, r.2)

/-- `execute` (`mahjong/record/universe/executor.py:107-111`) -/
def execute (strict : Bool) (cs : List Cmd) : List TD × Option PyErr := executeFrom strict initialTree cs

end Verif.Model
