import Verif.Model.Executor
import Verif.Model.State

/-!
The interpreter and the executor of commands again (`Command.lean`, `Executor.lean`), and the states of a game (`State.lean`), this
time with list and set objects: a variable holds a reference, two variables can hold the same object, and `list.remove` and `-=` change
the object.  Dictionaries are not objects here: `GameInterpreter.state` is only written by `interpret`, and `TransferDict.set` makes new
dictionaries (C42).
-/
namespace Verif.Model
open Verif.Py

/-- what a variable holds: something that cannot be changed, or a list object
    (the values of `mahjong/record/universe/command.py:58-66`) -/
inductive HVal where
  | atom (v : Val)
  | ref (r : Nat)
  deriving DecidableEq

/-- the list objects, by address (the lists made by `mahjong/record/universe/property_manager.py:58-60,95-104`) -/
abbrev Heap := List (List HVal)

/-- a new list object (`mahjong/record/universe/property_manager.py:60,96,104`) -/
def Heap.alloc (h : Heap) (items : List HVal) : Heap × HVal := (h ++ [items], .ref h.length)

/-- the value of a variable, reading list objects at most `fuel` deep
    (comparison and display only, `mahjong/record/universe/property_manager.py:70,98`) -/
def Heap.read (h : Heap) : Nat → HVal → Val
  | _, .atom v => v
  | 0, .ref _ => .none
  | f + 1, .ref r => .list ((h.getD r []).map (Heap.read h f))

/-- `a == b` of two variables, which compares lists item by item
    (`mahjong/record/universe/property_manager.py:70,98`) -/
def Heap.eq (h : Heap) (a b : HVal) : Bool := (h.read (h.length + 1) a).eq (h.read (h.length + 1) b)

/-- `add_general` (`mahjong/record/universe/property_manager.py:102-104`): `a + b` of lists is a new list object with the items of
    both. -/
def Heap.add (h : Heap) (a b : HVal) : Except PyErr (Heap × HVal) :=
  match a, b with
  | .ref r, .ref s => .ok (h.alloc (h.getD r [] ++ h.getD s []))
  | .atom x, .atom y => do pure (h, .atom (← x.add y))
  | _, _ => .error .typeError

/-- `remove_general` (`mahjong/record/universe/property_manager.py:107-109`) -/
def Heap.sub (h : Heap) (a b : HVal) : Except PyErr (Heap × HVal) :=
  match a, b with
  | .atom x, .atom y => do pure (h, .atom (← x.sub y))
  | _, _ => .error .typeError

/-- the items of a list object after `remove(val)` (`mahjong/record/universe/property_manager.py:98`) -/
def Heap.without (h : Heap) (val : HVal) : List HVal → Except PyErr (List HVal)
  | [] => .error .valueError
  | x :: l => if h.eq x val then .ok l else (h.without val l).map (fun r => x :: r)

/-- `for val in values: lst_r.remove(val)` (`mahjong/record/universe/property_manager.py:97-98`) for the list object at `r`, which is
    changed in place.  The items of `values` are taken before the loop: `values` is another object than `lst_r`. -/
def Heap.removeEach (h : Heap) (r : Nat) : List HVal → Except PyErr Heap
  | [] => .ok h
  | v :: vs => do
    let items ← h.without v (h.getD r [])
    Heap.removeEach (h.set r items) r vs

/-- what `for val in values` goes through (`mahjong/record/universe/property_manager.py:97`) -/
def Heap.iter (h : Heap) : HVal → Except PyErr (List HVal)
  | .ref r => .ok (h.getD r [])
  | .atom (.str s) => .ok (s.map (fun c => .atom (.str [c])))
  | .atom _ => .error .typeError

/-- `remove_all` (`mahjong/record/universe/property_manager.py:94-99`) -/
def Heap.removeAll (h : Heap) (lst values : HVal) : Except PyErr (Heap × HVal) :=
  match lst with
  | .ref r => do
    let (h1, copy) := h.alloc (h.getD r [])
    let vs ← h1.iter values
    let h2 ← h1.removeEach h.length vs
    pure (h2, copy)
  | .atom _ => .error .attributeError

/-- `prop_manager.call(old, value, prop=v, method=u)`
    (`mahjong/record/universe/property_manager.py:27-28,94-109`) -/
def Heap.callUpdate (h : Heap) (v : View) (u : Update) (old value : HVal) : Except PyErr (Heap × HVal) := do
  match ← lookupFunc (.update u) (some v) with
  | .removeAll => h.removeAll old value
  | .addGeneral => h.add old value
  | .removeGeneral => h.sub old value
  | _ => .error .typeError

/-- `prop_manager.default_value(prop=v)`: a new list object every time (`mahjong/record/universe/property_manager.py:53-60`) -/
def Heap.defaultValue (h : Heap) (v : View) : Except PyErr (Heap × HVal) := do
  match ← lookupFunc .defaultValue (some v) with
  | .defaultIndex => pure (h, .atom (.num (.int 0)))
  | .emptyList => pure (h.alloc [])
  | _ => .error .typeError

/-- a `GameCommand` (`mahjong/record/universe/command.py:57-66`): what the interpreter reads of it -/
structure HCmd where
  prop : View
  update : Update
  sub : Sub
  value : HVal
  timestamp : Option Int := none

/-- `execute_new_value` (`mahjong/record/universe/interpreter.py:20-37`): `REPLACE` and `ASSERT_EQUAL_OR_SET` give the object of the
    command itself. -/
def Heap.newValue (h : Heap) (c : HCmd) (old : HVal) : Except PyErr (Heap × HVal) :=
  match c.update with
  | .replace => .ok (h, c.value)
  | .add => h.callUpdate c.prop .add old c.value
  | .remove => h.callUpdate c.prop .remove old c.value
  | .resetDefault => h.defaultValue c.prop
  | .assertEqualOrSet => .ok (h, c.value)
  | .clear => .error .valueError

/-- the state of a `GameInterpreter` (`mahjong/record/universe/interpreter.py:8-10`) -/
abbrev HState := List ((Sub × View) × HVal)

/-- `state.get(key, None)` (`mahjong/record/universe/interpreter.py:14`) -/
def HState.get (s : HState) (k : Sub × View) : HVal := (s.lookup k).getD (.atom .none)

/-- `interpret` (`mahjong/record/universe/interpreter.py:12-17`) for one command after the other; with every command the object that
    becomes its `state`, and the variables of the interpreter then. -/
def hRun (h : Heap) (s : HState) : List HCmd → Heap × List (HVal × HState) × Option PyErr
  | [] => (h, [], none)
  | c :: cs =>
    match h.newValue c (s.get (c.sub, c.prop)) with
    | .error x => (h, [], some x)
    | .ok (h1, v) =>
      let s1 := putKey s (c.sub, c.prop) v
      let (h2, trace, x) := hRun h1 s1 cs
      (h2, (v, s1) :: trace, x)

/-- the content of a `TransferDict` with variables at the leaves (`mahjong/record/universe/executor.py:141-148`) -/
inductive HTree where
  | leaf (x : HVal)
  | node (kids : List (Key × HTree))

/-- a `TransferDict` (`mahjong/record/universe/executor.py:141-148`), as `TD` -/
structure HTD where
  kids : List (Key × HTree)
  parents : List (List (Key × HTree) × Key)

/-- `d[item]` (`mahjong/record/universe/executor.py:165-166`) where a dictionary is expected. -/
def HTD.child (d : HTD) (k : Key) : Except PyErr HTD :=
  match d.kids.lookup k with
  | some (.node kids) => .ok ⟨kids, (d.kids, k) :: d.parents⟩
  | some (.leaf _) => .error .typeError
  | none => .error .keyError

/-- `item in d` (`mahjong/record/universe/executor.py:168-169`). -/
def HTD.has (d : HTD) (k : Key) : Bool := (d.kids.lookup k).isSome

/-- `d.get(k, None)` for a property (`mahjong/record/universe/executor.py:162-163`): the object itself. -/
def HTD.get (d : HTD) (k : Key) : Except PyErr HVal :=
  match d.kids.lookup k with
  | some (.leaf v) => .ok v
  | some (.node _) => .error .typeError
  | none => .ok (.atom .none)

/-- the upward chain of `set` (`mahjong/record/universe/executor.py:187-194`) -/
def HTD.rebuild (kids : List (Key × HTree)) : List (List (Key × HTree) × Key) → HTD
  | [] => ⟨kids, []⟩
  | (up, key) :: ps => HTD.rebuild (putKey up key (.node kids)) ps

/-- `set` (`mahjong/record/universe/executor.py:182-194`): the new root. -/
def HTD.set (d : HTD) (k : Key) (t : HTree) : HTD := HTD.rebuild (putKey d.kids k t) d.parents

/-- the dictionaries of `GameExecutor.__init__` (`mahjong/record/universe/executor.py:79-96`) -/
def hInitialTree : HTD :=
  ⟨[(.text "global".toList, .node [(.text "time".toList, .node [])]),
    (.scope .game, .node [(.text "single".toList, .node [])]),
    (.scope .player, .node [(.player 0, .node []), (.player 1, .node []), (.player 2, .node []), (.player 3, .node [])]),
    (.scope .record, .node [(.text "single".toList, .node [])])], []⟩

/-- `state_value` (`mahjong/record/universe/executor.py:98-105`). -/
def hStateValue (d : HTD) (c : HCmd) : Except PyErr HTD :=
  match c.prop.scope with
  | .player => do (← d.child (.scope .player)).child (.player (← playerId c.sub))
  | s => do (← d.child (.scope s)).child (.text "single".toList)

/-- `execute_update_state` (`mahjong/record/universe/executor.py:118-138`); comparing (`check_equal`) changes nothing. -/
def hExecuteUpdate (strict : Bool) (h : Heap) (c : HCmd) (curr : HTD) : Except PyErr (Heap × HTD) := do
  let vw ← hStateValue curr c
  let old ← vw.get (.prop c.prop)
  let (h1, new) ← h.newValue c old
  if c.update = .assertEqualOrSet ∧ vw.has (.prop c.prop) = true then
    let isEqual ← checkEqual c.prop (h1.read (h1.length + 1) new) (h1.read (h1.length + 1) old)
    if strict && !isEqual then .error .assertionError
    else pure (h1, vw.set (.prop c.prop) (.leaf new))
  else pure (h1, vw.set (.prop c.prop) (.leaf new))

/-- what `execute` yields for a command (`mahjong/record/universe/executor.py:111`) -/
def hStamped (curr : HTD) (c : HCmd) : Except PyErr HTD := do
  let g ← curr.child (.text "global".toList)
  let t ← g.child (.text "time".toList)
  pure (t.set (.text "timestamp".toList) (.leaf (.atom (stamp c.timestamp))))

/-- `execute` (`mahjong/record/universe/executor.py:107-111`) -/
def hExecute (strict : Bool) (h : Heap) (curr : HTD) : List HCmd → Heap × List HTD × Option PyErr
  | [] => (h, [], none)
  | c :: cs =>
    match hExecuteUpdate strict h c curr with
    | .error e => (h, [], some e)
    | .ok (h1, curr1) =>
      match hStamped curr1 c with
      | .error e => (h1, [], some e)
      | .ok y =>
        let (h2, ys, e) := hExecute strict h1 curr1 cs
        (h2, y :: ys, e)

/-- the sets and lists that hold the value of a state
    (`mahjong/record/state.py:71-76,92-98,136-140,156-160,171-181`) -/
inductive Box where
  | ints (l : List Int)
  | melds (l : List Meld)
  | elems (l : List InvElem)
  deriving DecidableEq

/-- the objects, by address (`mahjong/record/state.py:71-181`) -/
abbrev Boxes := List Box

/-- the states of `mahjong/record/state.py`, each with a reference to its set or list; `value` hands out that object -/
inductive OState where
  | hand (player : Fin 4) (r : Nat)
  | melds (player : Fin 4) (r : Nat)
  | discards (player : Fin 4) (r : Nat)
  | dora (r : Nat)
  | invisible (fourPlayers : Bool) (r : Nat)
  | coll (names : List Str) (states : List OState)

/-- the numbers in a set or list (`mahjong/record/state.py:76,139,160`) -/
def Box.intsOf : Box → List Int
  | .ints l => l
  | _ => []
/-- the melds in a list (`mahjong/record/state.py:97`) -/
def Box.meldsOf : Box → List Meld
  | .melds l => l
  | _ => []
/-- the elements of a set of invisible tiles (`mahjong/record/state.py:180`) -/
def Box.elemsOf : Box → List InvElem
  | .elems l => l
  | _ => []

/-- the object at `r` (`mahjong/record/state.py:71-181`) -/
def Boxes.at (b : Boxes) (r : Nat) : Box := b.getD r (.ints [])

/-- `PlayerHand.scan` (`mahjong/record/state.py:78-88`): `|` and `-` make new sets. -/
def oHand (b : Boxes) (p : Fin 4) (r : Nat) (e : Event) : Except PyErr (Boxes × OState) := do
  let new (l : List Int) : Boxes × OState := (b ++ [.ints l], .hand p b.length)
  if isGameInit e then
    let l ← intList (← e.get (haiName p))
    pure (new l.eraseDups)
  else match playerDraw p e with
  | some t => pure (new (setInsert (b.at r).intsOf t))
  | none => match playerDiscard p e with
    | some t => pure (new (setSub (b.at r).intsOf [t]))
    | none =>
      if ← playerOpenHand p e then
        let m ← meldFrom e
        pure (new (setSub (b.at r).intsOf m.selfTiles))
      else pure (b, .hand p r)

/-- `PlayerMeld.scan` (`mahjong/record/state.py:100-114`): a list comprehension, `+` and the default make new lists. -/
def oMeld (b : Boxes) (p : Fin 4) (r : Nat) (e : Event) : Except PyErr (Boxes × OState) := do
  let new (l : List Meld) : Boxes × OState := (b ++ [.melds l], .melds p b.length)
  if ← playerOpenHand p e then
    let m ← meldFrom e
    if m.cls = .addedKan then
      pure (new (← upgradeTriplets m (b.at r).meldsOf))
    else pure (new ((b.at r).meldsOf ++ [m]))
  else if isGameInit e then pure (new [])
  else pure (b, .melds p r)

/-- `DiscardTiles.scan` (`mahjong/record/state.py:125-130`) -/
def oDiscard (b : Boxes) (p : Fin 4) (r : Nat) (e : Event) : Except PyErr (Boxes × OState) :=
  let new (l : List Int) : Boxes × OState := (b ++ [.ints l], .discards p b.length)
  match playerDiscard p e with
  | some t => pure (new ((b.at r).intsOf ++ [t]))
  | none => if isGameInit e then pure (new []) else pure (b, .discards p r)

/-- `DoraIndicators.scan` (`mahjong/record/state.py:147-154`), of the list at `r`: the objects and the list of the state it returns -/
def oDora (b : Boxes) (r : Nat) (e : Event) : Except PyErr (Boxes × Nat) := do
  if isGameInit e then
    let seed ← intList (← e.get "seed".toList)
    let d ← pyIdx seed (-1)
    pure (b ++ [.ints [d]], b.length)
  else if isDora e then
    let d ← pyInt (← e.get "hai".toList)
    pure (b ++ [.ints ((b.at r).intsOf ++ [d])], b.length)
  else pure (b, r)

/-- `DoraIndicators().scan(event)`: a new list, then `scan` (`mahjong/record/state.py:146-160,186,196`) -/
def oNewDora (b : Boxes) (e : Event) : Except PyErr (Boxes × Nat) := oDora (b ++ [.ints []]) b.length e

/-- `InvisibleTiles.scan` (`mahjong/record/state.py:183-197`): at the start of a hand a new set is made and then changed in place
    (`-=`, `mahjong/record/state.py:188`). -/
def oInvisible (b : Boxes) (four : Bool) (r : Nat) (e : Event) : Except PyErr (Boxes × OState) := do
  if isGameInit e then
    let brand := b.length
    let (b1, d) ← oNewDora (b ++ [.elems (initialInvisible four)]) e
    pure (b1.set brand (.elems (setSub (b1.at brand).elemsOf ((b1.at d).intsOf.map InvElem.num))), .invisible four brand)
  else
    let v := discardValue e
    if v ≠ none ∧ v ≠ some 0 then
      pure (b ++ [.elems (setSub (b.at r).elemsOf [.num (v.getD 0)])], .invisible four b.length)
    else if isOpenHand e then
      let m ← meldFrom e
      pure (b ++ [.elems (setSub (b.at r).elemsOf (m.selfTiles.map InvElem.num))], .invisible four b.length)
    else if isDora e then
      let (b1, d) ← oNewDora b e
      pure (b1 ++ [.elems (setSub (b1.at r).elemsOf ((b1.at d).intsOf.map InvElem.num))], .invisible four b1.length)
    else pure (b, .invisible four r)

mutual
/-- `scan` of any state; a collection scans every member (`mahjong/record/state.py:60-63`). -/
def oScan (b : Boxes) (e : Event) : OState → Except PyErr (Boxes × OState)
  | .hand p r => oHand b p r e
  | .melds p r => oMeld b p r e
  | .discards p r => oDiscard b p r e
  | .dora r => do
    let (b1, r1) ← oDora b r e
    pure (b1, .dora r1)
  | .invisible f r => oInvisible b f r e
  | .coll ns ss => do
    let (b1, ts) ← oScanAll b e ss
    pure (b1, .coll ns ts)
/-- `scan` of the states of a collection (`mahjong/record/state.py:60-63`) -/
def oScanAll (b : Boxes) (e : Event) : List OState → Except PyErr (Boxes × List OState)
  | [] => .ok (b, [])
  | s :: ss => do
    let (b1, t) ← oScan b e s
    let (b2, ts) ← oScanAll b1 e ss
    pure (b2, t :: ts)
end

/-- `with_events` (`mahjong/record/state.py:29-33`): the states yielded, and the exception that ends the run -/
def oWithEvents (b : Boxes) (s : OState) : List Event → Boxes × List OState × Option PyErr
  | [] => (b, [], none)
  | e :: es =>
    match oScan b e s with
    | .error x => (b, [], some x)
    | .ok (b1, t) =>
      let (b2, ts, x) := oWithEvents b1 t es
      (b2, t :: ts, x)

end Verif.Model
