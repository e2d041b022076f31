import Verif.Model.Executor

/-!
`TransferDict` (`mahjong/record/universe/executor.py:141-222`) once more, with objects: a `TransferDict` refers to its parent, and its
dictionary refers to the `TransferDict`s inside.  `Executor.lean` has the same on values, where `TD.parents` stands for the links.

The constructor walks through the dictionaries inside, `set` and `drop` walk up the parents; both take `fuel` and answer `none` when it is
used up, so "the call returns `r`" is "for some fuel the model answers `some r`".
-/
namespace Verif.Model
open Verif.Py

/-- what an entry of `nested_dict` holds: a value, or a `TransferDict` (`mahjong/record/universe/executor.py:145-148`) -/
inductive Slot where
  | val (v : Val)
  | ref (r : Nat)

/-- a `TransferDict` (`mahjong/record/universe/executor.py:142-148`): the parent with the key, and `nested_dict` -/
structure DObj where
  parent : Option (Nat × Key)
  entries : List (Key × Slot)

/-- the `TransferDict`s, by reference (`mahjong/record/universe/executor.py:142-148`) -/
abbrev DStore := List DObj

/-- what the constructor finds in the dictionary given to it: a plain value or plain dictionary, or a `TransferDict`
    (`mahjong/record/universe/executor.py:216-222`) -/
inductive DArg where
  | plain (t : Tree)
  | ref (r : Nat)

/-- an entry of a `TransferDict` as found by the constructor (`mahjong/record/universe/executor.py:145-148,183-187,203-205,220`) -/
def Slot.arg : Slot → DArg
  | .val v => .plain (.leaf v)
  | .ref r => .ref r

/-- the comprehension over `nested_dict.items()` with `transfer_value` (`mahjong/record/universe/executor.py:145-148,216-222`); `make` is
    the constructor. -/
def transferAll (make : List (Key × DArg) → Option (Nat × Key) → DStore → Option (Nat × DStore)) (self : Nat) :
    List (Key × DArg) → DStore → Option (List (Key × Slot) × DStore)
  | [], h => some ([], h)
  | (k, .plain (.leaf v)) :: rest, h =>
    match transferAll make self rest h with
    | none => none
    | some (es, h1) => some ((k, .val v) :: es, h1)
  | (k, .plain (.node kids)) :: rest, h =>
    match make (kids.map (fun e => (e.1, .plain e.2))) (some (self, k)) h with
    | none => none
    | some (r, h1) =>
      match transferAll make self rest h1 with
      | none => none
      | some (es, h2) => some ((k, .ref r) :: es, h2)
  | (k, .ref r0) :: rest, h =>
    match h[r0]? with
    | none => none
    | some o =>
      match make (o.entries.map (fun e => (e.1, e.2.arg))) (some (self, k)) h with
      | none => none
      | some (r, h1) =>
        match transferAll make self rest h1 with
        | none => none
        | some (es, h2) => some ((k, .ref r) :: es, h2)

/-- `TransferDict(nested_dict, parent, parent_key)` (`mahjong/record/universe/executor.py:142-148`): the object is there, with its parent,
    before the entries are looked at; `nested_dict` is assigned last. -/
def newDict : Nat → List (Key × DArg) → Option (Nat × Key) → DStore → Option (Nat × DStore)
  | 0, _, _, _ => none
  | fuel + 1, args, parent, h =>
    let self := h.length
    match transferAll (newDict fuel) self args (h ++ [⟨parent, []⟩]) with
    | none => none
    | some (es, h1) => some (self, h1.set self ⟨parent, es⟩)

/-- `d[item]` (`mahjong/record/universe/executor.py:165-166`) -/
def dictItem (r : Nat) (k : Key) (h : DStore) : Option Slot :=
  match h[r]? with
  | none => none
  | some o => o.entries.lookup k

/-- `r[k1]...[kn]`, where every step gives a `TransferDict` (`mahjong/record/universe/executor.py:165-166`) -/
def dictWalk : Nat → List Key → DStore → Option Nat
  | r, [], _ => some r
  | r, k :: ks, h =>
    match dictItem r k h with
    | some (.ref r') => dictWalk r' ks h
    | _ => none

/-- `set` (`mahjong/record/universe/executor.py:182-194`); `up` bounds the number of parents. -/
def setRun (fuel : Nat) : Nat → Nat → Key → DArg → DStore → Option (Nat × DStore)
  | 0, _, _, _, _ => none
  | up + 1, r, k, a, h =>
    match h[r]? with
    | none => none
    | some o =>
      match newDict fuel (putKey (o.entries.map (fun e => (e.1, e.2.arg))) k a) o.parent h with
      | none => none
      | some (m, h1) =>
        match o.parent with
        | none => some (m, h1)
        | some (p, pk) => setRun fuel up p pk (.ref m) h1

/-- `drop` (`mahjong/record/universe/executor.py:202-208`) of a key that is there -/
def dropRun (fuel up : Nat) (r : Nat) (k : Key) (h : DStore) : Option (Nat × DStore) :=
  match h[r]? with
  | none => none
  | some o =>
    match newDict fuel ((o.entries.filter (fun e => decide (e.1 ≠ k))).map (fun e => (e.1, e.2.arg))) none h with
    | none => none
    | some (m, h1) =>
      match o.parent with
      | none => some (m, h1)
      | some (p, pk) => setRun fuel up p pk (.ref m) h1

/-- `setdefault` (`mahjong/record/universe/executor.py:210-214`) -/
def setdefaultRun (fuel up : Nat) (r : Nat) (k : Key) (a : DArg) (h : DStore) : Option (Nat × DStore) :=
  match dictItem r k h with
  | none => setRun fuel up r k a h
  | some _ => some (r, h)

/-! ### The executor -/

/-- `d[item]` where a dictionary is expected (`mahjong/record/universe/executor.py:103,105,111,165-166`) -/
def dictChild (r : Nat) (k : Key) (h : DStore) : Except PyErr Nat :=
  match dictItem r k h with
  | some (.ref r') => .ok r'
  | some (.val _) => .error .typeError
  | none => .error .keyError

/-- `d.get(key, None)` (`mahjong/record/universe/executor.py:120,162-163`); a property never names a dictionary. -/
def dictGet (r : Nat) (k : Key) (h : DStore) : Except PyErr Val :=
  match dictItem r k h with
  | some (.val v) => .ok v
  | some (.ref _) => .error .typeError
  | none => .ok .none

/-- `state_value` (`mahjong/record/universe/executor.py:98-105`) -/
def stateValueRun (r : Nat) (c : Cmd) (h : DStore) : Except PyErr Nat :=
  match c.prop.scope with
  | .player => do
    let q ← dictChild r (.scope .player) h
    let p ← playerId c.sub
    dictChild q (.player p) h
  | s => do
    let q ← dictChild r (.scope s) h
    dictChild q (.text "single".toList) h

/-- the new value of the property, and the dictionary it goes to (`mahjong/record/universe/executor.py:119-134`) -/
def updateRun (strict : Bool) (c : Cmd) (r : Nat) (h : DStore) : Except PyErr (Nat × Val) := do
  let vw ← stateValueRun r c h
  let old ← dictGet vw (.prop c.prop) h
  let new ← newValue c old
  if c.update = .assertEqualOrSet ∧ (dictItem vw (.prop c.prop) h).isSome = true then
    let isEqual ← checkEqual c.prop new old
    if strict && !isEqual then .error .assertionError else pure (vw, new)
  else pure (vw, new)

/-- `execute` (`mahjong/record/universe/executor.py:107-111,118-138`) from the state `r` on: what is yielded, each with the objects at that
    time, the exception if there is one, and the objects at the end. -/
def executeRunFrom (fuel up : Nat) (strict : Bool) : Nat → List Cmd → DStore → Option (List (Nat × DStore) × Option PyErr × DStore)
  | _, [], h => some ([], none, h)
  | r, c :: cs, h =>
    match updateRun strict c r h with
    | .error e => some ([], some e, h)
    | .ok (vw, new) =>
      match setRun fuel up vw (.prop c.prop) (.plain (.leaf new)) h with
      | none => none
      | some (r1, h1) =>
        match (do dictChild (← dictChild r1 (.text "global".toList) h1) (.text "time".toList) h1 : Except PyErr Nat) with
        | .error e => some ([], some e, h1)
        | .ok time =>
          match setRun fuel up time (.text "timestamp".toList) (.plain (.leaf (stamp c.timestamp))) h1 with
          | none => none
          | some (y, h2) =>
            match executeRunFrom fuel up strict r1 cs h2 with
            | none => none
            | some (ys, e, h3) => some ((y, h2) :: ys, e, h3)

/-- `GameExecutor(strict_mode).execute(commands)` (`mahjong/record/universe/executor.py:79-96,107-111`), read to the end -/
def executeRun (fuel up : Nat) (strict : Bool) (cs : List Cmd) (h : DStore) : Option (List (Nat × DStore) × Option PyErr × DStore) :=
  match newDict fuel (initialTree.kids.map (fun e => (e.1, .plain e.2))) none h with
  | none => none
  | some (r, h1) => executeRunFrom fuel up strict r cs h1

end Verif.Model
