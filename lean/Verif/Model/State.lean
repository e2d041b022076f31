import Verif.Model.Event

/-!
`mahjong/record/state.py`: game states folded over the events of a record.

`scan` may return `self`: the model's `scan` returns `none` for that, so that the default
`is_key_event` (`self.scan(event) != self`, object identity because no state defines `__eq__`) can be
expressed.  Python sets are lists used only through membership.
-/
namespace Verif.Model
open Verif.Py

/-- `s | {x}` and `s - t` on sets of numbers (`mahjong/record/state.py:82`). -/
def setInsert {α : Type} [DecidableEq α] (s : List α) (x : α) : List α := if x ∈ s then s else s ++ [x]
/-- `s - t` on sets of numbers (`mahjong/record/state.py:84-87,187-196`) -/
def setSub {α : Type} [DecidableEq α] (s t : List α) : List α := s.filter (fun y => decide (y ∉ t))

/-- attribute name `'hai%d' % index` (`mahjong/record/state.py:80`) -/
def haiName (p : Fin 4) : Str := "hai".toList ++ natDigits p.val

/-- An element of the invisible set: a tile number, or the tuple `(0, num, i)` of
    `mahjong/record/state.py:177`. -/
inductive InvElem where
  | num (n : Int)
  | tup (a b c : Int)
  deriving DecidableEq, Repr

/-- The five kinds of state, and collections of states (`mahjong/record/state.py:46-201`). -/
inductive GState where
  | hand (player : Fin 4) (tiles : List Int)
  | melds (player : Fin 4) (list : List Meld)
  | discards (player : Fin 4) (tiles : List Int)
  | dora (indicators : List Int)
  | invisible (fourPlayers : Bool) (tiles : List InvElem)
  | coll (names : List Str) (states : List GState)
  deriving Repr

/-- `PlayerHand.scan` (`mahjong/record/state.py:78-88`). -/
def handScan (p : Fin 4) (hand : List Int) (e : Event) : Except PyErr (Option (List Int)) := do
  if isGameInit e then
    let l ← intList (← e.get (haiName p))
    pure (some l.eraseDups)
  else match playerDraw p e with
  | some t => pure (some (setInsert hand t))
  | none => match playerDiscard p e with
    | some t => pure (some (setSub hand [t]))
    | none =>
      if ← playerOpenHand p e then
        let m ← meldFrom e
        pure (some (setSub hand m.selfTiles))
      else pure none

/-- the list comprehension of `mahjong/record/state.py:105-108` -/
def upgradeTriplets (added : Meld) (l : List Meld) : Except PyErr (List Meld) :=
  l.mapM (fun item => do
    if item.cls = .triplet then
      if ← isTripletOfAddedKan item added then pure (kanFromTriplet item added) else pure item
    else pure item)

/-- `PlayerMeld.scan` (`mahjong/record/state.py:100-114`). -/
def meldScan (p : Fin 4) (l : List Meld) (e : Event) : Except PyErr (Option (List Meld)) := do
  if ← playerOpenHand p e then
    let m ← meldFrom e
    if m.cls = .addedKan then
      pure (some (← upgradeTriplets m l))
    else pure (some (l ++ [m]))
  else if isGameInit e then pure (some [])
  else pure none

/-- `DiscardTiles.scan` (`mahjong/record/state.py:125-130`). -/
def discardScan (p : Fin 4) (l : List Int) (e : Event) : Except PyErr (Option (List Int)) :=
  match playerDiscard p e with
  | some t => pure (some (l ++ [t]))
  | none => if isGameInit e then pure (some []) else pure none

/-- `DoraIndicators.scan` (`mahjong/record/state.py:147-154`). -/
def doraScan (l : List Int) (e : Event) : Except PyErr (Option (List Int)) := do
  if isGameInit e then
    let seed ← intList (← e.get "seed".toList)
    let d ← pyIdx seed (-1)
    pure (some [d])
  else if isDora e then
    let d ← pyInt (← e.get "hai".toList)
    pure (some (l ++ [d]))
  else pure none

/-- `DoraIndicators().scan(event).value` (`mahjong/record/state.py:186,196`) -/
def doraScanValue (e : Event) : Except PyErr (List Int) := do
  match ← doraScan [] e with
  | some l => pure l
  | none => pure []

/-- the initial set (`mahjong/record/state.py:171-181`), for 4 or 3 players; another number of players
    leaves `None` and is not modelled. -/
def initialInvisible (four : Bool) : List InvElem :=
  if four then (List.range 136).map (fun (n : Nat) => .num n)
  else ([0, 8].flatMap (fun (num : Int) => (List.range 4).map (fun (i : Nat) => InvElem.tup 0 num i))) ++
    (List.range 100).map (fun (n : Nat) => .num (36 + n))

/-- `InvisibleTiles.scan` (`mahjong/record/state.py:183-197`); `if discard_val:` is false for tile 0. -/
def invisibleScan (four : Bool) (l : List InvElem) (e : Event) : Except PyErr (Option (List InvElem)) := do
  if isGameInit e then
    let d ← doraScanValue e
    pure (some (setSub (initialInvisible four) (d.map InvElem.num)))
  else
    let v := discardValue e
    if v ≠ none ∧ v ≠ some 0 then
      pure (some (setSub l [.num (v.getD 0)]))
    else if isOpenHand e then
      let m ← meldFrom e
      pure (some (setSub l (m.selfTiles.map InvElem.num)))
    else if isDora e then
      let d ← doraScanValue e
      pure (some (setSub l (d.map InvElem.num)))
    else pure none

mutual
/-- `scan`; `none` means that `self` was returned.  A collection (`mahjong/record/state.py:60-63`) scans
    every member and always builds a new collection. -/
def GState.scan? (e : Event) : GState → Except PyErr (Option GState)
  | .hand p l => do pure ((← handScan p l e).map (GState.hand p))
  | .melds p l => do pure ((← meldScan p l e).map (GState.melds p))
  | .discards p l => do pure ((← discardScan p l e).map (GState.discards p))
  | .dora l => do pure ((← doraScan l e).map GState.dora)
  | .invisible f l => do pure ((← invisibleScan f l e).map (GState.invisible f))
  | .coll ns ss => do pure (some (GState.coll ns (← GState.scanAll e ss)))
/-- the dict comprehension of `mahjong/record/state.py:61-63` -/
def GState.scanAll (e : Event) : List GState → Except PyErr (List GState)
  | [] => .ok []
  | s :: ss => do
    let s' ← GState.scan? e s
    let r ← GState.scanAll e ss
    pure (s'.getD s :: r)
end

/-- `scan` (`mahjong/record/state.py:17-19`) -/
def GState.scan (s : GState) (e : Event) : Except PyErr GState := do pure ((← s.scan? e).getD s)

mutual
/-- `is_key_event` (`mahjong/record/state.py:26-27,48-49,120-121,142-143,166-167`). -/
def GState.isKey (e : Event) : GState → Except PyErr Bool
  | .melds p _ => do
    if ← playerOpenHand p e then pure true else pure (isGameInit e)
  | .discards p _ => pure ((playerDiscard p e).isSome || isGameInit e)
  | .dora _ => pure (isGameInit e || isDora e)
  | .coll _ ss => GState.anyKey e ss
  | s => do pure (← s.scan? e).isSome
/-- `any(st.is_key_event(event) for st in ...)` (`mahjong/record/state.py:49`) -/
def GState.anyKey (e : Event) : List GState → Except PyErr Bool
  | [] => .ok false
  | s :: ss => do
    if ← GState.isKey e s then pure true else GState.anyKey e ss
end

/-- the loop of `with_key_events` (`mahjong/record/state.py:38-43`), keeping the last state: the filter asks
    the state `self` the iteration started from. -/
def keyLoop (self : GState) (st : GState) : List Event → Except PyErr GState
  | [] => .ok st
  | e :: es => do
    if ← self.isKey e then keyLoop self (← st.scan e) es
    else keyLoop self st es

/-- `passed_events` (`mahjong/record/state.py:35-36`). -/
def GState.passedEvents (s : GState) (es : List Event) : Except PyErr GState := keyLoop s s es

/-- `with_events` (`mahjong/record/state.py:29-33`): the states after each event. -/
def GState.withEvents (s : GState) : List Event → Except PyErr (List GState)
  | [] => .ok []
  | e :: es => do
    let s' ← s.scan e
    let r ← GState.withEvents s' es
    pure (s' :: r)

end Verif.Model
