import Verif.Model.Tile

/-!
Win patterns: `mahjong/container/pattern/win.py`.
-/
namespace Verif.Model
open Verif.Py

/-- `NormalTypeWin(pairs, melds)` (`mahjong/container/pattern/win.py:91-124`) and
    `UniquePairs(pairs, used)` (`:127-149`).
    Simplification: the unit counts are natural numbers (the constructors accept any int; a negative
    count never wins and never yields a unit).  `used` is a Python set of tiles; only `in` is applied
    to it, so the list of kinds is kept. -/
inductive Pattern where
  | normal (pairs melds : Nat)
  | unique (pairs : Nat) (used : List Kind)
  deriving DecidableEq, Repr

namespace Pattern

/-- `has_win` (`mahjong/container/pattern/win.py:109-110`, `:138-139`). -/
def hasWin : Pattern → Bool
  | normal p m => decide (p = 0 ∧ m = 0)
  | unique p _ => decide (p = 0)

/-- `need_count` (`mahjong/container/pattern/win.py:123-124`, `:145-146`). -/
def needCount : Pattern → Int
  | normal p m => p * 2 + m * 3
  | unique p _ => p * 2

/-- `need_units` (`mahjong/container/pattern/win.py:92-93`, `:148-149`). -/
def needUnits : Pattern → Nat
  | normal p m => p + m
  | unique p _ => p

/-- `max_unit_length` (`mahjong/container/pattern/win.py:95-96`, `:128-129`). -/
def maxUnitLength : Pattern → Nat
  | normal _ m => if m > 0 then 3 else 2
  | unique _ _ => 2

/-- `next_states` (`mahjong/container/pattern/win.py:112-121`, `:141-143`).
    `if flush:` is the truth of a `TileSet`, i.e. `__len__ != 0`. -/
def nextStates (w : Pattern) (tile : Tile) : List (TileSet × Pattern) :=
  match w with
  | normal p m =>
    (if p > 0 then [(tile.pair, normal (p - 1) m)] else []) ++
    (if m > 0 then
      (match tile.flush with
       | some f => if TileSet.len f ≠ 0 then [(f, normal p (m - 1))] else []
       | none => []) ++ [(tile.triplet, normal p (m - 1))]
     else [])
  | unique p used =>
    if tile.view ∉ used ∧ p > 0 then [(tile.pair, unique (p - 1) (tile.view :: used))] else []

end Pattern

/-- one list of units, e.g. a yielded selection (`mahjong/container/pattern/win.py:22-45`, `_win_selections`). -/
abbrev Selection := List TileSet

/-- The body of `update_possible_units` for one tile
    (`mahjong/container/pattern/win.py:57-65`): the units starting at `tile` that `hand` contains. -/
def unitsAt (w : Pattern) (hand : TileSet) (tile : Tile) : List (TileSet × Pattern) :=
  (w.nextStates tile).filter (fun e => TileSet.contains hand e.1)

/-- `update_possible_units` run to the end by `list(...)`
    (`mahjong/container/pattern/win.py:31,56-65`): the list of `(tile, states_list)`. -/
def unitList (w : Pattern) (hand : TileSet) : List (Tile × List (TileSet × Pattern)) :=
  hand.map (fun e => (e.1, unitsAt w hand e.1))

/-- `possible_units` after `list(self.update_possible_units(hand, possible_units))`
    (`mahjong/container/pattern/win.py:29-31,63`): `Counter.update` of every contained unit. -/
def possibleUnits (w : Pattern) (hand : TileSet) : TileSet :=
  (unitList w hand).foldl
    (fun pu tu => tu.2.foldl (fun pu us => Counter.update pu us.1) pu) []

/-- The loop `for tile, count in possible_units.items(): if count > 0: possible_units[tile] = hand[tile]`
    (`mahjong/container/pattern/win.py:33-35`). -/
def resetCounts (pu hand : TileSet) : TileSet :=
  pu.map (fun e : Tile × Int => if 0 < e.2 then (e.1, Counter.get hand (view e.1)) else e)

/-- The loop of `_win_selections` (`mahjong/container/pattern/win.py:42-45`); `rec` is the recursive
    generator call. -/
def winLoop (rec : Pattern → TileSet → List Selection) :
    List (Tile × List (TileSet × Pattern)) → TileSet → List Selection
  | [], _ => []
  | (tile, us) :: rest, hand =>
    us.flatMap (fun e => (rec e.2 (TileSet.sub hand e.1)).map (fun tail => e.1 :: tail))
      ++ winLoop rec rest (Counter.del hand (view tile))

/-- `_win_selections` (`mahjong/container/pattern/win.py:22-45`): the list of everything the
    generator yields.  The recursion depth is bounded by `need_units`, which every
    `next_states` step lowers by one; `fuel` counts it down (`winSel_fuel` in
    `Proofs/Win.lean` shows that more fuel changes nothing). -/
def winSelF : Nat → Pattern → TileSet → List Selection
  | 0, _, _ => []
  | fuel + 1, w, hand =>
    (if w.hasWin then [[]] else []) ++
    (if w.needCount > Counter.total hand then [] else
      let unit_list := unitList w hand
      let hand' := resetCounts (possibleUnits w hand) hand
      if w.needCount > Counter.total hand' then [] else
        winLoop (winSelF fuel) unit_list hand')

/-- `_win_selections` with enough fuel (`mahjong/container/pattern/win.py:22-45`, `_win_selections`). -/
def winSel (w : Pattern) (hand : TileSet) : List Selection := winSelF (w.needUnits + 1) w hand

/-- `win_selections` (`mahjong/container/pattern/win.py:18-20`): re-sorts the hand in place first. -/
def winSelections (w : Pattern) (hand : TileSet) : List Selection := winSel w (reSort hand)

/-- `match` (`mahjong/container/pattern/win.py:13-16`): whether anything is yielded. -/
def winMatch (w : Pattern) (hand : TileSet) : Bool := !(winSelections w hand).isEmpty

end Verif.Model
