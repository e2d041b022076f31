import Verif.Py.Base
import Verif.Model.Win
import Verif.Py.Order

/-!
Waiting analysis (`mahjong/container/pattern/reasoning.py`).

Generators are modelled by the list of everything they yield.  Loops over `itertools.count` may not
end; they take `fuel`, the number of rounds allowed, and answer `none` when it is used up, so
"the call returns `r`" is "for some fuel the model answers `some r`".
-/
namespace Verif.Model
open Verif.Py

/-! ### BruteForceWaiting (`mahjong/container/pattern/reasoning.py:31-46`) -/

/-- `itertools.product(tiles, repeat=n)` as used at `mahjong/container/pattern/reasoning.py:37`. -/
def productRepeat (tiles : List Tile) : Nat → List (List Tile)
  | 0 => [[]]
  | n + 1 => tiles.flatMap (fun t => (productRepeat tiles n).map (fun r => t :: r))

/-- The test inside the loop (`mahjong/container/pattern/reasoning.py:38-40`). -/
def bruteTest (w : Pattern) (hand : TileSet) (ig : Bool) (tiles : List Tile) : Bool :=
  let added := TileSet.add hand (Counter.ofIter tiles)
  (ig && added.all (fun e => decide (e.2 ≤ 4))) && winMatch w added

/-- `for need_tiles in count(1)` (`mahjong/container/pattern/reasoning.py:36-40`). -/
def bruteLoop (w : Pattern) (hand : TileSet) (ig : Bool) : Nat → Nat → Option Int
  | 0, _ => none
  | fuel + 1, need =>
    if (productRepeat ALL_TILES need).any (bruteTest w hand ig) then some ((need : Int) - 1)
    else bruteLoop w hand ig fuel (need + 1)

/-- `BruteForceWaiting.before_waiting_step` (`mahjong/container/pattern/reasoning.py:33-40`).
    `match(hand)` has re-sorted the hand in place. -/
def bruteBefore (w : Pattern) (ig : Bool) (fuel : Nat) (hand : TileSet) : Option Int :=
  if winMatch w hand then some (-1) else bruteLoop w (reSort hand) ig fuel 1

/-- the loop of the set comprehension at `mahjong/container/pattern/reasoning.py:44-46`; the `and`
    is short-circuiting, so `before_waiting_step` is called only when its left side holds. -/
def bruteUsefulLoop (w : Pattern) (ig : Bool) (fuel : Nat) (hand : TileSet) (selfWaiting : Int) :
    List Tile → Option (List Tile)
  | [] => some []
  | t :: rest =>
    if ig && decide (Counter.get hand (view t) < 4) then
      match bruteBefore w true fuel (TileSet.add hand (Counter.ofIter [t])) with
      | none => none
      | some n =>
        match bruteUsefulLoop w ig fuel hand selfWaiting rest with
        | none => none
        | some r => some (if n < selfWaiting then t :: r else r)
    else bruteUsefulLoop w ig fuel hand selfWaiting rest

/-- `BruteForceWaiting.useful_tiles` (`mahjong/container/pattern/reasoning.py:42-46`).  Both calls of
    `before_waiting_step` use the default `ignore_4counts=True`. -/
def bruteUseful (w : Pattern) (ig : Bool) (fuel : Nat) (hand : TileSet) : Option (List Tile) :=
  match bruteBefore w true fuel hand with
  | none => none
  | some sw => bruteUsefulLoop w ig fuel (reSort hand) sw ALL_TILES

/-- `Waiting.waiting_and_useful_tiles` (`mahjong/container/pattern/reasoning.py:27-28`), which
    `BruteForceWaiting` inherits.  The first call has re-sorted the hand in place. -/
def bruteWaitingUseful (w : Pattern) (ig : Bool) (fuel : Nat) (hand : TileSet) :
    Option (Int × List Tile) :=
  match bruteBefore w ig fuel hand with
  | none => none
  | some n => (bruteUseful w ig fuel (reSort hand)).map (fun s => (n, s))

/-! ### Shared helpers -/

/-- `borrowed_limit` (`mahjong/container/pattern/reasoning.py:49-54`): the returned limits.  It also
    re-sorts `hand` in place; callers below continue with `reSort hand`. -/
def borrowedLimit (hand : TileSet) : TileSet :=
  ALL_TILES.foldl (fun b t => Counter.set b t (Counter.get b (view t) - 4)) hand

/-- `borrowed_tile_count` (`mahjong/container/pattern/reasoning.py:109-110`). -/
def borrowedTileCount (hand : TileSet) : Int := Counter.total (Counter.neg hand)

/-- `all(cnt >= borrow_limits[tile] for tile, cnt in hand.items())`
    (`mahjong/container/pattern/reasoning.py:65,192`). -/
def withinLimits (limits hand : TileSet) : Bool :=
  hand.all (fun e => decide (Counter.get limits (view e.1) ≤ e.2))

/-! ### PatternMatchWaiting (`mahjong/container/pattern/reasoning.py:57-106`) -/

/-- The `for tile in searching_start.copy()` loop (`mahjong/container/pattern/reasoning.py:72-81`).
    `searching_start.remove(tile)` runs once per processed tile, so when `tile` is processed
    `searching_start` is the list from `tile` on. -/
def pmTiles (rec : TileSet → Pattern → List Tile → List (Selection × TileSet)) (w : Pattern) :
    List Tile → TileSet → List (Selection × TileSet)
  | [], _ => []
  | t :: rest, hand =>
    (w.nextStates t).flatMap (fun e =>
      (rec (Counter.subtract hand e.1) e.2 (t :: rest)).map (fun r => (e.1 :: r.1, r.2)))
    ++ pmTiles rec w rest (if 0 ≤ Counter.get hand (view t) then Counter.del hand (view t) else hand)

/-- `PatternMatchWaiting._win_selections_in_tiles`
    (`mahjong/container/pattern/reasoning.py:61-81`).  `fuel` bounds the recursion depth
    (`need_units` decreases at every call; `Proofs/Fuel.lean`: `pmSel_fuel`). -/
def pmSel (max : Int) (ig : Bool) (limits : TileSet) :
    Nat → TileSet → Pattern → List Tile → List (Selection × TileSet)
  | 0, _, _, _ => []
  | fuel + 1, hand, w, start =>
    if borrowedTileCount hand > max then []
    else if ig && !(withinLimits limits hand) then []
    else
      (if w.hasWin then [([], Counter.neg hand)] else []) ++
      (if w.needCount > Counter.total (Counter.pos hand) + max then []
       else pmTiles (pmSel max ig limits fuel) w start hand)

/-- The generator started at the top (`mahjong/container/pattern/reasoning.py:88-90,103-105`). -/
def pmTop (w : Pattern) (ig : Bool) (hand : TileSet) (max : Int) : List (Selection × TileSet) :=
  pmSel max ig (borrowedLimit hand) (w.needUnits + 1) (reSort hand) w ALL_TILES

/-- `for need_tile_count in count(0)` of `before_waiting_step`
    (`mahjong/container/pattern/reasoning.py:102-106`). -/
def pmBeforeLoop (w : Pattern) (ig : Bool) (hand : TileSet) : Nat → Nat → Option Int
  | 0, _ => none
  | fuel + 1, need =>
    if (pmTop w ig hand need).isEmpty then pmBeforeLoop w ig hand fuel (need + 1)
    else some ((need : Int) - 1)

/-- `PatternMatchWaiting.before_waiting_step` (`mahjong/container/pattern/reasoning.py:99-106`). -/
def pmBefore (w : Pattern) (ig : Bool) (fuel : Nat) (hand : TileSet) : Option Int :=
  pmBeforeLoop w ig hand fuel 0

/-- Adding tiles to a Python set: an `==` element already there is kept
    (`mahjong/container/pattern/reasoning.py:42-46,83-97,165,170-177`, sets of useful tiles). -/
def setAdd (s : List Tile) (t : Tile) : List Tile :=
  if s.any (fun x => x.eq t) then s else s ++ [t]

/-- `s.update(tiles)` / building a set (`mahjong/container/pattern/reasoning.py:42-46,83-97,165,170-177`, sets of useful tiles). -/
def setUpdate (s : List Tile) (ts : List Tile) : List Tile := ts.foldl setAdd s

/-- The union collected at `mahjong/container/pattern/reasoning.py:87-91`; iterating a `TileSet`
    iterates its keys. -/
def pmUsefulAt (w : Pattern) (ig : Bool) (hand : TileSet) (need : Nat) : List Tile :=
  (pmTop w ig hand need).foldl (fun s r => setUpdate s (r.2.map (fun e => e.1))) []

/-- `for need_tile_count in count(0)` of `waiting_and_useful_tiles`
    (`mahjong/container/pattern/reasoning.py:86-93`). -/
def pmUsefulLoop (w : Pattern) (ig : Bool) (hand : TileSet) : Nat → Nat → Option (Int × List Tile)
  | 0, _ => none
  | fuel + 1, need =>
    if (pmUsefulAt w ig hand need).length > 0 then some ((need : Int) - 1, pmUsefulAt w ig hand need)
    else pmUsefulLoop w ig hand fuel (need + 1)

/-- `PatternMatchWaiting.waiting_and_useful_tiles`
    (`mahjong/container/pattern/reasoning.py:83-93`); `useful_tiles` (`:95-97`) is its second part. -/
def pmWaitingUseful (w : Pattern) (ig : Bool) (fuel : Nat) (hand : TileSet) :
    Option (Int × List Tile) := pmUsefulLoop w ig hand fuel 0

/-! ### HeuristicPatternMatchWaiting (`mahjong/container/pattern/reasoning.py:125-233`) -/

/-- `need_to_borrow` (`mahjong/container/pattern/reasoning.py:119-122`). -/
def needToBorrow (hand unit : TileSet) : Int := borrowedTileCount (Counter.subtract hand unit)

/-- `units` of `init_search_by_hand` (`mahjong/container/pattern/reasoning.py:141-142`).
    Simplification: the following `units.sort()` (`:143`) only brings equal first components
    together for `groupby`; the groups are later put into a set and sorted, so the order inside a
    group has no effect and the sort is left out. -/
def initUnits (w : Pattern) (hand : TileSet) : List (Int × Tile) :=
  ALL_TILES.flatMap (fun t => (w.nextStates t).map (fun e => (needToBorrow hand e.1, t)))

/-- `borrowed_count_map[i]` (`mahjong/container/pattern/reasoning.py:144-147`): the tiles of the
    entries with borrow count `i`, empty for a missing `i` (`defaultdict(list)`). -/
def borrowedCountMap (w : Pattern) (hand : TileSet) (i : Int) : List Tile :=
  ((initUnits w hand).filter (fun u => decide (u.1 = i))).map (fun u => u.2)

/-- `borrows[searching_borrow]` (`mahjong/container/pattern/reasoning.py:148-153`):
    `sorted(set(...))` over `i = searching_borrow, ..., 0`. -/
def initBorrows (w : Pattern) (hand : TileSet) (searchingBorrow : Nat) : List Tile :=
  pySorted Tile.lt (setUpdate []
    (((List.range (searchingBorrow + 1)).reverse).flatMap
      (fun i : Nat => borrowedCountMap w hand i)))

/-- One yielded triple `(borrowed_count, patterns, borrowed)`
    (`mahjong/container/pattern/reasoning.py:199,223`). -/
structure HRes where
  count : Int
  units : Selection
  borrowed : TileSet
  deriving Repr

/-- `[unit] + patterns` (`mahjong/container/pattern/reasoning.py:223`). -/
def HRes.cons (u : TileSet) (r : HRes) : HRes := ⟨r.count, u :: r.units, r.borrowed⟩

/-- The `for unit, state in next_states(tile)` loop
    (`mahjong/container/pattern/reasoning.py:215-232`).  `max` is `self.max_used_tiles`, which inner
    calls change; the result is (yields, new `max_used_tiles`, whether `return` was reached). -/
def hUnits (rec : TileSet → Pattern → Int → List HRes × Int) (hand : TileSet)
    (basic minUsed can : Int) : List (TileSet × Pattern) → Int → List HRes × Int × Bool
  | [], max => ([], max, false)
  | e :: rest, max =>
    if basic + minUsed ≤ max then
      let hand_temp := Counter.subtract hand e.1
      let r := if borrowedTileCount hand_temp - basic = can then rec hand_temp e.2 max else ([], max)
      let r2 := hUnits rec hand basic minUsed can rest r.2
      (r.1.map (HRes.cons e.1) ++ r2.1, r2.2.1, r2.2.2)
    else ([], max, true)

/-- The `for tile in searching_round.copy()` loop
    (`mahjong/container/pattern/reasoning.py:214-233`).  When `tile` is processed, `searching_round`
    is the list from `tile` on (earlier tiles were removed), and that is what
    `temp_searching_group[can_borrowed]` holds during the inner call. -/
def hTiles (rec : (Nat → List Tile) → TileSet → Pattern → Int → List HRes × Int)
    (w : Pattern) (groups : Nat → List Tile) (hand : TileSet) (basic minUsed : Int) (can : Nat) :
    List Tile → Int → List HRes × Int × Bool
  | [], max => ([], max, false)
  | t :: rest, max =>
    let r := hUnits (rec (fun i => if i = can then t :: rest else groups i)) hand basic minUsed can
      (w.nextStates t) max
    if r.2.2 then r
    else
      let r2 := hTiles rec w groups hand basic minUsed can rest r.2.1
      (r.1 ++ r2.1, r2.2.1, r2.2.2)

/-- The `for can_borrowed in range(borrowed_stage, max_unit_length + 1)` loop
    (`mahjong/container/pattern/reasoning.py:207-233`). -/
def hStages (rec : Nat → (Nat → List Tile) → TileSet → Pattern → Int → List HRes × Int)
    (w : Pattern) (groups : Nat → List Tile) (hand : TileSet) (basic : Int) :
    List Nat → Int → List HRes × Int
  | [], max => ([], max)
  | can :: rest, max =>
    let r := hTiles (rec can) w groups hand basic ((w.needUnits : Int) * can) can (groups can) max
    if r.2.2 then (r.1, r.2.1)
    else
      let r2 := hStages rec w groups hand basic rest r.2.1
      (r.1 ++ r2.1, r2.2)

/-- `range(a, b)` for naturals (`mahjong/container/pattern/reasoning.py:207`). -/
def rangeFrom (a b : Nat) : List Nat := (List.range (b - a)).map (fun i => a + i)

/-- `HeuristicPatternMatchWaiting._win_selections_in_tiles`
    (`mahjong/container/pattern/reasoning.py:187-233`), run to its end: (yields, final
    `self.max_used_tiles`).  `searching_group` is a list of lists indexed by borrow count; a function
    is used (the indices read are at most `max_unit_length`, for which the list has an entry).
    `fuel` bounds the recursion depth (`need_units` decreases; `Proofs/Fuel.lean`: `hSel_fuel`). -/
def hSel (ig : Bool) (limits : TileSet) (pruning : Int) :
    Nat → Nat → (Nat → List Tile) → TileSet → Pattern → Int → List HRes × Int
  | 0, _, _, _, _, max => ([], max)
  | fuel + 1, stage, groups, hand, w, max =>
    if ig && !(withinLimits limits hand) then ([], max)
    else if w.hasWin then
      ([⟨Counter.total (Counter.neg hand), [], Counter.neg hand⟩],
        Counter.total (Counter.neg hand) - pruning)
    else
      hStages (hSel ig limits pruning fuel) w groups hand (borrowedTileCount hand)
        (rangeFrom stage (w.maxUnitLength + 1)) max

/-- `min(...)` of a generator: `ValueError` when it is empty
    (`mahjong/container/pattern/reasoning.py:138`). -/
def pyMin : List Int → Except PyErr Int
  | [] => .error .valueError
  | x :: l => .ok (l.foldl (fun m y => if y < m then y else m) x)

/-- `HeuristicPatternMatchWaiting.before_waiting_step`
    (`mahjong/container/pattern/reasoning.py:131-138`).  The first argument is the object's
    `max_used_tiles` before the call; the result also carries its value afterwards. -/
def heurBefore (_selfMax : Int) (w : Pattern) (ig : Bool) (hand : TileSet) : Except PyErr Int × Int :=
  let max0 := Counter.total hand
  let borrows := initBorrows w hand
  let r := hSel ig (borrowedLimit hand) 1 (w.needUnits + 1) 0 borrows (reSort hand) w max0
  ((pyMin (r.1.map HRes.count)).map (fun m => m - 1), r.2)

/-- `count_hand_borrow_combinition_iter` (`mahjong/container/pattern/reasoning.py:179-185`), run to
    the end. -/
def heurCombos (w : Pattern) (ig : Bool) (hand : TileSet) (selfWaiting : Int) : List HRes × Int :=
  hSel ig (borrowedLimit hand) 0 (w.needUnits + 1) 0 (initBorrows w hand) (reSort hand) w (selfWaiting + 1)

/-- `HeuristicPatternMatchWaiting.waiting_and_useful_tiles`
    (`mahjong/container/pattern/reasoning.py:160-165`); `useful_tiles` (`:156-158`) is its second
    part.  `before_waiting_step` is called with the default `ignore_4counts=True`. -/
def heurWaitingUseful (selfMax : Int) (w : Pattern) (ig : Bool) (hand : TileSet) :
    Except PyErr (Int × List Tile) :=
  (heurBefore selfMax w true hand).1.map (fun sw =>
    (sw, setUpdate [] ((heurCombos w ig (reSort hand) sw).1.flatMap (fun r => r.borrowed.map (fun e => e.1)))))

/-- `all_hand_cnt[tile].update(borrows)` on a `defaultdict(set)` keyed by tile
    (`mahjong/container/pattern/reasoning.py:175`). -/
def dropUpdate (acc : List (Tile × List Tile)) (t : Tile) (bs : List Tile) : List (Tile × List Tile) :=
  match acc with
  | [] => [(t, setUpdate [] bs)]
  | (a, s) :: rest => if a.eq t then (a, setUpdate s bs) :: rest else (a, s) :: dropUpdate rest t bs

/-- the loop body at `mahjong/container/pattern/reasoning.py:171-175` for one result. -/
def batchStep (hand : TileSet) (acc : List (Tile × List Tile)) (r : HRes) : List (Tile × List Tile) :=
  let hand_win := r.units.foldl TileSet.add []
  let can_drops := TileSet.sub hand hand_win
  can_drops.foldl (fun acc e => dropUpdate acc e.1 (r.borrowed.map (fun e => e.1))) acc

/-- `HeuristicPatternMatchWaiting.batch_waiting_and_useful_tiles`
    (`mahjong/container/pattern/reasoning.py:167-177`): everything the generator yields. -/
def heurBatch (selfMax : Int) (w : Pattern) (ig : Bool) (hand : TileSet) :
    Except PyErr (List (Tile × Int × List Tile)) :=
  (heurBefore selfMax w true hand).1.map (fun sw =>
    ((heurCombos w ig (reSort hand) sw).1.foldl (batchStep (reSort hand)) []).map
      (fun e => (e.1, sw, e.2)))

end Verif.Model
