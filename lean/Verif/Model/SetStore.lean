import Verif.Model.Reasoning

/-!
Win patterns and waiting analysis once more (`Win.lean`, `Reasoning.lean`), this time with objects: a variable holds a reference to a
tile set or a list, `copy()` makes a new object, and `re_sort`, `del`, `subtract`, `update` and `remove` change the object they are called
on.  The tile sets of the pairs, runs and triplets are made once per tile and shared (`mahjong/tile/definition.py:44-48`), and so is the list of
all tiles (`mahjong/container/distribution.py:14`).

A generator is modelled by what it yields, each with the objects as they are at that moment, and the objects at its end.
Simplification: what the consumer does between two yields is done after the last one; the consumers here only make new objects.
-/
namespace Verif.Model
open Verif.Py

/-- an object that can be changed: a tile set, a list of tiles, a list of lists
    (`mahjong/container/set.py:9-10`, `mahjong/container/pattern/reasoning.py:62,188-189`) -/
inductive Obj where
  | set (s : TileSet)
  | tiles (l : List Tile)
  | lists (l : List Nat)
  deriving DecidableEq

/-- the objects, by reference (`mahjong/container/set.py:9-10`, `mahjong/container/pattern/reasoning.py:62,188-189`) -/
abbrev Store := List Obj

/-- the tile set at a reference (`mahjong/container/set.py:9-10`) -/
def Store.getSet (h : Store) (r : Nat) : TileSet :=
  match h[r]? with
  | some (.set s) => s
  | _ => []

/-- the list of tiles at a reference (`mahjong/container/pattern/reasoning.py:62`) -/
def Store.getTiles (h : Store) (r : Nat) : List Tile :=
  match h[r]? with
  | some (.tiles l) => l
  | _ => []

/-- the list of lists at a reference (`mahjong/container/pattern/reasoning.py:188-189`) -/
def Store.getLists (h : Store) (r : Nat) : List Nat :=
  match h[r]? with
  | some (.lists l) => l
  | _ => []

/-- a tile set is changed (`mahjong/container/set.py:11-16`) -/
def Store.putSet (h : Store) (r : Nat) (s : TileSet) : Store := h.set r (.set s)

/-- a list of tiles is changed (`mahjong/container/pattern/reasoning.py:81`) -/
def Store.putTiles (h : Store) (r : Nat) (l : List Tile) : Store := h.set r (.tiles l)

/-- `re_sort` (`mahjong/container/set.py:11-16`) changes the object. -/
def Store.reSort (h : Store) (r : Nat) : Store := h.putSet r (Model.reSort (h.getSet r))

/-- `copy` of a tile set, a new object (`mahjong/container/pattern/win.py:27`, `mahjong/container/pattern/reasoning.py:50,71,74`) -/
def Store.copySet (h : Store) (r : Nat) : Nat × Store := (h.length, h ++ [.set (h.getSet r)])

/-- `copy` of a list of tiles, a new object (`mahjong/container/pattern/reasoning.py:72,78,90,105,210`) -/
def Store.copyTiles (h : Store) (r : Nat) : Nat × Store := (h.length, h ++ [.tiles (h.getTiles r)])

/-- `__add__` (`mahjong/container/set.py:56-62`): `copy`, `+=`, `re_sort`. -/
def Store.addSets (h : Store) (a b : Nat) : Nat × Store :=
  let (target, h1) := h.copySet a
  let h2 := h1.putSet target (Counter.iadd (h1.getSet target) (h1.getSet b))
  (target, h2.reSort target)

/-- `__sub__` (`mahjong/container/set.py:64-67`): `copy`, `-=`. -/
def Store.subSets (h : Store) (a b : Nat) : Nat × Store :=
  let (target, h1) := h.copySet a
  (target, h1.putSet target (Counter.isub (h1.getSet target) (h1.getSet b)))

/-- `__and__` (`mahjong/container/set.py:69-70`) makes a new object (and a `Counter` that is forgotten at once, left out here). -/
def Store.andSets (h : Store) (a b : Nat) : Nat × Store := (h.length, h ++ [.set (TileSet.and (h.getSet a) (h.getSet b))])

/-- `__or__` (`mahjong/container/set.py:72-73`), likewise -/
def Store.orSets (h : Store) (a b : Nat) : Nat × Store := (h.length, h ++ [.set (TileSet.or (h.getSet a) (h.getSet b))])

/-- `exclude` (`mahjong/container/set.py:37-41`) -/
def Store.excludeSets (h : Store) (a b : Nat) : Option Nat × Store :=
  if TileSet.contains (h.getSet a) (h.getSet b) then
    let (r, h1) := h.subSets a b
    (some r, h1)
  else (none, h)

/-! ### Win patterns -/

/-- `next_states` (`mahjong/container/pattern/win.py:112-121,141-143`) hands out the shared tile sets of the tile; `unitAt` says where they are
    (`mahjong/tile/definition.py:81-99`). -/
def nextRefs (unitAt : TileSet → Nat) (w : Pattern) (tile : Tile) : List (Nat × Pattern) :=
  (w.nextStates tile).map (fun e => (unitAt e.1, e.2))

/-- the inner loop of `update_possible_units` (`mahjong/container/pattern/win.py:61-64`) -/
def updateUnits (hand units : Nat) : List (Nat × Pattern) → Store → List (Nat × Pattern) × Store
  | [], h => ([], h)
  | (u, w') :: rest, h =>
    if TileSet.contains (h.getSet hand) (h.getSet u) then
      let (l, h') := updateUnits hand units rest (h.putSet units (Counter.update (h.getSet units) (h.getSet u)))
      ((u, w') :: l, h')
    else updateUnits hand units rest h

/-- `list(self.update_possible_units(hand, possible_units))` (`mahjong/container/pattern/win.py:31,56-65`) for the tiles listed -/
def updatePossible (unitAt : TileSet → Nat) (w : Pattern) (hand units : Nat) :
    List Tile → Store → List (Tile × List (Nat × Pattern)) × Store
  | [], h => ([], h)
  | t :: rest, h =>
    let (l, h1) := updateUnits hand units (nextRefs unitAt w t) h
    let (ls, h2) := updatePossible unitAt w hand units rest h1
    ((t, l) :: ls, h2)

/-- the inner loop of `_win_selections` (`mahjong/container/pattern/win.py:43-44`): `hand - unit` is a new object. -/
def unitsRun (rec : Pattern → Nat → Store → List (List Nat × Store) × Store) (hand : Nat) :
    List (Nat × Pattern) → Store → List (List Nat × Store) × Store
  | [], h => ([], h)
  | (u, w') :: rest, h =>
    let (t, h1) := h.subSets hand u
    let (ys, h2) := rec w' t h1
    let (zs, h3) := unitsRun rec hand rest h2
    (ys.map (fun y => (u :: y.1, y.2)) ++ zs, h3)

/-- the loop of `_win_selections` (`mahjong/container/pattern/win.py:42-45`): `del hand[tile]` changes `hand`. -/
def winLoopRun (rec : Pattern → Nat → Store → List (List Nat × Store) × Store) (hand : Nat) :
    List (Tile × List (Nat × Pattern)) → Store → List (List Nat × Store) × Store
  | [], h => ([], h)
  | (tile, us) :: rest, h =>
    let (ys, h1) := unitsRun rec hand us h
    let (zs, h2) := winLoopRun rec hand rest (h1.putSet hand (Counter.del (h1.getSet hand) (view tile)))
    (ys ++ zs, h2)

/-- `_win_selections` (`mahjong/container/pattern/win.py:22-45`) of the tile set at `hand` -/
def winSelRun (unitAt : TileSet → Nat) : Nat → Pattern → Nat → Store → List (List Nat × Store) × Store
  | 0, _, _, h => ([], h)
  | fuel + 1, w, hand, h =>
    let first : List (List Nat × Store) := if w.hasWin then [([], h)] else []
    if w.needCount > Counter.total (h.getSet hand) then (first, h)
    else
      let (hand', h1) := h.copySet hand
      let units := h1.length
      let h2 : Store := h1 ++ [.set []]
      let (unitList, h3) := updatePossible unitAt w hand' units ((h2.getSet hand').map (fun e => e.1)) h2
      let h4 := h3.putSet units (resetCounts (h3.getSet units) (h3.getSet hand'))
      if w.needCount > Counter.total (h4.getSet units) then (first, h4)
      else
        let (ys, h5) := winLoopRun (winSelRun unitAt fuel) units unitList h4
        (first ++ ys, h5)

/-- `win_selections` (`mahjong/container/pattern/win.py:18-20`): the hand itself is sorted. -/
def winSelectionsRun (unitAt : TileSet → Nat) (w : Pattern) (hand : Nat) (h : Store) : List (List Nat × Store) × Store :=
  winSelRun unitAt (w.needUnits + 1) w hand (h.reSort hand)

/-- `match` (`mahjong/container/pattern/win.py:13-16`): it stops at the first selection. -/
def matchRun (unitAt : TileSet → Nat) (w : Pattern) (hand : Nat) (h : Store) : Bool × Store :=
  match winSelectionsRun unitAt w hand h with
  | ((_, h') :: _, _) => (true, h')
  | ([], h') => (false, h')

/-! ### BruteForceWaiting -/

/-- one round of the inner loop (`mahjong/container/pattern/reasoning.py:38-40`) -/
def bruteTestRun (unitAt : TileSet → Nat) (w : Pattern) (hand : Nat) (ig : Bool) (tiles : List Tile) (h : Store) : Bool × Store :=
  let drawn := h.length
  let (added, h1) := Store.addSets (h ++ [.set (Counter.ofIter tiles)]) hand drawn
  if ig && (h1.getSet added).all (fun e => decide (e.2 ≤ 4)) then matchRun unitAt w added h1 else (false, h1)

/-- the inner loop (`mahjong/container/pattern/reasoning.py:37-40`), left at the first success -/
def bruteAnyRun (unitAt : TileSet → Nat) (w : Pattern) (hand : Nat) (ig : Bool) : List (List Tile) → Store → Bool × Store
  | [], h => (false, h)
  | ts :: rest, h =>
    let (b, h1) := bruteTestRun unitAt w hand ig ts h
    if b then (true, h1) else bruteAnyRun unitAt w hand ig rest h1

/-- `for need_tiles in count(1)` (`mahjong/container/pattern/reasoning.py:36-40`) -/
def bruteLoopRun (unitAt : TileSet → Nat) (w : Pattern) (hand : Nat) (ig : Bool) : Nat → Nat → Store → Option Int × Store
  | 0, _, h => (none, h)
  | fuel + 1, need, h =>
    let (b, h1) := bruteAnyRun unitAt w hand ig (productRepeat ALL_TILES need) h
    if b then (some ((need : Int) - 1), h1) else bruteLoopRun unitAt w hand ig fuel (need + 1) h1

/-- `BruteForceWaiting.before_waiting_step` (`mahjong/container/pattern/reasoning.py:33-40`) -/
def bruteBeforeRun (unitAt : TileSet → Nat) (w : Pattern) (ig : Bool) (fuel : Nat) (hand : Nat) (h : Store) : Option Int × Store :=
  let (b, h1) := matchRun unitAt w hand h
  if b then (some (-1), h1) else bruteLoopRun unitAt w hand ig fuel 1 h1

/-- the set comprehension of `useful_tiles` (`mahjong/container/pattern/reasoning.py:44-46`) -/
def bruteUsefulRunLoop (unitAt : TileSet → Nat) (w : Pattern) (ig : Bool) (fuel : Nat) (hand : Nat) (selfWaiting : Int) :
    List Tile → Store → Option (List Tile) × Store
  | [], h => (some [], h)
  | t :: rest, h =>
    if ig && decide (Counter.get (h.getSet hand) (view t) < 4) then
      let one := h.length
      let (added, h1) := Store.addSets (h ++ [.set (Counter.ofIter [t])]) hand one
      match bruteBeforeRun unitAt w true fuel added h1 with
      | (none, h2) => (none, h2)
      | (some n, h2) =>
        match bruteUsefulRunLoop unitAt w ig fuel hand selfWaiting rest h2 with
        | (none, h3) => (none, h3)
        | (some r, h3) => (some (if n < selfWaiting then t :: r else r), h3)
    else bruteUsefulRunLoop unitAt w ig fuel hand selfWaiting rest h

/-- `BruteForceWaiting.useful_tiles` (`mahjong/container/pattern/reasoning.py:42-46`) -/
def bruteUsefulRun (unitAt : TileSet → Nat) (w : Pattern) (ig : Bool) (fuel : Nat) (hand : Nat) (h : Store) :
    Option (List Tile) × Store :=
  match bruteBeforeRun unitAt w true fuel hand h with
  | (none, h1) => (none, h1)
  | (some sw, h1) => bruteUsefulRunLoop unitAt w ig fuel hand sw ALL_TILES h1

/-- `Waiting.waiting_and_useful_tiles` (`mahjong/container/pattern/reasoning.py:27-28`) as `BruteForceWaiting` inherits it -/
def bruteWaitingUsefulRun (unitAt : TileSet → Nat) (w : Pattern) (ig : Bool) (fuel : Nat) (hand : Nat) (h : Store) :
    Option (Int × List Tile) × Store :=
  match bruteBeforeRun unitAt w ig fuel hand h with
  | (none, h1) => (none, h1)
  | (some n, h1) =>
    match bruteUsefulRun unitAt w ig fuel hand h1 with
    | (none, h2) => (none, h2)
    | (some us, h2) => (some (n, us), h2)

/-! ### PatternMatchWaiting -/

/-- `borrowed_limit` (`mahjong/container/pattern/reasoning.py:49-54`): the limits are a new object, the hand is sorted. -/
def borrowedLimitRun (hand : Nat) (h : Store) : Nat × Store :=
  let (limit, h1) := h.copySet hand
  let h2 := h1.reSort hand
  (limit, ALL_TILES.foldl (fun s t => s.putSet limit (Counter.set (s.getSet limit) t (Counter.get (s.getSet limit) (view t) - 4))) h2)

/-- the inner loop (`mahjong/container/pattern/reasoning.py:73-78`): `hand_temp` and the list handed on are new objects. -/
def pmUnitsRun (rec : Nat → Pattern → Nat → Store → List ((List Nat × Nat) × Store) × Store) (hand start : Nat) :
    List (Nat × Pattern) → Store → List ((List Nat × Nat) × Store) × Store
  | [], h => ([], h)
  | (u, w') :: rest, h =>
    let (temp, h1) := h.copySet hand
    let h2 := h1.putSet temp (Counter.subtract (h1.getSet temp) (h1.getSet u))
    let (next, h3) := h2.copyTiles start
    let (ys, h4) := rec temp w' next h3
    let (zs, h5) := pmUnitsRun rec hand start rest h4
    (ys.map (fun y => ((u :: y.1.1, y.1.2), y.2)) ++ zs, h5)

/-- the loop over the tiles (`mahjong/container/pattern/reasoning.py:72-81`): `del hand[tile]` and `searching_start.remove(tile)` change
    the hand and the list. -/
def pmTilesRun (unitAt : TileSet → Nat) (rec : Nat → Pattern → Nat → Store → List ((List Nat × Nat) × Store) × Store) (w : Pattern)
    (hand start : Nat) : List Tile → Store → List ((List Nat × Nat) × Store) × Store
  | [], h => ([], h)
  | t :: rest, h =>
    let (ys, h1) := pmUnitsRun rec hand start (nextRefs unitAt w t) h
    let h2 := if 0 ≤ Counter.get (h1.getSet hand) (view t) then h1.putSet hand (Counter.del (h1.getSet hand) (view t)) else h1
    let h3 := h2.putTiles start ((h2.getTiles start).eraseP (fun x => x.eq t))
    let (zs, h4) := pmTilesRun unitAt rec w hand start rest h3
    (ys ++ zs, h4)

/-- `_win_selections_in_tiles` (`mahjong/container/pattern/reasoning.py:61-81`) -/
def pmSelRun (unitAt : TileSet → Nat) (max : Int) (ig : Bool) (limits : Nat) :
    Nat → Nat → Pattern → Nat → Store → List ((List Nat × Nat) × Store) × Store
  | 0, _, _, _, h => ([], h)
  | fuel + 1, hand, w, start, h =>
    if borrowedTileCount (h.getSet hand) > max then ([], h)
    else if ig && !(withinLimits (h.getSet limits) (h.getSet hand)) then ([], h)
    else
      let borrowed := h.length
      let h1 : Store := if w.hasWin then h ++ [.set (Counter.neg (h.getSet hand))] else h
      let first : List ((List Nat × Nat) × Store) := if w.hasWin then [(([], borrowed), h1)] else []
      if w.needCount > Counter.total (Counter.pos (h1.getSet hand)) + max then (first, h1)
      else
        let (hand', h2) := h1.copySet hand
        let (ys, h3) := pmTilesRun unitAt (pmSelRun unitAt max ig limits fuel) w hand' start (h2.getTiles start) h2
        (first ++ ys, h3)

/-- the generator of one round (`mahjong/container/pattern/reasoning.py:88-90,103-105`), on a copy of the list of all tiles at `all` -/
def pmTopRun (unitAt : TileSet → Nat) (all : Nat) (w : Pattern) (ig : Bool) (limits hand : Nat) (max : Int) (h : Store) :
    List ((List Nat × Nat) × Store) × Store :=
  let (start, h1) := h.copyTiles all
  pmSelRun unitAt max ig limits (w.needUnits + 1) hand w start h1

/-- `for need_tile_count in count(0)` of `before_waiting_step` (`mahjong/container/pattern/reasoning.py:102-106`), left at the first
    yield -/
def pmBeforeRunLoop (unitAt : TileSet → Nat) (all : Nat) (w : Pattern) (ig : Bool) (limits hand : Nat) : Nat → Nat → Store → Option Int × Store
  | 0, _, h => (none, h)
  | fuel + 1, need, h =>
    match pmTopRun unitAt all w ig limits hand need h with
    | ((_, h1) :: _, _) => (some ((need : Int) - 1), h1)
    | ([], h1) => pmBeforeRunLoop unitAt all w ig limits hand fuel (need + 1) h1

/-- `PatternMatchWaiting.before_waiting_step` (`mahjong/container/pattern/reasoning.py:99-106`) -/
def pmBeforeRun (unitAt : TileSet → Nat) (all : Nat) (w : Pattern) (ig : Bool) (fuel : Nat) (hand : Nat) (h : Store) : Option Int × Store :=
  let (limits, h1) := borrowedLimitRun hand h
  pmBeforeRunLoop unitAt all w ig limits hand fuel 0 h1

/-- `for need_tile_count in count(0)` of `waiting_and_useful_tiles` (`mahjong/container/pattern/reasoning.py:86-93`) -/
def pmUsefulRunLoop (unitAt : TileSet → Nat) (all : Nat) (w : Pattern) (ig : Bool) (limits hand : Nat) :
    Nat → Nat → Store → Option (Int × List Tile) × Store
  | 0, _, h => (none, h)
  | fuel + 1, need, h =>
    let (ys, h1) := pmTopRun unitAt all w ig limits hand need h
    let useful := ys.foldl (fun s y => setUpdate s ((y.2.getSet y.1.2).map (fun e => e.1))) []
    if useful.length > 0 then (some ((need : Int) - 1, useful), h1)
    else pmUsefulRunLoop unitAt all w ig limits hand fuel (need + 1) h1

/-- `PatternMatchWaiting.waiting_and_useful_tiles` (`mahjong/container/pattern/reasoning.py:83-93`) -/
def pmWaitingUsefulRun (unitAt : TileSet → Nat) (all : Nat) (w : Pattern) (ig : Bool) (fuel : Nat) (hand : Nat) (h : Store) :
    Option (Int × List Tile) × Store :=
  let (limits, h1) := borrowedLimitRun hand h
  pmUsefulRunLoop unitAt all w ig limits hand fuel 0 h1

/-! ### HeuristicPatternMatchWaiting -/

/-- what the search yields: the number of tiles borrowed, the units and the tiles borrowed, both as objects
    (`mahjong/container/pattern/reasoning.py:199,223`) -/
structure HYield where
  count : Int
  units : List Nat
  borrowed : Nat

/-- the inner loop (`mahjong/container/pattern/reasoning.py:215-232`): `hand_temp` is a new object. -/
def hUnitsRun (rec : Nat → Pattern → Int → Store → List (HYield × Store) × Int × Store) (hand : Nat) (basic minUsed can : Int) :
    List (Nat × Pattern) → Int → Store → List (HYield × Store) × Int × Bool × Store
  | [], max, h => ([], max, false, h)
  | (u, w') :: rest, max, h =>
    if basic + minUsed ≤ max then
      let (temp, h1) := h.copySet hand
      let h2 := h1.putSet temp (Counter.subtract (h1.getSet temp) (h1.getSet u))
      let r := if borrowedTileCount (h2.getSet temp) - basic = can then rec temp w' max h2 else ([], max, h2)
      let r2 := hUnitsRun rec hand basic minUsed can rest r.2.1 r.2.2
      (r.1.map (fun y => (⟨y.1.count, u :: y.1.units, y.1.borrowed⟩, y.2)) ++ r2.1, r2.2.1, r2.2.2.1, r2.2.2.2)
    else ([], max, true, h)

/-- the loop over the tiles (`mahjong/container/pattern/reasoning.py:214-233`): `searching_round.remove(tile)` changes the list at
    `round`. -/
def hTilesRun (unitAt : TileSet → Nat) (rec : Nat → Pattern → Int → Store → List (HYield × Store) × Int × Store) (w : Pattern)
    (hand round : Nat) (basic minUsed can : Int) : List Tile → Int → Store → List (HYield × Store) × Int × Bool × Store
  | [], max, h => ([], max, false, h)
  | t :: rest, max, h =>
    let r := hUnitsRun rec hand basic minUsed can (nextRefs unitAt w t) max h
    if r.2.2.1 then r
    else
      let h1 := r.2.2.2.putTiles round ((r.2.2.2.getTiles round).eraseP (fun x => x.eq t))
      let r2 := hTilesRun unitAt rec w hand round basic minUsed can rest r.2.1 h1
      (r.1 ++ r2.1, r2.2.1, r2.2.2.1, r2.2.2.2)

/-- the loop over the stages (`mahjong/container/pattern/reasoning.py:207-233`): the list of this stage and the list of lists are
    copied, and the copy of the stage is put into the copy of the list of lists. -/
def hStagesRun (unitAt : TileSet → Nat) (rec : Nat → Nat → Nat → Pattern → Int → Store → List (HYield × Store) × Int × Store) (w : Pattern)
    (group hand : Nat) (basic : Int) : List Nat → Int → Store → List (HYield × Store) × Int × Store
  | [], max, h => ([], max, h)
  | can :: rest, max, h =>
    let (round, h1) := h.copyTiles ((h.getLists group).getD can 0)
    let temp := h1.length
    let h2 : Store := h1 ++ [.lists ((h1.getLists group).set can round)]
    let r := hTilesRun unitAt (rec can temp) w hand round basic ((w.needUnits : Int) * can) can (h2.getTiles round) max h2
    if r.2.2.1 then (r.1, r.2.1, r.2.2.2)
    else
      let r2 := hStagesRun unitAt rec w group hand basic rest r.2.1 r.2.2.2
      (r.1 ++ r2.1, r2.2.1, r2.2.2)

/-- `HeuristicPatternMatchWaiting._win_selections_in_tiles` (`mahjong/container/pattern/reasoning.py:187-233`); the integer is
    `self.max_used_tiles`. -/
def hSelRun (unitAt : TileSet → Nat) (ig : Bool) (limits : Nat) (pruning : Int) :
    Nat → Nat → Nat → Nat → Pattern → Int → Store → List (HYield × Store) × Int × Store
  | 0, _, _, _, _, max, h => ([], max, h)
  | fuel + 1, stage, group, hand, w, max, h =>
    if ig && !(withinLimits (h.getSet limits) (h.getSet hand)) then ([], max, h)
    else if w.hasWin then
      let borrowed := h.length
      let h1 : Store := h ++ [.set (Counter.neg (h.getSet hand))]
      let n := Counter.total (h1.getSet borrowed)
      ([(⟨n, [], borrowed⟩, h1)], n - pruning, h1)
    else
      let (hand', h1) := h.copySet hand
      hStagesRun unitAt (hSelRun unitAt ig limits pruning fuel) w group hand' (borrowedTileCount (h1.getSet hand'))
        (rangeFrom stage (w.maxUnitLength + 1)) max h1

/-- `init_search_by_hand` (`mahjong/container/pattern/reasoning.py:140-154`): a new list of new lists; the hand is only read (its copies
    in `need_to_borrow` are forgotten at once and left out here). -/
def initSearchRun (w : Pattern) (hand : Nat) (h : Store) : Nat × Store :=
  let lists := (List.range (w.maxUnitLength + 1)).map (initBorrows w (h.getSet hand))
  let h1 : Store := h ++ lists.map Obj.tiles
  (h1.length, h1 ++ [.lists ((List.range lists.length).map (fun i => h.length + i))])

/-- `HeuristicPatternMatchWaiting.before_waiting_step` (`mahjong/container/pattern/reasoning.py:131-138`): the step, `self.max_used_tiles`
    afterwards, the objects afterwards. -/
def heurBeforeRun (unitAt : TileSet → Nat) (w : Pattern) (ig : Bool) (hand : Nat) (h : Store) : Except PyErr Int × Int × Store :=
  let max0 := Counter.total (h.getSet hand)
  let (borrows, h1) := initSearchRun w hand h
  let (limits, h2) := borrowedLimitRun hand h1
  let r := hSelRun unitAt ig limits 1 (w.needUnits + 1) 0 borrows hand w max0 h2
  ((pyMin (r.1.map (fun y => y.1.count))).map (fun m => m - 1), r.2.1, r.2.2)

/-- `count_hand_borrow_combinition_iter` (`mahjong/container/pattern/reasoning.py:179-185`) -/
def heurCombosRun (unitAt : TileSet → Nat) (w : Pattern) (ig : Bool) (hand : Nat) (selfWaiting : Int) (h : Store) :
    List (HYield × Store) × Int × Store :=
  let (borrows, h1) := initSearchRun w hand h
  let (limits, h2) := borrowedLimitRun hand h1
  hSelRun unitAt ig limits 0 (w.needUnits + 1) 0 borrows hand w (selfWaiting + 1) h2

/-- `HeuristicPatternMatchWaiting.waiting_and_useful_tiles` (`mahjong/container/pattern/reasoning.py:160-165`) -/
def heurWaitingUsefulRun (unitAt : TileSet → Nat) (w : Pattern) (ig : Bool) (hand : Nat) (h : Store) :
    Except PyErr (Int × List Tile) × Store :=
  match heurBeforeRun unitAt w true hand h with
  | (.error e, _, h1) => (.error e, h1)
  | (.ok sw, _, h1) =>
    let r := heurCombosRun unitAt w ig hand sw h1
    (.ok (sw, setUpdate [] (r.1.flatMap (fun y => (y.2.getSet y.1.borrowed).map (fun e => e.1)))), r.2.2)

/-- `reduce(operator.add, sub_win, TileSet())` (`mahjong/container/pattern/reasoning.py:172`): every sum is a new object. -/
def addAllRun : List Nat → Nat → Store → Nat × Store
  | [], acc, h => (acc, h)
  | u :: rest, acc, h => let (s, h1) := h.addSets acc u; addAllRun rest s h1

/-- the loop of `batch_waiting_and_useful_tiles` (`mahjong/container/pattern/reasoning.py:171-175`) -/
def batchRun (hand : Nat) : List (HYield × Store) → List (Tile × List Tile) → Store → List (Tile × List Tile) × Store
  | [], acc, h => (acc, h)
  | y :: rest, acc, h =>
    let empty := h.length
    let (win, h1) := addAllRun y.1.units empty (h ++ [.set []])
    let (drops, h2) := h1.subSets hand win
    batchRun hand rest ((h2.getSet drops).foldl (fun acc e => dropUpdate acc e.1 ((y.2.getSet y.1.borrowed).map (fun e => e.1))) acc) h2

/-- `HeuristicPatternMatchWaiting.batch_waiting_and_useful_tiles` (`mahjong/container/pattern/reasoning.py:167-177`), read to the end -/
def heurBatchRun (unitAt : TileSet → Nat) (w : Pattern) (ig : Bool) (hand : Nat) (h : Store) :
    Except PyErr (List (Tile × Int × List Tile)) × Store :=
  match heurBeforeRun unitAt w true hand h with
  | (.error e, _, h1) => (.error e, h1)
  | (.ok sw, _, h1) =>
    let r := heurCombosRun unitAt w ig hand sw h1
    let (acc, h2) := batchRun hand r.1 [] r.2.2
    (.ok (acc.map (fun e => (e.1, sw, e.2))), h2)

end Verif.Model
