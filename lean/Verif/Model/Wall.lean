import Verif.Py.Base
import Verif.Model.Tile
import Verif.Py.Float

/-!
`mahjong/container/distribution.py`: sampling tiles from a wall.

The random source is a parameter: `random.random()` of CPython is `r / 2 ^ 53` for a natural number `r` below `2 ^ 53`;
a call is given by `r`.  `random.choices(population, weights)` is modelled as in CPython: cumulative weights and
`bisect(cum, random() * (total + 0.0), 0, n - 1)`, the product being a float; since the cumulative weights are integers only
its floor matters.  This is the function of Python 3.7 (`Pipfile:24`), which does not refuse weights that are all zero.
-/
namespace Verif.Model
open Verif.Py

/-- `weights` (`mahjong/container/distribution.py:16-17`) of a `StaticWall` (`:40-41`). -/
def wallWeights (wall : TileSet) : List Int := ALL_TILES.map (fun t => Counter.get wall t.view)

/-- `itertools.accumulate(weights)` (`random.choices` in `mahjong/container/distribution.py:30`). -/
def cumWeights (s : Int) : List Int → List Int
  | [] => []
  | w :: ws => (s + w) :: cumWeights (s + w) ws

/-- `random.random() * (total + 0.0)` for the random number `r / 2 ^ 53`
    (`random.choices` in `mahjong/container/distribution.py:30`) -/
def randomPoint (total : Int) (r : Nat) : Rat := roundDouble ((r : Rat) / ((2 ^ 53 : Nat) : Rat) * roundDouble total)

/-- `random.choices(ALL_TILES, weights)[0]` for the random number `r / 2 ^ 53`
    (`mahjong/container/distribution.py:30`). -/
def chooseTile (weights : List Int) (r : Nat) : Option Tile :=
  let cum := cumWeights 0 weights
  let total := weights.sum
  ALL_TILES[bisectRightLoop cum (randomPoint total r).floor 0 (ALL_TILES.length - 1)]?

/-- `StaticWall.pick` (`mahjong/container/distribution.py:43-44`). -/
def wallPick (wall : TileSet) (t : Tile) : TileSet := TileSet.sub wall (Counter.ofIter [t])

/-- `sample(count)` (`mahjong/container/distribution.py:27-33`): the tiles yielded and the wall left;
    `count` is the number of random numbers given. -/
def wallSample (wall : TileSet) : List Nat → Option (List Tile × TileSet)
  | [] => some ([], wall)
  | r :: rs =>
    match chooseTile (wallWeights wall) r with
    | none => none
    | some t => (wallSample (wallPick wall t) rs).map (fun p => (t :: p.1, p.2))

end Verif.Model
