import Verif.Model.Win
import Verif.Model.Wall
import Verif.Py.Base
import Mathlib.Algebra.Order.Field.Rat

/-!
The win-rate experiment (`mahjong/win_rate_demo.py`).

Modelled: everything computed from the entered hand, the number of draws, the number of experiments and
the random numbers up to the matrix of transfer rates and the rough pick rates (lines 20-84).
Not modelled: the eigenvector of the matrix (numpy). The prompts and the report are in `Model/Demo.lean`.
The floats `1 / len(possible_win_set)`, their sums and quotients are exact rationals here; `Model/WinRateFloat.lean` rounds them.
A `Counter` that is only read by key and incremented is the function of its values (a missing key is 0);
keys are compared by `==`, i.e. by kind.
-/
namespace Verif.Model
open Verif.Py

/-- `counter[k] += x` (`mahjong/win_rate_demo.py:45-55`). -/
def bump {α : Type} [Add α] (f : Kind → α) (k : Kind) (x : α) : Kind → α :=
  fun j => if j = k then f j + x else f j

/-- `win_counter`, `total_win_count`, `avg_win_counter`, `condition_win_counter`
    (`mahjong/win_rate_demo.py:24-32`). -/
structure WinStats where
  win : Kind → Int
  total : Int
  avg : Kind → Rat
  cond : Kind → Kind → Rat

/-- the counters before the first experiment (`mahjong/win_rate_demo.py:24-32`). -/
def WinStats.start : WinStats := ⟨fun _ => 0, 0, fun _ => 0, fun _ _ => 0⟩

/-- `possible_discard` (`mahjong/win_rate_demo.py:22`). -/
def possibleDiscard (hand : TileSet) : List (Tile × TileSet) :=
  hand.map (fun e => (e.1, TileSet.sub hand (Counter.ofIter [e.1])))

/-- `win_patterns` (`mahjong/win_rate_demo.py:28-30`) with the default arguments
    (`mahjong/container/pattern/win.py:98,131`). -/
def winPatterns : List Pattern := [.normal 1 4, .unique 7 []]

/-- `for win_pattern in win_patterns: if win_pattern.match(total_hand): ... break`
    (`mahjong/win_rate_demo.py:43-48`): whether the body runs (at most once).  `match` re-sorts the hand in
    place. -/
def anyPattern : List Pattern → TileSet → Bool
  | [], _ => false
  | w :: ws, hand => if winMatch w hand then true else anyPattern ws (reSort hand)

/-- the loop over the possible discards (`mahjong/win_rate_demo.py:41-48`): `win_counter`,
    `total_win_count` and `possible_win_set`. -/
def discardLoop (sample : TileSet) :
    List (Tile × TileSet) → (Kind → Int) × Int × List Kind → (Kind → Int) × Int × List Kind
  | [], acc => acc
  | (tile, hand) :: rest, (win, total, set) =>
    if anyPattern winPatterns (TileSet.add hand sample) then
      discardLoop sample rest
        (bump win tile.view 1, total + 1, if tile.view ∈ set then set else set ++ [tile.view])
    else discardLoop sample rest (win, total, set)

/-- `for tile in possible_win_set: counter[tile] += 1 / len(possible_win_set)`
    (`mahjong/win_rate_demo.py:50-51,54-55`). -/
def shareLoop (set : List Kind) (f : Kind → Rat) : Kind → Rat :=
  set.foldl (fun f k => bump f k (1 / (set.length : Rat))) f

/-- one experiment (`mahjong/win_rate_demo.py:37-55`) whose sample consists of the given tiles. -/
def winTrial (hand : TileSet) (st : WinStats) (tiles : List Tile) : WinStats :=
  let discards := possibleDiscard hand
  let (win, total, set) := discardLoop (Counter.ofIter tiles) discards (st.win, st.total, [])
  let avg := shareLoop set st.avg
  let noWin := (discards.map (fun d => d.1.view)).filter (fun k => decide (k ∉ set))
  let cond := noWin.foldl (fun (c : Kind → Kind → Rat) n => fun a => if a = n then shareLoop set (c a) else c a) st.cond
  ⟨win, total, avg, cond⟩

/-- the experiments one after the other (`mahjong/win_rate_demo.py:36-55`). -/
def winTrials (hand : TileSet) (samples : List (List Tile)) : WinStats :=
  samples.foldl (winTrial hand) .start

/-- `remain_tiles` (`mahjong/win_rate_demo.py:20`): four of every kind without the hand. -/
def remainTiles (hand : TileSet) : TileSet :=
  TileSet.sub (Counter.ofIter (ALL_TILES ++ ALL_TILES ++ ALL_TILES ++ ALL_TILES)) hand

/-- the samples of all experiments (`mahjong/win_rate_demo.py:21,36-37`): every experiment draws from the
    same full wall; one list of random numbers per experiment. -/
def drawSamples (hand : TileSet) : List (List Nat) → Option (List (List Tile))
  | [] => some []
  | rs :: rest =>
    match wallSample (remainTiles hand) rs with
    | none => none
    | some (ts, _) => (drawSamples hand rest).map (fun l => ts :: l)

/-- the statistics of a run (`mahjong/win_rate_demo.py:20-55`). -/
def winRateRun (hand : TileSet) (rss : List (List Nat)) : Option WinStats :=
  (drawSamples hand rss).map (winTrials hand)

/-- a column of `condition_matrix` before the normalisation (`mahjong/win_rate_demo.py:67-76`). -/
def rawEntry (st : WinStats) (tries : Int) (row col : Kind) : Rat :=
  if 0 < st.cond col row ∧ 0 < st.win row then st.cond col row else 1 / (tries : Rat)

/-- one column of `condition_matrix` (`mahjong/win_rate_demo.py:69-78`). -/
def matrixEntry (st : WinStats) (tries : Int) (kinds : List Kind) (row col : Kind) : Rat :=
  let selfRate := st.avg col / (st.total : Rat)
  if row = col then selfRate
  else rawEntry st tries row col * ((1 - selfRate) / (kinds.map (fun r => rawEntry st tries r col)).sum)

/-- `condition_matrix` (`mahjong/win_rate_demo.py:67-78`): the division by `try_count`, then for every column
    the division by `total_win_count`; rows and columns in the order of `kinds`. -/
def conditionMatrix (st : WinStats) (tries : Int) (kinds : List Kind) : Except PyErr (List (List Rat)) :=
  if tries = 0 then .error .zeroDivision
  else if kinds ≠ [] ∧ st.total = 0 then .error .zeroDivision
  else .ok (kinds.map (fun row => kinds.map (fun col => matrixEntry st tries kinds row col)))

/-- `rough_pick` (`mahjong/win_rate_demo.py:82-84`): the matrix times the uniform distribution. -/
def roughPick (matrix : List (List Rat)) : List Rat :=
  matrix.map (fun row => (row.map (fun x => x * (1 / (row.length : Rat)))).sum)

end Verif.Model
