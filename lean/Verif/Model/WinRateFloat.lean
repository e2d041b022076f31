import Verif.Model.WinRate
import Verif.Py.Float

/-!
The win-rate experiment in the floats of Python and numpy (`mahjong/win_rate_demo.py:36-78`): as `Model/WinRate.lean`, with the result
of every division, addition, subtraction and multiplication rounded to the nearest double.  The counts of wins are whole numbers.
Not modelled: what numpy computes from the matrix (lines 81-89).
-/
namespace Verif.Model
open Verif.Py

/-- `counter[k] += x` for a float `x` (`mahjong/win_rate_demo.py:51,55`). -/
def bumpF (f : Kind → Rat) (k : Kind) (x : Rat) : Kind → Rat :=
  fun j => if j = k then roundDouble (f j + x) else f j

/-- `for tile in possible_win_set: counter[tile] += 1 / len(possible_win_set)` (`mahjong/win_rate_demo.py:50-51,54-55`). -/
def shareLoopF (set : List Kind) (f : Kind → Rat) : Kind → Rat :=
  set.foldl (fun f k => bumpF f k (roundDouble (1 / (set.length : Rat)))) f

/-- one experiment (`mahjong/win_rate_demo.py:37-55`) whose sample consists of the given tiles. -/
def winTrialF (hand : TileSet) (st : WinStats) (tiles : List Tile) : WinStats :=
  let discards := possibleDiscard hand
  let (win, total, set) := discardLoop (Counter.ofIter tiles) discards (st.win, st.total, [])
  let avg := shareLoopF set st.avg
  let noWin := (discards.map (fun d => d.1.view)).filter (fun k => decide (k ∉ set))
  let cond := noWin.foldl (fun (c : Kind → Kind → Rat) n => fun a => if a = n then shareLoopF set (c a) else c a) st.cond
  ⟨win, total, avg, cond⟩

/-- the experiments one after the other (`mahjong/win_rate_demo.py:36-55`). -/
def winTrialsF (hand : TileSet) (samples : List (List Tile)) : WinStats :=
  samples.foldl (winTrialF hand) .start

/-- a column of `condition_matrix` before the normalisation (`mahjong/win_rate_demo.py:67-76`). -/
def rawEntryF (st : WinStats) (tries : Int) (row col : Kind) : Rat :=
  if 0 < st.cond col row ∧ 0 < st.win row then st.cond col row else roundDouble (1 / (tries : Rat))

/-- `sum(condition_matrix[:, condition_index])` (`mahjong/win_rate_demo.py:77`): the built-in function adds from the left. -/
def columnSumF (st : WinStats) (tries : Int) (kinds : List Kind) (col : Kind) : Rat :=
  kinds.foldl (fun s r => roundDouble (s + rawEntryF st tries r col)) 0

/-- `self_transfer_rate` (`mahjong/win_rate_demo.py:70`). -/
def selfRateF (st : WinStats) (col : Kind) : Rat := roundDouble (st.avg col / (st.total : Rat))

/-- one column of `condition_matrix` (`mahjong/win_rate_demo.py:69-78`). -/
def matrixEntryF (st : WinStats) (tries : Int) (kinds : List Kind) (row col : Kind) : Rat :=
  if row = col then selfRateF st col
  else roundDouble (rawEntryF st tries row col * roundDouble (roundDouble (1 - selfRateF st col) / columnSumF st tries kinds col))

/-- `condition_matrix` (`mahjong/win_rate_demo.py:67-78`). -/
def conditionMatrixF (st : WinStats) (tries : Int) (kinds : List Kind) : Except PyErr (List (List Rat)) :=
  if tries = 0 then .error .zeroDivision
  else if kinds ≠ [] ∧ st.total = 0 then .error .zeroDivision
  else .ok (kinds.map (fun row => kinds.map (fun col => matrixEntryF st tries kinds row col)))

end Verif.Model
