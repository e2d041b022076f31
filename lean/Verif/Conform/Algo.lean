import Verif.Model.Reasoning
import Verif.Model.Notation
import Verif.Model.Distinct

/-! What `/repo/tests/algo` expects of the code, computed on the model. -/
namespace Verif.Conform
open Verif.Py Verif.Model
set_option maxRecDepth 100000

/-- `tile_set_from_string` -/
def handOf (s : String) : TileSet := tileSetFromString s.toList

/-- `TileSet(tiles) == tile_set_from_string(s)` -/
def areTiles (tiles : List Tile) (s : String) : Bool := TileSet.eq (reSort (Counter.ofIter tiles)) (handOf s)

/-- `NormalTypeWin()` and `UniquePairs()` -/
def normalWin : Pattern := .normal 1 4
def sevenPairs : Pattern := .unique 7 []

/-- `tests/algo/test_heuristic_pattern_waiting.py:10-21,36-47,63-67` -/
theorem heuristic_waiting_step : ∀ x ∈ [("11266677788992m", 0),
   ("11246667778992m", 1),
   ("4677m2357p668s6z6s", 2),
   ("477m2357p668s46z6m", 3),
   ("79m899p24668s256z", 4),
   ("79m899p246689s56z", 3),
   ("1115555s456m111z", 1),
   ("4677m2307p668s6z6s", 2),
   ("477m2307p668s46z6m", 3),
   ("1110555s406m111z", 1)],
    (heurBefore 0 normalWin true (handOf x.1)).1 = .ok x.2 := by decide +kernel

/-- `tests/algo/test_heuristic_pattern_waiting.py:10-34,70-73` -/
theorem heuristic_seven_pair_waiting_step : ∀ x ∈ [("11266677788992m", 1),
   ("11246667778992m", 1),
   ("4677m2357p668s6z6s", 4),
   ("477m2357p668s46z6m", 4),
   ("79m899p24668s256z", 4),
   ("79m899p246689s56z", 4),
   ("1115555s456m111z", 4),
   ("4677m2307p668s6z6s", 4),
   ("477m2307p668s46z6m", 4),
   ("1110555s406m111z", 4)],
    (heurBefore 0 sevenPairs true (handOf x.1)).1 = .ok x.2 := by decide +kernel

/-- `tests/algo/test_heuristic_pattern_waiting.py:84-98`: what to discard and the useful tiles after it -/
def batchExpected : List (String × String) :=
  [("5m", "7m8m9m4p5p6p7p3s4s5s7s8s9s1z5z"), ("1z", "5m7m8m9m4p5p6p7p3s4s5s7s8s9s5z"), ("5z", "5m7m8m9m4p5p6p7p3s4s5s7s8s9s1z"),
   ("8m", "5m9m4p7p4s7s1z5z"), ("9m", "5m8m4p7p4s7s1z5z"), ("3s", "5m7m4p7p5s7s1z5z"), ("5s", "5m7m4p7p3s7s1z5z"),
   ("8s", "5m7m4p7p4s9s1z5z"), ("9s", "5m7m4p7p4s8s1z5z"), ("5p", "5m7m6p4s7s1z5z"), ("6p", "5m7m5p4s7s1z5z"), ("1p", "7m4p7p4s7s")]

/-- `tests/algo/test_heuristic_pattern_waiting.py:114-118`; the test alone would accept an empty answer, so the number of discards is required too -/
theorem batch_convert : (heurBatch 0 normalWin true (handOf "589m1156p3089s15z1p")).toOption.any (fun l => l.length == 12 && l.all (fun r =>
    batchExpected.any (fun e => (tilesFromString e.1.toList).any (Tile.eq r.1) && areTiles r.2.2 e.2))) = true := by decide +kernel

/-- `tests/algo/test_waiting.py:8-16,23-26` -/
theorem brute_waiting_step : ∀ x ∈ [("11246667778992m", 1), ("112466677788992m", 0)],
    bruteBefore normalWin true 4 (handOf x.1) = some x.2 := by decide +kernel

/-- `sorted(a) == sorted(b)`: the same sets, each as often -/
def sameSets (a b : List TileSet) : Bool :=
  a.length == b.length && a.all (fun x => a.countP (TileSet.eq x) == b.countP (TileSet.eq x))

/-- `tests/algo/test_win_pattern.py:15-31` -/
theorem win_selections : ∀ s ∈ ["111123456s55567p", "11s555p1123456s67p", "654321111s76555p"],
    (winSelections normalWin (handOf s)).head?.any (fun l => sameSets l (["111s", "123s", "456s", "55p", "567p"].map handOf)) = true := by
  decide +kernel

/-- `tests/algo/test_win_pattern.py:33-37`; `a > b` is `b < a`, as neither `dict` nor `Counter` answers `>` -/
theorem compare_tile_set : let a := handOf "567p"; let b := handOf "55p"; (a.lt b != b.lt a) = true := by decide +kernel

/-- `tests/algo/test_win_pattern.py:39-47` -/
theorem unique_win_selections : (uniqueWinSelections normalWin (handOf "111123456s55567p")).length = 1 ∧
    (uniqueWinSelections normalWin (handOf "111123456s55567p8p")).length = 3 := by decide +kernel

/-- `tests/algo/test_win_pattern.py:50-63` -/
theorem tenhou_reasoning : (uniqueWinSelections normalWin (handOf "1112246667778899m")).length = 1 ∧
    (uniqueWinSelections normalWin (handOf "1112246667778899m")).all (fun l =>
      sameSets l (["111m", "22m", "666m", "789m", "789m"].map handOf)) = true := by decide +kernel

end Verif.Conform
