import Verif.Conform.Algo

/-! What `/repo/tests/algo/test_pattern_waiting.py` expects.  The third hand, the useful tiles of the second, and those
of `/repo/tests/algo/test_waiting.py:29-32` are left out: the kernel needs between 4 and 12 GB for the first two, and ran out of memory on the
last. -/
namespace Verif.Conform
open Verif.Py Verif.Model
set_option maxRecDepth 100000

/-- `tests/algo/test_pattern_waiting.py:9,15,27-31` -/
theorem pattern_waiting_step_0 :
    pmBefore normalWin true 5 (handOf "11266677788992m") = some 0 := by decide +kernel

/-- `tests/algo/test_pattern_waiting.py:10,16,27-31` -/
theorem pattern_waiting_step_1 :
    pmBefore normalWin true 5 (handOf "11246667778992m") = some 1 := by decide +kernel

/-- `tests/algo/test_pattern_waiting.py:9,21,34-37` -/
theorem pattern_useful_tiles_0 :
    (pmWaitingUseful normalWin true 5 (handOf "11266677788992m")).any (fun r => areTiles r.2 "12m") = true := by decide +kernel

end Verif.Conform
