import Verif.Conform.Algo

/-! The useful tiles `/repo/tests/algo/test_heuristic_pattern_waiting.py` expects, one theorem for a hand.  The hand of
line 15 is left out: the kernel needs 3 GB for it. -/
namespace Verif.Conform
open Verif.Py Verif.Model
set_option maxRecDepth 100000

/-- `tests/algo/test_heuristic_pattern_waiting.py:11,50,76-79` -/
theorem heuristic_useful_tiles_0 :
    (heurWaitingUseful 0 normalWin true (handOf "11266677788992m")).toOption.any (fun r => areTiles r.2
      "12m") = true := by decide +kernel

/-- `tests/algo/test_heuristic_pattern_waiting.py:12,51,76-79` -/
theorem heuristic_useful_tiles_1 :
    (heurWaitingUseful 0 normalWin true (handOf "11246667778992m")).toOption.any (fun r => areTiles r.2
      "123789m") = true := by decide +kernel

/-- `tests/algo/test_heuristic_pattern_waiting.py:13,52,76-79` -/
theorem heuristic_useful_tiles_2 :
    (heurWaitingUseful 0 normalWin true (handOf "4677m2357p668s6z6s")).toOption.any (fun r => areTiles r.2
      "5m1p4p6p") = true := by decide +kernel

/-- `tests/algo/test_heuristic_pattern_waiting.py:14,53,76-79` -/
theorem heuristic_useful_tiles_3 :
    (heurWaitingUseful 0 normalWin true (handOf "477m2357p668s46z6m")).toOption.any (fun r => areTiles r.2
      "5m7m1p4p6p6s7s") = true := by decide +kernel

/-- `tests/algo/test_heuristic_pattern_waiting.py:16,55,76-79` -/
theorem heuristic_useful_tiles_5 :
    (heurWaitingUseful 0 normalWin true (handOf "79m899p246689s56z")).toOption.any (fun r => areTiles r.2
      "8m7p9p3s6s7s") = true := by decide +kernel

/-- `tests/algo/test_heuristic_pattern_waiting.py:17,56,76-79` -/
theorem heuristic_useful_tiles_6 :
    (heurWaitingUseful 0 normalWin true (handOf "1115555s456m111z")).toOption.any (fun r => areTiles r.2
      "1m2m3m4m5m6m7m8m9m1p2p3p4p5p6p7p8p9p2s3s4s6s7s8s9s2z3z4z5z6z7z") = true := by decide +kernel

/-- `tests/algo/test_heuristic_pattern_waiting.py:18,57,76-79` -/
theorem heuristic_useful_tiles_7 :
    (heurWaitingUseful 0 normalWin true (handOf "4677m2307p668s6z6s")).toOption.any (fun r => areTiles r.2
      "5m1p4p6p") = true := by decide +kernel

/-- `tests/algo/test_heuristic_pattern_waiting.py:19,58,76-79` -/
theorem heuristic_useful_tiles_8 :
    (heurWaitingUseful 0 normalWin true (handOf "477m2307p668s46z6m")).toOption.any (fun r => areTiles r.2
      "5m7m1p4p6p6s7s") = true := by decide +kernel

/-- `tests/algo/test_heuristic_pattern_waiting.py:20,59,76-79` -/
theorem heuristic_useful_tiles_9 :
    (heurWaitingUseful 0 normalWin true (handOf "1110555s406m111z")).toOption.any (fun r => areTiles r.2
      "1m2m3m4m5m6m7m8m9m1p2p3p4p5p6p7p8p9p2s3s4s6s7s8s9s2z3z4z5z6z7z") = true := by decide +kernel

end Verif.Conform
