#!/usr/bin/env python3
"""Writes lean/Verif/Conform/Record*.lean: the six records in /repo/tests as texts, and what the kernel computes about them."""
import glob, os
root = os.path.dirname(os.path.dirname(os.path.abspath(__file__)))
quote = lambda s: '"' + s.replace("\\", "\\\\").replace('"', '\\"') + '"'
# events, rows of the game, rows of the record, rows of the first deal: what tests/paifu/test_paifu.py expects
PAIFU = {"2009060321gm-00b9-0000-75b25bcf": (50, 53, 5), "2009100718gm-00e1-0000-470654d3": (71, 75, 6)}
for i, f in enumerate(sorted(glob.glob("/repo/tests/*.xml"))):
    name = os.path.basename(f)[:-4]
    text = open(f, encoding="utf-8").read()
    letter = "ABCDEF"[i]
    out = f'''import Verif.Conform.Check

/-! The record `/repo/tests/{name}.xml`, written by `tools/records.py`. -/
namespace Verif.Conform
open Verif.Py Verif.Model

/-- the text of the file -/
def text{letter} : String :=
  {quote(text)}

set_option maxRecDepth 100000 in
theorem text{letter}_checked : checked text{letter}.toList = true := by
  unfold text{letter}
  refine on_letters checked ?_
  decide +kernel
'''
    out += f'''
set_option maxRecDepth 100000 in
/-- `tests/uni_record/test_event_definition.py:28-33` and `tests/uni_record/test_executor.py:9-12`: the record is converted and
    replayed in strict mode -/
theorem text{letter}_strict : convertedStrictly text{letter}.toList = true := by
  unfold text{letter}
  refine on_letters convertedStrictly ?_
  decide +kernel
'''
    if name in PAIFU:
        game, whole, deal = PAIFU[name]
        out += f'''
set_option maxRecDepth 100000 in
/-- `tests/paifu/test_paifu.py` and `tests/paifu/test_fromFile.py`: one game, the rows of its events, of the record, and of the
    first deal -/
theorem text{letter}_rows : rowCounts text{letter}.toList = some ([{game}], {whole}, some {deal}) := by
  unfold text{letter}
  refine on_letters rowCounts ?_
  decide +kernel
'''
    out += "\nend Verif.Conform\n"
    open(os.path.join(root, "lean/Verif/Conform", f"Record{letter}.lean"), "w").write(out)
