import Verif.Conform.Check

/-! The record `/repo/tests/2009060321gm-00b9-0000-75b25bcf.xml`, written by `tools/records.py`. -/
namespace Verif.Conform
open Verif.Py Verif.Model

/-- the text of the file -/
def textA : String :=
  "<mjloggm ver=\"2.3\"><GO type=\"185\"/><UN n0=\"%E3%83%88%E3%83%90%E3%82%BE\" n1=\"%E4%B8%80%E6%AD%A9\" n2=\"%E7%A5%9E%E9%80%9F%E2%98%85%2E%63%6F%6D\" n3=\"\" dan=\"16,16,16,0\" rate=\"2030,2160,2108,1500\" sx=\"M,M,M,C\"/><TAIKYOKU oya=\"0\"/><INIT seed=\"0,0,0,1,3,118\" ten=\"350,350,350,0\" oya=\"0\" hai0=\"3,84,135,86,98,67,123,91,75,133,48,134,65\" hai1=\"69,41,1,43,37,89,54,109,44,38,52,72,94\" hai2=\"101,119,47,128,92,2,49,125,35,111,76,59,81\" hai3=\"\" shuffle=\"mt19937ar,5EE931AE,6705E689,792A825C,D96AAEBB,D335223E,025A7B84,9697551A,0A449EA2\"/><T88/><N who=\"0\" m=\"31520\" /><T85/><D3/><U124/><E1/><V95/><F119/><T73/><D48/><U71/><E109/><V0/><F111/><T103/><D65/><U117/><E117/><V114/><F35/><T121/><N who=\"0\" m=\"31008\" /><T58/><D58/><U79/><E79/><V40/><F114/><T90/><D67/><U50/><E72/><V61/><F125/><T33/><D33/><U74/><E74/><V99/><F128/><T51/><D51/><U105/><E105/><AGARI ba=\"0,0\" hai=\"73,75,84,85,86,88,90,91,98,103,105,133,134,135\" m=\"31008,31520\" machi=\"105\" ten=\"50,36000,4\" yaku=\"29,2,20,1,34,3,52,4,54,1\" doraHai=\"118\" who=\"0\" fromWho=\"1\" sc=\"350,360,350,-360,350,0,0,0\" owari=\"710,66,-10,-61,350,-5,0,0\" /></mjloggm>"

set_option maxRecDepth 100000 in
theorem textA_checked : checked textA.toList = true := by
  unfold textA
  refine on_letters checked ?_
  decide +kernel

set_option maxRecDepth 100000 in
/-- `tests/uni_record/test_event_definition.py:28-33` and `tests/uni_record/test_executor.py:9-12`: the record is converted and
    replayed in strict mode -/
theorem textA_strict : convertedStrictly textA.toList = true := by
  unfold textA
  refine on_letters convertedStrictly ?_
  decide +kernel

set_option maxRecDepth 100000 in
/-- `tests/paifu/test_paifu.py` and `tests/paifu/test_fromFile.py`: one game, the rows of its events, of the record, and of the
    first deal -/
theorem textA_rows : rowCounts textA.toList = some ([50], 53, some 5) := by
  unfold textA
  refine on_letters rowCounts ?_
  decide +kernel

end Verif.Conform
