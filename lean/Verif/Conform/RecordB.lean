import Verif.Conform.Check

/-! The record `/repo/tests/2009100718gm-00e1-0000-470654d3.xml`, written by `tools/records.py`. -/
namespace Verif.Conform
open Verif.Py Verif.Model

/-- the text of the file -/
def textB : String :=
  "<mjloggm ver=\"2.3\"><SHUFFLE seed=\"mt19937ar-sha512-n288,B43A38E8,A063890A,54C66B00,CE8F5EEE,8B53C544,535BF30B,5D7F5B49,6EFC2EB6,B13C899D,E706F43F,5C6B2A4C,ED12BEBE,80C71AEC,01E9BEA3,FCB9623A,B7EDCDEF,7892CD36,7FCC6BA1,2E9B16FA,9CE2814B,E2A6C5AE,CAC8F5E8,14DC4996,EE7E0293,6B1F0729,4D8C981B,F66AC473,6671362C,A414DDC1,44B91E56,E97424C7,B8E93A6F\" ref=\"\"/><GO type=\"225\"/><UN n0=\"%E2%99%AA%E3%83%A2%E3%83%8E%E3%82%AF%E3%83%AD\" n1=\"%E3%83%9A%E3%83%A4%E3%83%B3%E3%82%B0%E6%9C%80%E9%AB%98\" n2=\"%E3%81%B9%E3%81%A3%E3%81%93%E3%83%BC%E2%99%AA\" n3=\"%E9%87%98%E5%AE%AE%E7%97%85%E6%82%A3%E8%80%85\" dan=\"18,16,17,17\" rate=\"2176,2074,2108,2150\" sx=\"M,M,M,M\"/><TAIKYOKU oya=\"0\"/><INIT seed=\"0,0,0,2,4,55\" ten=\"250,250,250,250\" oya=\"0\" hai0=\"118,27,97,32,111,121,99,25,124,26,67,70,12\" hai1=\"33,119,37,59,72,123,134,2,94,69,107,128,6\" hai2=\"64,104,10,130,90,103,112,45,24,92,34,5,62\" hai3=\"29,88,79,91,52,44,105,106,98,13,131,50,35\"/><T22/><D118/><U30/><E94/><V86/><F112/><W31/><G131/><T36/><D121/><U8/><E30/><N who=\"3\" m=\"11274\" /><G35/><T75/><D32/><U3/><E8/><V77/><F34/><W14/><G105/><T1/><D1/><U9/><E6/><V113/><F113/><W43/><G106/><T76/><D36/><U115/><E9/><V93/><F24/><W49/><G79/><T57/><D70/><U18/><E18/><V85/><F45/><N who=\"3\" m=\"25791\" /><G98/><T100/><D124/><U56/><E59/><V117/><F117/><W81/><G81/><T47/><D47/><U125/><E56/><V28/><F130/><W21/><G21/><T95/><D111/><AGARI ba=\"0,0\" hai=\"2,3,33,37,69,72,107,111,115,119,123,125,128,134\" machi=\"111\" ten=\"0,32000,5\" yakuman=\"47\" doraHai=\"55\" who=\"1\" fromWho=\"0\" sc=\"250,-320,250,320,250,0,250,0\" owari=\"-70,-57,570,67,250,5,250,-15\" /></mjloggm>"

set_option maxRecDepth 100000 in
theorem textB_checked : checked textB.toList = true := by
  unfold textB
  refine on_letters checked ?_
  decide +kernel

set_option maxRecDepth 100000 in
/-- `tests/uni_record/test_event_definition.py:28-33` and `tests/uni_record/test_executor.py:9-12`: the record is converted and
    replayed in strict mode -/
theorem textB_strict : convertedStrictly textB.toList = true := by
  unfold textB
  refine on_letters convertedStrictly ?_
  decide +kernel

set_option maxRecDepth 100000 in
/-- `tests/paifu/test_paifu.py` and `tests/paifu/test_fromFile.py`: one game, the rows of its events, of the record, and of the
    first deal -/
theorem textB_rows : rowCounts textB.toList = some ([71], 75, some 6) := by
  unfold textB
  refine on_letters rowCounts ?_
  decide +kernel

end Verif.Conform
