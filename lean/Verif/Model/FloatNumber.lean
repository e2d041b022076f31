import Verif.Model.PageText

/-!
`number_list` with floats (`mahjong/record/utils/value/general.py:1-5`).

`Model/Event.lean` reads the numbers of a record as exact decimals; here the entries are what Python has: integers and floats.
-/
namespace Verif.Model
open Verif.Py

/-- an entry of `number_list`: an `int` or a `float` (`mahjong/record/utils/value/general.py:2-4`) -/
inductive PyNum where
  | int (n : Int)
  | float (q : Rat)
  deriving DecidableEq, Repr

/-- its value, by which Python compares numbers (`mahjong/record/utils/value/general.py:2-4`) -/
def PyNum.value : PyNum → Rat
  | .int n => n
  | .float q => q

/-- `float(x)` where its `int` is taken: the float nearest to the number written, or what that `int` raises (`mahjong/record/utils/value/general.py:2-4`) -/
def pyFloat (s : Str) : Except PyErr Rat := do
  let n ← parseNum s
  pure n.float

/-- `int(q)` of a float: the decimals are cut off (`mahjong/record/utils/value/general.py:2-3`) -/
def truncate (q : Rat) : Int := q.num.tdiv q.den

/-- `int(float(x)) if int(float(x)) == float(x) else float(x)` (`mahjong/record/utils/value/general.py:2-4`) -/
def numberEntry (s : Str) : Except PyErr PyNum := do
  let q ← pyFloat s
  if (truncate q : Rat) = q then pure (.int (truncate q)) else pure (.float q)

/-- `number_list` (`mahjong/record/utils/value/general.py:1-5`) -/
def pyNumberList (s : Str) : Except PyErr (List PyNum) := (splitOn ',' s).mapM numberEntry

/-- `x * 100` for an entry of `number_list` (`mahjong/record/reader.py:182-186`,
    `mahjong/record/universe/tenhou/event_definition.py:284-294`) -/
def PyNum.times100 : PyNum → PyNum
  | .int n => .int (n * 100)
  | .float q => .float (roundDouble (q * 100))

end Verif.Model
