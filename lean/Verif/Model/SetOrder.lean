import Verif.Py.Base
import Verif.Model.Distinct

/-!
The comparison operators of `TileSet` (`mahjong/container/set.py:9-10,53-54`).

The class is decorated with `functools.total_ordering`, but inherits from `Counter` and so from `dict`, which has all four of
`__lt__`, `__le__`, `__gt__` and `__ge__` (they answer `NotImplemented`).  `total_ordering` only adds operators that the class
does not have, so it adds none.  This is so up to Python 3.9; since 3.10 `Counter` has its own `<=`, `>` and `>=`.
-/
namespace Verif.Model
open Verif.Py

/-- `c > d` (`mahjong/container/set.py:9-10,53-54`): `dict.__gt__` answers `NotImplemented`, so Python asks `d < c`. -/
def TileSet.gt (c d : TileSet) : Except PyErr Bool := .ok (TileSet.lt d c)

/-- `c <= d` (`mahjong/container/set.py:9-10`): both `dict.__le__` and the reflected `dict.__ge__` answer `NotImplemented`. -/
def TileSet.le (_c _d : TileSet) : Except PyErr Bool := .error .typeError

/-- `c >= d` (`mahjong/container/set.py:9-10`): both `dict.__ge__` and the reflected `dict.__le__` answer `NotImplemented`. -/
def TileSet.ge (_c _d : TileSet) : Except PyErr Bool := .error .typeError

/-- `sorted(sets)` (`mahjong/container/pattern/win.py:68`, `units.sort()` in `mahjong/container/pattern/reasoning.py:143`). -/
def sortSets (l : List TileSet) : List TileSet := pySorted TileSet.lt l

end Verif.Model
