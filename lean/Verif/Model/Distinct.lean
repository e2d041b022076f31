import Verif.Py.Order
import Verif.Model.Win

/-!
`mahjong/container/utils.py:25-31` (`distinct`) and `unique_win_selections`
(`mahjong/container/pattern/win.py:67-68`).
-/
namespace Verif.Model
open Verif.Py

/-- `unique[index] != item`, for an index in range (`mahjong/container/utils.py:25-31`, `distinct`). -/
def notEqAt {α : Type} (eq : α → α → Bool) (y : Option α) (x : α) : Bool :=
  match y with
  | some y => !(eq y x)
  | none => true

/-- One iteration of `distinct` (`mahjong/container/utils.py:27-31`) on the pair
    (items yielded so far, `unique`). -/
def distinctStep {α : Type} (eq lt : α → α → Bool) (st : List α × List α) (item : α) :
    List α × List α :=
  let index := bisectLeft lt st.2 item
  if index ≥ st.2.length ∨ notEqAt eq st.2[index]? item = true then
    (st.1 ++ [item], st.2.take index ++ item :: st.2.drop index)
  else st

/-- `distinct` (`mahjong/container/utils.py:25-31`): the list of everything yielded. -/
def distinct {α : Type} (eq lt : α → α → Bool) (items : List α) : List α :=
  (items.foldl (distinctStep eq lt) ([], [])).1

/-- `unique_win_selections` (`mahjong/container/pattern/win.py:67-68`). -/
def uniqueWinSelections (w : Pattern) (hand : TileSet) : List Selection :=
  distinct (listEq TileSet.eq) (listLt TileSet.eq TileSet.lt)
    ((winSelections w hand).map (fun sel => pySorted TileSet.lt sel))

end Verif.Model
