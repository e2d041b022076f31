import Verif.Model.Paifu
import Verif.Model.Notation

/-!
The description of an event (`TenhouEvent.base_str`, `mahjong/record/utils/event.py:114-150`) and of a meld
(`Meld.__str__`, `mahjong/record/utils/value/meld.py:96-105`).  `iter l` is the order in which Python goes through the
set with the elements `l`.
-/
namespace Verif.Model
open Verif.Py

/-- `type(self).__name__` of a meld (`mahjong/record/utils/value/meld.py:141,175,211,241,278,303`). -/
def MeldClass.name : MeldClass → String
  | .flush => "Flush"
  | .triplet => "Triplet"
  | .addedKan => "TenhouAddedKan"
  | .kita => "Kita"
  | .kan => "TenhouKan"
  | .kanFromTriplet => "KanFromTriplet"

/-- `str(tile_set_from_tenhou(tenhou_ints))` (`mahjong/record/utils/value/meld.py:70-71`). -/
def numbersText (l : List Int) : Except PyErr Str := do
  let ts ← l.mapM tileFromTenhou
  pure (TileSet.str (Counter.ofIter ts))

/-- `Meld.__str__` (`mahjong/record/utils/value/meld.py:99-105`). -/
def Meld.text (iter : List Int → List Int) (x : Meld) : Except PyErr Str := do
  let own ← numbersText (iter x.selfTiles)
  let borrowed ← numbersText (iter x.borrowedTiles)
  pure ("'".toList ++ x.cls.name.toList ++ "' using '".toList ++ own ++ "' to get '".toList ++ borrowed ++
    "' from player ".toList ++ pyStrInt x.fromWho)

/-- the rest of `base_str` after draws and discards (`mahjong/record/utils/event.py:124-150`).  The points of a win that
    are not a whole number, which Python would print as a float, are an error here. -/
def otherText (iter : List Int → List Int) (e : Event) : Except PyErr Str := do
  if isOpenHand e then
    let who ← e.get "who".toList
    let item ← meldFrom e
    pure ("player ".toList ++ who ++ " claimed ".toList ++ (← item.text iter))
  else if isRichii e then
    pure ("player ".toList ++ (← e.get "who".toList) ++ " richii".toList)
  else if isDora e then
    let t ← tileFromTenhou (← pyInt (← e.get "hai".toList))
    pure ("new dora indicator ".toList ++ t.str)
  else if isSomebodyWin e then
    let winner ← e.get "who".toList
    let loser ← e.get "fromWho".toList
    let score ← wholeText (← pyIdx (← numberList (← e.get "ten".toList)) 1)
    pure ("player ".toList ++ winner ++ " win ".toList ++ score ++ " from player ".toList ++ loser)
  else if isNobodyWin e then
    pure ("no body win ".toList ++ (← drawnText e))
  else pure "UNPARSED".toList

/-- `TenhouEvent.base_str` (`mahjong/record/utils/event.py:114-150`). -/
def baseText (iter : List Int → List Int) (e : Event) : Except PyErr Str := do
  match ← rowTileChange DRAW_INDICATOR e.tag with
  | some (p, t) => pure ("player ".toList ++ pyStrInt p ++ " draw ".toList ++ t.str)
  | none =>
    match ← rowTileChange DISCARD_INDICATOR e.tag with
    | some (p, t) => pure ("player ".toList ++ pyStrInt p ++ " discard ".toList ++ t.str)
    | none => otherText iter e

/-- `TenhouEvent.__repr__` (`mahjong/record/utils/event.py:101-102`): `"[%s]:%s" % self` is evaluated first; the format asks
    for two arguments and gets one, so that a `TypeError` is raised after `str(self)` has returned, or the exception of
    `str(self)`.  `str(self)` adds the XML text, which does not raise. -/
def reprEvent (iter : List Int → List Int) (e : Event) : Except PyErr Str := do
  let _ ← baseText iter e
  .error .typeError

end Verif.Model
