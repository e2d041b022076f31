import Verif.Model.Bits
import Verif.Model.Category

/-!
`mahjong/record/utils/value/meld.py`: decoding melds.  Python sets of tile numbers are duplicate-free
lists; nothing observable depends on their iteration order.
-/
namespace Verif.Model
open Verif.Py

/-- `flush_desc` (`mahjong/record/utils/value/meld.py:11-19`). -/
def flushDesc : List Field :=
  [⟨"kui".toList, 2⟩, ⟨"syuntsu".toList, 1⟩, ⟨"hai0".toList, 2⟩, ⟨"hai1".toList, 2⟩, ⟨"hai2".toList, 2⟩,
   ⟨"padding__".toList, 1⟩, ⟨"type6".toList, 6⟩]

/-- `triplet_desc` (`mahjong/record/utils/value/meld.py:21-29`). -/
def tripletDesc : List Field :=
  [⟨"kui".toList, 2⟩, ⟨"syuntsu".toList, 1⟩, ⟨"koutsu".toList, 1⟩, ⟨"chakan".toList, 1⟩,
   ⟨"hai_unused".toList, 2⟩, ⟨"padding__".toList, 2⟩, ⟨"type7".toList, 7⟩]

/-- `kan_desc` (`mahjong/record/utils/value/meld.py:31-39`). -/
def kanDesc : List Field :=
  [⟨"kui".toList, 2⟩, ⟨"syuntsu".toList, 1⟩, ⟨"koutsu".toList, 1⟩, ⟨"chakan".toList, 1⟩,
   ⟨"nuki".toList, 1⟩, ⟨"padding__".toList, 2⟩, ⟨"type8".toList, 8⟩]

/-- `added_kan_desc` (`mahjong/record/utils/value/meld.py:41-49`). -/
def addedKanDesc : List Field :=
  [⟨"kui".toList, 2⟩, ⟨"syuntsu".toList, 1⟩, ⟨"koutsu".toList, 1⟩, ⟨"chakan".toList, 1⟩,
   ⟨"hai_added".toList, 2⟩, ⟨"padding__".toList, 2⟩, ⟨"type7".toList, 7⟩]

/-- `kita_desc` and `meld_type_desc` (`mahjong/record/utils/value/meld.py:51-59,341`). -/
def kitaDesc : List Field := kanDesc

/-- the classes of melds (`mahjong/record/utils/value/meld.py:74-324`, the subclasses of `Meld`) -/
inductive MeldClass where
  | flush | triplet | addedKan | kita | kan | kanFromTriplet
  deriving DecidableEq, Repr

/-- A `Meld` object: its class and what the properties `self_tiles`, `borrowed_tiles`, `from_who`
    return (`mahjong/record/utils/value/meld.py:74-105`, class `Meld`). -/
structure Meld where
  cls : MeldClass
  selfTiles : List Int
  borrowedTiles : List Int
  fromWho : Int
  deriving DecidableEq, Repr

/-- `FROM_MAP` and `from_who` (`mahjong/record/utils/value/meld.py:61,127-129`). -/
def fromWhoOf (who kui : Int) : Except PyErr Int := do
  let f ← pyIdx [0, 1, 2, 3] kui
  pure ((who + f) % 4)

/-- `set(tiles) - {x}` for a list of tile numbers
    (`mahjong/record/utils/value/meld.py:64-67,179-192,219-226,250-264`, `Triplet` and `Kan` constructors). -/
def setDiff1 (l : List Int) (x : Int) : List Int := (l.eraseDups).filter (fun y => decide (y ≠ x))

/-- `init_from_basic` (`mahjong/record/utils/value/meld.py:64-67`): (borrowed, own). -/
def initFromBasic (basic : List Int) (which : Int) : Except PyErr (List Int × List Int) := do
  let first ← pyIdx basic which
  pure ([first], setDiff1 basic first)

/-- unpacking a tuple of three / two values (`mahjong/record/utils/value/meld.py:142-191`, results of `category`) -/
def unpack3 : List Int → Except PyErr (Int × Int × Int)
  | [a, b, c] => .ok (a, b, c)
  | _ => .error .valueError
/-- unpacking a tuple of two values (`mahjong/record/utils/value/meld.py:142-191`, results of `category`) -/
def unpack2 : List Int → Except PyErr (Int × Int)
  | [a, b] => .ok (a, b)
  | _ => .error .valueError

/-- `Flush.__init__` (`mahjong/record/utils/value/meld.py:142-155`). -/
def decodeFlush (who value : Int) : Except PyErr Meld := do
  let data ← unpackWith flushDesc value
  let (color, start, which) ← unpack3 (← (SubCat.mk [3, 7, 3]).category (← field data "type6".toList))
  let h0 ← field data "hai0".toList
  let h1 ← field data "hai1".toList
  let h2 ← field data "hai2".toList
  let t0 ← TENHOU_TILE_CATEGORY.index [color, start + 0, h0]
  let t1 ← TENHOU_TILE_CATEGORY.index [color, start + 1, h1]
  let t2 ← TENHOU_TILE_CATEGORY.index [color, start + 2, h2]
  let (borrowed, own) ← initFromBasic [t0, t1, t2] which
  let f ← fromWhoOf who (← field data "kui".toList)
  pure ⟨.flush, own, borrowed, f⟩

/-- `sorted(list(set(range(4)) - {unused}))` (`mahjong/record/utils/value/meld.py:185`). -/
def haisWithout (unused : Int) : List Int := [0, 1, 2, 3].filter (fun h => decide (h ≠ unused))

/-- `Triplet.__init__` (`mahjong/record/utils/value/meld.py:179-192`). -/
def decodeTriplet (who value : Int) : Except PyErr Meld := do
  let data ← unpackWith tripletDesc value
  let (tileType, which) ← unpack2 (← (SubCat.mk [34, 3]).category (← field data "type7".toList))
  let (color, number) ← unpack2 (← (SubCat.mk [4, 9]).category tileType)
  let unused ← field data "hai_unused".toList
  let basic ← (haisWithout unused).mapM (fun h => TENHOU_TILE_CATEGORY.index [color, number, h])
  let (borrowed, own) ← initFromBasic basic which
  let f ← fromWhoOf who (← field data "kui".toList)
  pure ⟨.triplet, own, borrowed, f⟩

/-- `TenhouAddedKan.__init__` (`mahjong/record/utils/value/meld.py:219-226`). -/
def decodeAddedKan (who value : Int) : Except PyErr Meld := do
  let data ← unpackWith addedKanDesc value
  let (tileType, _) ← unpack2 (← (SubCat.mk [34, 3]).category (← field data "type7".toList))
  let (color, number) ← unpack2 (← (SubCat.mk [4, 9]).category tileType)
  let t ← TENHOU_TILE_CATEGORY.index [color, number, ← field data "hai_added".toList]
  let f ← fromWhoOf who (← field data "kui".toList)
  pure ⟨.addedKan, [t], [], f⟩

/-- `TenhouKan.__init__` (`mahjong/record/utils/value/meld.py:250-264`). -/
def decodeKan (who value : Int) : Except PyErr Meld := do
  let data ← unpackWith kanDesc value
  let (color, number, hai) ← unpack3 (← TENHOU_TILE_CATEGORY.category (← field data "type8".toList))
  let basic ← [0, 1, 2, 3].mapM (fun h => TENHOU_TILE_CATEGORY.index [color, number, h])
  let kui ← field data "kui".toList
  let f ← fromWhoOf who kui
  if kui = 0 then
    pure ⟨.kan, basic.eraseDups, [], f⟩
  else
    let (borrowed, own) ← initFromBasic basic hai
    pure ⟨.kan, own, borrowed, f⟩

/-- `Kita.__init__` (`mahjong/record/utils/value/meld.py:308-311`). -/
def decodeKita (who value : Int) : Except PyErr Meld := do
  let data ← unpackWith kitaDesc value
  let t ← field data "type8".toList
  let f ← fromWhoOf who (← field data "kui".toList)
  pure ⟨.kita, [t], [], f⟩

/-- `MeldType` (`mahjong/record/utils/value/meld.py:346-351`). -/
inductive MeldType where
  | flush | triplet | kan | addKan | kita
  deriving DecidableEq, Repr

/-- `meld_type` (`mahjong/record/utils/value/meld.py:353-364`). -/
def meldType (value : Int) : Except PyErr MeldType := do
  let t ← unpackWith kitaDesc value
  if (← field t "syuntsu".toList) ≠ 0 then pure .flush
  else if (← field t "koutsu".toList) ≠ 0 then pure .triplet
  else if (← field t "chakan".toList) ≠ 0 then pure .addKan
  else if (← field t "nuki".toList) ≠ 0 then pure .kita
  else pure .kan

/-- `meld_from` (`mahjong/record/utils/value/meld.py:367-381`) after `int(event.attrib['who'])` and
    `int(event.attrib['m'])`. -/
def meldOf (who value : Int) : Except PyErr Meld := do
  let t ← unpackWith kitaDesc value
  if (← field t "syuntsu".toList) ≠ 0 then decodeFlush who value
  else if (← field t "koutsu".toList) ≠ 0 then decodeTriplet who value
  else if (← field t "chakan".toList) ≠ 0 then decodeAddedKan who value
  else if (← field t "nuki".toList) ≠ 0 then decodeKita who value
  else decodeKan who value

/-- `KanFromTriplet.__init__` (`mahjong/record/utils/value/meld.py:284-288`); `|` of two sets. -/
def kanFromTriplet (triplet added : Meld) : Meld :=
  ⟨.kanFromTriplet, (triplet.selfTiles ++ added.selfTiles).eraseDups, triplet.borrowedTiles, triplet.fromWho⟩

/-- `is_triplet_of_added_kan` (`mahjong/record/utils/value/meld.py:384-387`); `list(s)[0]` of an empty
    set raises `IndexError`. -/
def isTripletOfAddedKan (item added : Meld) : Except PyErr Bool := do
  let addedTile ← tileFromTenhou (← pyIdx added.selfTiles 0)
  let rep ← tileFromTenhou (← pyIdx item.selfTiles 0)
  pure (Tile.eq addedTile rep)

/-- `is_opened` (`mahjong/record/utils/value/meld.py:90-94`). -/
def Meld.isOpened (m : Meld) : Bool := decide (m.borrowedTiles ≠ [])

/-- `TenhouKan.is_opened_kan` (`mahjong/record/utils/value/meld.py:241-243`) of the kan with the code `value`. -/
def isOpenedKan (value : Int) : Except PyErr Bool := do
  let data ← unpackWith kanDesc value
  pure (decide ((← field data "kui".toList) ≠ 0))

end Verif.Model
