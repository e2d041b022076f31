import Verif.Py.Base
import Verif.Model.Tile

/-!
`mahjong/record/category.py` (`SubCategory`, `MixedCategory`) and
`mahjong/record/utils/value/tile.py`.

The optional `named_tuple_class` only renames the components of the returned tuple
(`category.py:24,27-30,38-43,61-65,97`) and is not modelled.
-/
namespace Verif.Model
open Verif.Py

/-- A `SubCategory` object: the totals in the order the constructor received them
    (`mahjong/record/category.py:72-108`, class `SubCategory`). -/
structure SubCat where
  totals : List Int
  deriving DecidableEq, Repr

/-- `SubCategory.__init__` (`mahjong/record/category.py:73-83`): the two asserts; no argument at all
    fails at `self._totals[0]`. -/
def SubCat.make : List Int → Except PyErr SubCat
  | [] => .error .indexError
  | head :: tail =>
    if tail.all (fun x => decide (0 < x)) && (decide (head = -1) || decide (0 < head)) then
      .ok ⟨head :: tail⟩
    else .error .assertionError

/-- `_max` (`mahjong/record/category.py:80-83`); `none` is `None` (unbounded). -/
def SubCat.max? (c : SubCat) : Option Int :=
  if c.totals.headD 0 = -1 then none else some (c.totals.reverse.foldl (fun x y => x * y) 1)

/-- the loop of `_category_iter` (`mahjong/record/category.py:87-92`) over the reversed totals.
    Python's `%` and `//` are Lean's `%` and `/` on `Int` because every total other than -1 is
    positive. -/
def categoryIter : List Int → Int → List Int
  | [], _ => []
  | total :: rest, index =>
    if total ≠ -1 then (index % total) :: categoryIter rest (index / total)
    else index :: categoryIter rest index

/-- `SubCategory.category` (`mahjong/record/category.py:85-97`). -/
def SubCat.category (c : SubCat) (index : Int) : Except PyErr (List Int) :=
  if (match c.max? with | none => true | some m => decide (index < m)) then
    .ok (categoryIter c.totals.reverse index).reverse
  else .error .assertionError

/-- the loop of `SubCategory.index` (`mahjong/record/category.py:102-104`). -/
def indexLoop (index : Int) : List (Int × Int) → Int
  | [] => index
  | (idx, total) :: rest => indexLoop (index * total + idx) rest

/-- `SubCategory.index` (`mahjong/record/category.py:99-105`). -/
def SubCat.index (c : SubCat) (t : List Int) : Except PyErr Int :=
  if t.length = c.totals.length then
    match t with
    | [] => .error .indexError
    | d :: ds => .ok (indexLoop d (ds.zip c.totals.tail))
  else .error .assertionError

/-- `len(c)` for a `SubCategory` (`mahjong/record/category.py:107-108`): `__len__` returning
    `math.inf` makes the built-in `len` raise `TypeError`. -/
def SubCat.len (c : SubCat) : Except PyErr Int :=
  match c.max? with
  | none => .error .typeError
  | some m => .ok m

/-- `_accumulate` (`mahjong/record/category.py:47-52`) of the block lengths, starting at `sum_len`. -/
def accumulate (sumLen : Int) : List Int → List Int
  | [] => [sumLen]
  | l :: ls => sumLen :: accumulate (sumLen + l) ls

/-- A `MixedCategory` over `SubCategory` blocks (`mahjong/record/category.py:33-45`).  Only blocks of
    class `SubCategory` are modelled (the only kind the library nests). -/
structure MixedCat where
  blocks : List SubCat
  acc : List Int
  deriving DecidableEq, Repr

/-- `MixedCategory.__init__` (`mahjong/record/category.py:34-45`): `len` of every block is taken. -/
def MixedCat.make (blocks : List SubCat) : Except PyErr MixedCat :=
  match blocks.mapM SubCat.len with
  | .ok ls => .ok ⟨blocks, accumulate 0 ls⟩
  | .error e => .error e

/-- `MixedCategory.category` (`mahjong/record/category.py:57-65`). -/
def MixedCat.category (c : MixedCat) (index : Int) : Except PyErr (List Int) := do
  let category : Int := bisectRight c.acc index
  let belongsId := category - 1
  let belongs ← pyIdx c.blocks belongsId
  let a ← pyIdx c.acc category
  let subId ← belongs.category (index - a)
  pure (belongsId :: subId)

/-- `MixedCategory.index` (`mahjong/record/category.py:67-69`); unpacking an empty tuple raises
    `ValueError`. -/
def MixedCat.index (c : MixedCat) : List Int → Except PyErr Int
  | [] => .error .valueError
  | category :: subId => do
    let a ← pyIdx c.acc category
    let b ← pyIdx c.blocks (category - 1)
    let i ← b.index subId
    pure (a + i)

/-- `TENHOU_TILE_CATEGORY` (`mahjong/record/utils/constant.py:117`). -/
def TENHOU_TILE_CATEGORY : MixedCat :=
  ⟨[⟨[9, 4]⟩, ⟨[9, 4]⟩, ⟨[9, 4]⟩, ⟨[7, 4]⟩], [0, 36, 72, 108, 136]⟩

/-- `SUIT_ORDER` (`mahjong/record/utils/constant.py:12`). -/
def SUIT_ORDER : List Suit := [.m, .p, .s, .z]

/-- `SUIT_ORDER.index(color)` for the four colours
    (`mahjong/record/utils/constant.py:12`, `mahjong/record/utils/value/tile.py:10-22`). -/
def suitIndex (c : Suit) : Int := c.ord

/-- `tile_from_tenhou` (`mahjong/record/utils/value/tile.py:5-18`). -/
def tileFromTenhou (index : Int) : Except PyErr Tile := do
  if index = (← TENHOU_TILE_CATEGORY.index [suitIndex .m, 4, 0]) then
    pure ⟨.m, 0, true⟩
  else if index = (← TENHOU_TILE_CATEGORY.index [suitIndex .p, 4, 0]) then
    pure ⟨.p, 0, true⟩
  else if index = (← TENHOU_TILE_CATEGORY.index [suitIndex .s, 4, 0]) then
    pure ⟨.s, 0, true⟩
  else
    match ← TENHOU_TILE_CATEGORY.category index with
    | [color, number, _] => do
      let c ← pyIdx SUIT_ORDER color
      pure ⟨c, number + 1, false⟩
    | _ => .error .valueError

/-- `tile_to_tenhou_range` (`mahjong/record/utils/value/tile.py:21-25`): `(start, stop)` of the
    returned `range`. -/
def tileToTenhouRange (t : Tile) : Except PyErr (Int × Int) := do
  let color := suitIndex t.color
  let number := t.number - 1
  let s ← TENHOU_TILE_CATEGORY.index [color, number, 0]
  let e ← TENHOU_TILE_CATEGORY.index [color, number, 3]
  pure (s, e + 1)

end Verif.Model
