import Verif.Py.Base
import Verif.Py.Regex
import Verif.Model.Tile

/-!
Tile notation: `mahjong/container/utils.py:8-22` and `TileSet.__str__`
(`mahjong/container/set.py:27-31,43-45`).  Strings are lists of characters.
-/
namespace Verif.Model
open Verif.Py

/-- the colour letter of a suit (`mahjong/tile/definition.py:8-13`) -/
def Suit.letter : Suit → Char
  | .m => 'm' | .p => 'p' | .s => 's' | .z => 'z'

/-- the suit of a colour letter; other letters raise `KeyError` in `tile_hash_num`
    (`mahjong/tile/definition.py:8-17`). -/
def suitOfLetter (c : Char) : Option Suit :=
  if c = 'm' then some .m else if c = 'p' then some .p
  else if c = 's' then some .s else if c = 'z' then some .z else none

/-- `_tile_group_regex` (`mahjong/container/utils.py:8-9`): `[0-9]+[mps]|[1-7]+z`. -/
def tileGroupRegex : Re :=
  .alt (.seq (.plus isDigit) (.cls (fun c => decide (c = 'm' ∨ c = 'p' ∨ c = 's'))))
       (.seq (.plus (fun c => decide ('1' ≤ c ∧ c ≤ '7'))) (.cls (fun c => decide (c = 'z'))))

/-- the tile built from one digit of a group (`mahjong/container/utils.py:16`). -/
def tileOfDigit (color : Suit) (number : Char) : Tile :=
  if number ≠ '0' then ⟨color, digitVal number, false⟩ else ⟨color, digitVal number, true⟩

/-- the body of the loop of `tiles_from_string` (`mahjong/container/utils.py:14-16`) for one match:
    `group_value[:-1]`, `group_value[-1]`. -/
def tilesOfGroup (group : List Char) : List Tile :=
  match (group.getLast?).bind suitOfLetter with
  | some color => group.dropLast.map (tileOfDigit color)
  | none => []

/-- `tiles_from_string` (`mahjong/container/utils.py:12-16`). -/
def tilesFromString (token : List Char) : List Tile :=
  (tileGroupRegex.finditer token).flatMap tilesOfGroup

/-- `tile_set_from_string` (`mahjong/container/utils.py:19-22`). -/
def tileSetFromString (token : List Char) : TileSet :=
  reSort (Counter.ofIter (tilesFromString token))

/-- `itertools.groupby` on the colour: consecutive items of equal colour
    (`mahjong/container/set.py:27-31`, `_gen_str_iter`). -/
def groupByColor : TileSet → List (Suit × List (Tile × Int))
  | [] => []
  | e :: l =>
    match groupByColor l with
    | (c, g) :: rest => if e.1.color = c then (c, e :: g) :: rest else (e.1.color, [e]) :: (c, g) :: rest
    | [] => [(e.1.color, [e])]

/-- `_gen_str_iter` (`mahjong/container/set.py:27-31`): `str(number) * num` for each item of a colour
    group, then the colour letter.  `str(number)` is modelled for one-digit numbers, which real tiles
    have. -/
def genStr (c : TileSet) : List Char :=
  (groupByColor c).flatMap (fun g =>
    g.2.flatMap (fun e => List.replicate e.2.toNat (digitChar e.1.number)) ++ [g.1.letter])

/-- `TileSet.__str__` (`mahjong/container/set.py:43-45`): re-sorts in place first. -/
def TileSet.str (c : TileSet) : List Char := genStr (reSort c)

end Verif.Model
