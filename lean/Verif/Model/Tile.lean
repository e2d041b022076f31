import Verif.Py.Counter

/-!
Tiles: `mahjong/tile/definition.py` (structural part; the interning pool is `Model/TilePool.lean`)
and tile sets: `mahjong/container/set.py`.
-/
namespace Verif.Model
open Verif.Py

/-- The colour strings `'m' 'p' 's' 'z'`: the keys of `_suit_ordering`
    (`mahjong/tile/definition.py:8-13`).  Any other colour raises `KeyError` in `tile_hash_num`. -/
inductive Suit where
  | m | p | s | z
  deriving DecidableEq, Repr, Inhabited

/-- `_suit_ordering` (`mahjong/tile/definition.py:8-13`). -/
def Suit.ord : Suit → Int
  | .m => 0 | .p => 1 | .s => 2 | .z => 3

/-- `_tuple_view = (color, number)` (`mahjong/tile/definition.py:42,136`): what `==` and `<` read.
    A kind of tile: a red five has the same kind as a plain five. -/
abbrev Kind := Suit × Int

/-- Strict order of `_tuple_view` tuples (`mahjong/tile/definition.py:60-61`): Python compares the
    colour strings first (`'m' < 'p' < 's' < 'z'` as code points), then the numbers. -/
def Kind.lt (a b : Kind) : Prop := a.1.ord < b.1.ord ∨ (a.1 = b.1 ∧ a.2 < b.2)

/-- deciding the order of two kinds (`mahjong/tile/definition.py:51-61`) -/
instance (a b : Kind) : Decidable (Kind.lt a b) := by unfold Kind.lt; infer_instance

/-- A `Tile` object (`aka = false`) or an `AkaTile` object (`aka = true`).
    Fields: `_color`, `_number`, class (`mahjong/tile/definition.py:32-49,123-143`).
    An `AkaTile` has `_number = 0` (asserted at line 124). -/
structure Tile where
  color : Suit
  number : Int
  aka : Bool := false
  deriving DecidableEq, Repr, Inhabited

/-- `_tuple_view` (`mahjong/tile/definition.py:42` for `Tile`, `:136` for `AkaTile`). -/
def Tile.view (t : Tile) : Kind := (t.color, if t.aka then t.number + 5 else t.number)

/-- dictionary keys that are tiles are compared by `_tuple_view` (`mahjong/tile/definition.py:51-61`) -/
instance : Keyed Tile Kind := ⟨Tile.view⟩

/-- `Tile.__eq__` (`mahjong/tile/definition.py:54-55`), inherited by `AkaTile`. -/
def Tile.eq (a b : Tile) : Bool := decide (a.view = b.view)
/-- `Tile.__ne__` (`mahjong/tile/definition.py:57-58`). -/
def Tile.ne (a b : Tile) : Bool := decide (a.view ≠ b.view)
/-- `Tile.__lt__` (`mahjong/tile/definition.py:60-61`). -/
def Tile.lt (a b : Tile) : Bool := decide (Kind.lt a.view b.view)
/-- `functools.total_ordering` on `__lt__` (`mahjong/tile/definition.py:20`): `a <= b` is
    `a < b or a == b`. -/
def Tile.le (a b : Tile) : Bool := a.lt b || a.eq b
/-- `functools.total_ordering`: `a > b` is `not (a < b) and a != b`
    (`mahjong/tile/definition.py:20`, decorator of class `Tile`). -/
def Tile.gt (a b : Tile) : Bool := !(a.lt b) && a.ne b
/-- `functools.total_ordering`: `a >= b` is `not (a < b)`
    (`mahjong/tile/definition.py:20`, decorator of class `Tile`). -/
def Tile.ge (a b : Tile) : Bool := !(a.lt b)
/-- `tile_hash_num` (`mahjong/tile/definition.py:16-17`). -/
def tileHashNum (c : Suit) (n : Int) : Int := c.ord * 10 + n
/-- `_hash` returned by `__hash__` (`mahjong/tile/definition.py:39,51-52,130,133,153-154`). -/
def Tile.hash (t : Tile) : Int := tileHashNum t.color (if t.aka then t.number + 5 else t.number)

/-- `is_suit` (`mahjong/tile/definition.py:22,66-67`). -/
def Tile.isSuit (t : Tile) : Bool := decide (t.color ≠ Suit.z)

/-- `next` (`mahjong/tile/definition.py:77-79` and `:145-147`); `none` is Python's `None`. -/
def Tile.next (t : Tile) : Option Tile :=
  if t.isSuit && decide (t.number < 9) then
    some ⟨t.color, if t.aka then t.number + 6 else t.number + 1, false⟩
  else none

/-- `TileSet` (`mahjong/container/set.py:10`). -/
abbrev TileSet := Counter Tile

/-- `repeat` (`mahjong/tile/definition.py:88-91` and `:156-159`). -/
def Tile.repeat (t : Tile) (count : Nat) : TileSet :=
  Counter.ofIter (List.replicate count ⟨t.color, if t.aka then t.number + 5 else t.number, false⟩)

/-- `pair` (`mahjong/tile/definition.py:28,48,97-99,142`). -/
def Tile.pair (t : Tile) : TileSet := t.repeat 2
/-- `triplet` (`mahjong/tile/definition.py:27,47,93-95,141`). -/
def Tile.triplet (t : Tile) : TileSet := t.repeat 3

/-- `flush` (`mahjong/tile/definition.py:44-46,81-86` and `:138-140`); `none` is `None`. -/
def Tile.flush (t : Tile) : Option TileSet :=
  if t.aka then
    if t.isSuit && decide (t.number = 0) then
      some (Counter.ofIter ((List.range 3).map fun i : Nat => ⟨t.color, t.number + 5 + (i : Int), false⟩))
    else none
  else
    if t.isSuit && decide (t.number ≤ 9 - 3 + 1) then
      some (Counter.ofIter ((List.range 3).map fun i : Nat => ⟨t.color, t.number + (i : Int), false⟩))
    else none

/-- Stable insertion of an item into a sorted item list (`sorted` in `mahjong/container/set.py:11-16`, `re_sort`). -/
def insertItem (e : Tile × Int) : List (Tile × Int) → List (Tile × Int)
  | [] => [e]
  | f :: l => if Kind.lt f.1.view e.1.view then f :: insertItem e l else e :: f :: l

/-- `re_sort` (`mahjong/container/set.py:11-16`): `sorted(self.items())`, then re-insert in order.
    Items are `(tile, count)` tuples; the keys of a dict are pairwise `!=`, so the comparison is
    decided by the tiles.  The sorted list is unique, an insertion sort computes it. -/
def reSort (c : TileSet) : TileSet := c.foldr insertItem []

/-- `contains` (`mahjong/container/set.py:21-25`). -/
def TileSet.contains (c d : TileSet) : Bool :=
  d.all (fun e => !decide (Counter.get c (view e.1) < e.2))

/-- `tiles` (`mahjong/container/set.py:33-35`): `[tile] * num` is empty for `num <= 0`. -/
def TileSet.tiles (c : TileSet) : List Tile := c.flatMap (fun e => List.replicate e.2.toNat e.1)

/-- `__add__` (`mahjong/container/set.py:56-62`): copy, `+=`, `re_sort`. -/
def TileSet.add (c d : TileSet) : TileSet := reSort (Counter.iadd c d)

/-- `__sub__` (`mahjong/container/set.py:64-67`): copy, `-=`. -/
def TileSet.sub (c d : TileSet) : TileSet := Counter.isub c d

/-- `exclude` (`mahjong/container/set.py:37-41`). -/
def TileSet.exclude (c d : TileSet) : Option TileSet :=
  if TileSet.contains c d then some (TileSet.sub c d) else none

/-- `__and__` (`mahjong/container/set.py:69-70`): `TileSet(mapping)` copies the entries. -/
def TileSet.and (c d : TileSet) : TileSet := Counter.and c d
/-- `__or__` (`mahjong/container/set.py:72-73`). -/
def TileSet.or (c d : TileSet) : TileSet := Counter.or c d

/-- `__len__` (`mahjong/container/set.py:50-51`). -/
def TileSet.len (c : TileSet) : Int := Counter.total c

/-- Comparison of two `(tile, count)` tuples: `<` (`mahjong/container/set.py:53-54`, `__lt__`). -/
def itemLt (a b : Tile × Int) : Bool :=
  if a.1.view = b.1.view then decide (a.2 < b.2) else a.1.lt b.1

/-- `__lt__` (`mahjong/container/set.py:53-54`): lexicographic order of the item lists. -/
def TileSet.lt : TileSet → TileSet → Bool
  | [], [] => false
  | [], _ :: _ => true
  | _ :: _, [] => false
  | a :: c, b :: d =>
    if a.1.view = b.1.view ∧ a.2 = b.2 then TileSet.lt c d else itemLt a b

/-- `==` of two `TileSet`s: `dict.__eq__` (same number of keys, every key of `c` in `d` with the
    same value).  `Counter.__eq__` of Python 3.10+ instead treats a missing key as 0; the two agree
    when no stored count is 0 (`mahjong/container/set.py:9-10`, class `TileSet`). -/
def TileSet.eq (c d : TileSet) : Bool :=
  decide (c.length = d.length) &&
    c.all (fun e => Counter.has d (view e.1) && decide (Counter.get d (view e.1) = e.2))

/-- `TileDistribution.ALL_TILES` (`mahjong/container/distribution.py:14`), the keys of
    `tile_set_from_string("123456789m123456789p123456789s1234567z")`.  That the parser yields this
    list is proved in `Props/Notation.lean`. -/
def ALL_TILES : List Tile :=
  [⟨.m,1,false⟩,⟨.m,2,false⟩,⟨.m,3,false⟩,⟨.m,4,false⟩,⟨.m,5,false⟩,⟨.m,6,false⟩,⟨.m,7,false⟩,
   ⟨.m,8,false⟩,⟨.m,9,false⟩,
   ⟨.p,1,false⟩,⟨.p,2,false⟩,⟨.p,3,false⟩,⟨.p,4,false⟩,⟨.p,5,false⟩,⟨.p,6,false⟩,⟨.p,7,false⟩,
   ⟨.p,8,false⟩,⟨.p,9,false⟩,
   ⟨.s,1,false⟩,⟨.s,2,false⟩,⟨.s,3,false⟩,⟨.s,4,false⟩,⟨.s,5,false⟩,⟨.s,6,false⟩,⟨.s,7,false⟩,
   ⟨.s,8,false⟩,⟨.s,9,false⟩,
   ⟨.z,1,false⟩,⟨.z,2,false⟩,⟨.z,3,false⟩,⟨.z,4,false⟩,⟨.z,5,false⟩,⟨.z,6,false⟩,⟨.z,7,false⟩]

end Verif.Model
