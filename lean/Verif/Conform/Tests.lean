import Verif.Model.Notation
import Verif.Model.Category
import Verif.Model.Stage
import Verif.Model.Meld
import Verif.Model.GameType
import Verif.Model.Executor

/-! What `/repo/tests/tile`, `/repo/tests/utils` and two files of `/repo/tests/paifu` expect of the code, computed on the
model.  Left out: `test_AkaTile.py:30-34`, as the model has no red five but the number zero of a suit, and the named
tuples of `test_mixedCategory.py:47-52` and `test_subCategory.py:24-31`, as the model has plain lists. -/
namespace Verif.Conform
open Verif.Py Verif.Model
set_option maxRecDepth 100000

/-- `tests/tile/test_AkaTile.py:8-14` -/
theorem tile_from_tenhou : ∀ x ∈ [((16 : Int), (17 : Int)), (52, 53), (88, 89)],
    (do pure (Tile.eq (← tileFromTenhou x.1) (← tileFromTenhou x.2))) = Except.ok (ε := PyErr) true := by decide +kernel

/-- `tests/tile/test_AkaTile.py:16-28` -/
theorem aka_tile_tile : ∀ c ∈ [Suit.m, .s, .p], let red : Tile := ⟨c, 0, true⟩
    (red.next.any (Tile.eq · ⟨c, 6, false⟩) && red.le ⟨c, 6, false⟩ && red.ne ⟨c, 6, false⟩ && red.ge ⟨c, 4, false⟩) = true := by
  decide +kernel

/-- `tests/tile/test_tile.py:8-13` -/
theorem count : let hand := tileSetFromString "1234555s1234m4567p123s5547z".toList
    [(⟨.s, 1, false⟩ : Tile), ⟨.s, 4, false⟩, ⟨.s, 5, false⟩, ⟨.p, 5, false⟩].map (fun t => Counter.get hand t.view) = [2, 1, 3, 1] := by
  decide +kernel

/-- `tests/tile/test_tile.py:15-18`: the tiles of the set are in order already, so sorting them leaves them as they are -/
theorem tile_ordering : (tileSetFromString "123456789m123456789s123456789p1234567z".toList).map (·.1) =
    (tileSetFromString "123456789m123456789p123456789s1234567z".toList).map (·.1) := by decide +kernel

/-- `tests/tile/test_tile_hash_num.py:7-11` -/
theorem unique_tile_hash_num :
    ((tilesFromString "123456789s123456789m123456789p1234567z".toList).map Tile.hash).Nodup ∧
    (tilesFromString "123456789s123456789m123456789p1234567z".toList).length = 34 := by decide +kernel

/-- `product(*(range(x) for x in sizes))` of `tests/utils/test_subCategory.py:7` -/
def tuples (sizes : List Nat) : List (List Int) :=
  sizes.foldr (fun n l => ((List.range n).map Int.ofNat).flatMap (fun i => l.map (fun t => i :: t))) [[]]

/-- `tests/utils/test_subCategory.py:7-21` -/
theorem sub_category : ∀ x ∈ (tuples [2, 3, 4]).zipIdx,
    (SubCat.mk [2, 3, 4]).category x.2 = .ok x.1 ∧ (SubCat.mk [2, 3, 4]).index x.1 = .ok x.2 := by decide +kernel

/-- `tests/utils/test_mixedCategory.py:8-20,25-27,37-44` -/
theorem mixed_category : ∀ x ∈ ([[0, 0], [0, 1], [0, 2], [1, 0], [1, 1], [2, 0], [2, 1], [2, 2], [2, 3]] : List (List Int)).zipIdx,
    (MixedCat.make [⟨[3]⟩, ⟨[2]⟩, ⟨[4]⟩] >>= fun c => c.category x.2) = .ok x.1 ∧
    (MixedCat.make [⟨[3]⟩, ⟨[2]⟩, ⟨[4]⟩] >>= fun c => c.index x.1) = .ok x.2 := by decide +kernel

/-- `tests/utils/test_mixedCategory.py:55-81` -/
theorem tenhou_tiles : ((tuples [3, 9, 4]) ++ (tuples [7, 4]).map (3 :: ·)).length = 136 ∧
    ∀ x ∈ ((tuples [3, 9, 4]) ++ (tuples [7, 4]).map (3 :: ·)).zipIdx,
    TENHOU_TILE_CATEGORY.category x.2 = .ok x.1 ∧ TENHOU_TILE_CATEGORY.index x.1 = .ok x.2 := by decide +kernel

/-- `tests/utils/test_stageGroupby.py:7-15,24-27,39-45` -/
theorem stage_group_value : ∀ x ∈ [("AAABBB", "AB", ["AAABBB"]), ("AAABBBAAACCC", "AC", ["AAA", "BBB", "AAACCC"]),
      ("AAABBBCCCABCDEDCBA", "BC", ["AAA", "BBBCCC", "A", "BC", "D", "E", "D", "C", "B", "A"]),
      ("ABBBBBCBBBBBBA", "ABC", ["ABBBBBC", "BBBBBB", "A"])],
    groupLists x.2.1.toList id x.1.toList = x.2.2.map String.toList := by decide +kernel

/-- a key that is a text -/
def key (s : String) : Key := .text s.toList
/-- a value that is a text -/
def value (s : String) : Tree := .leaf (.str s.toList)
/-- `d[k1]...[kn]`: a text -/
def at' (d : TD) : List String → Except PyErr Val
  | [] => .error .keyError
  | [k] => if d.has (key k) then d.get (key k) else .error .keyError
  | k :: ks => do at' (← d.child (key k)) ks
/-- `d[k].set(k', v)` -/
def setIn (d : TD) (k k' v : String) : Except PyErr TD := do pure ((← d.child (key k)).set (key k') (value v))
/-- the values at the paths -/
def reads (d : TD) (l : List (List String × String)) : Bool := l.all (fun x => decide ((at' d x.1).toOption = some (.str x.2.toList)))

/-- the dictionary of `tests/utils/test_transfer_dict.py:5-14,24-33` -/
def nested : TD := ⟨[(key "a", .node [(key "1", value "z")]), (key "b", .node [(key "2", .node [(key "3", value "y")])])], []⟩
/-- the dictionary of `tests/utils/test_transfer_dict.py:50-57` -/
def flat : TD := ⟨[(key "a", .node [(key "1", value "x")]), (key "b", .node [(key "2", value "y")])], []⟩

/-- `tests/utils/test_transfer_dict.py:4-20` -/
theorem transfer_set : (do
    let two ← setIn nested "a" "1" "x"
    pure (reads nested [(["a", "1"], "z"), (["b", "2", "3"], "y")] && reads two [(["a", "1"], "x"), (["b", "2", "3"], "y")]))
    = Except.ok (ε := PyErr) true := by decide +kernel

/-- `tests/utils/test_transfer_dict.py:23-46` -/
theorem transfer_set_same_dict : (do
    let two ← setIn nested "a" "2" "p"
    let three ← setIn two "a" "3" "c"
    pure (reads nested [(["a", "1"], "z"), (["b", "2", "3"], "y")] &&
      reads two [(["a", "1"], "z"), (["b", "2", "3"], "y"), (["a", "2"], "p")] &&
      reads three [(["a", "1"], "z"), (["b", "2", "3"], "y"), (["a", "2"], "p"), (["a", "3"], "c")]))
    = Except.ok (ε := PyErr) true := by decide +kernel

/-- `tests/utils/test_transfer_dict.py:49-71` -/
theorem transfer_differ : (do
    let two ← setIn flat "a" "3" "p"
    let three ← setIn two "b" "4" "q"
    pure (reads flat [(["a", "1"], "x"), (["b", "2"], "y")] && reads two [(["a", "1"], "x"), (["b", "2"], "y"), (["a", "3"], "p")] &&
      reads three [(["a", "1"], "x"), (["b", "2"], "y"), (["a", "3"], "p"), (["b", "4"], "q")]))
    = Except.ok (ε := PyErr) true := by decide +kernel

/-- `tests/paifu/test_flush.py:7-23` -/
def flushes : List (Int × String) :=
  [(9239, "456m"), (33031, "645p"), (13511, "657m"), (26663, "423p"), (58615, "678s"), (50519, "435s"), (26687, "423p"),
   (25007, "234p"), (39199, "867p"), (62791, "879s"), (62623, "879s"), (9639, "456m"), (59703, "768s")]

/-- the same set of tiles -/
def sameTiles (a b : List Tile) : Bool := a.all (fun x => b.any (Tile.eq x)) && b.all (fun x => a.any (Tile.eq x))

/-- `tests/paifu/test_flush.py:26-32` -/
theorem self_tiles : ∀ x ∈ flushes, (do
    let m ← decodeFlush 0 x.1
    pure (sameTiles ((tilesFromString x.2.toList).take 1) (← m.borrowedTiles.mapM tileFromTenhou) &&
      sameTiles ((tilesFromString x.2.toList).drop 1) (← m.selfTiles.mapM tileFromTenhou))) = Except.ok (ε := PyErr) true := by
  decide +kernel

/-- `tests/paifu/test_flush.py:35-38` -/
theorem flush_data_kui_3 : ∀ x ∈ flushes, (unpackWith flushDesc x.1 >>= fun d => field d "kui".toList) = .ok 3 := by decide +kernel

/-- `tests/paifu/test_gameType.py:5-16` -/
theorem game_type_display : (GameType.make 169 >>= GameType.str) = .ok "四鳳南喰赤".toList := by decide +kernel

end Verif.Conform
