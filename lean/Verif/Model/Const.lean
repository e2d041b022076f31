import Verif.Py.Str
import Verif.Py.Counter

/-! `mahjong/record/const.py`. -/
namespace Verif.Model
open Verif.Py

/-- strings are compared as they are (`mahjong/record/const.py:10,23`) -/
instance : Keyed Str Str := ⟨id⟩

/-- `''.join(str(x) for x in (n, t))` (`mahjong/record/const.py:4`) -/
def tileText (n : Nat) (t : Char) : Str := natDigits n ++ [t]

/-- `_all_tiles` (`mahjong/record/const.py:4-5`). -/
def allTiles : List Str :=
  "mps".toList.flatMap (fun t => (List.range 9).map (fun i => tileText (i + 1) t)) ++
  (List.range 7).map (fun i => tileText (i + 1) 'z')

/-- `_dora_tiles` (`mahjong/record/const.py:6-9`). -/
def doraTiles : List (List Str) :=
  "mps".toList.flatMap (fun t => [2, 3, 4, 5, 6, 7, 8, 9, 1].map (fun n => [tileText n t])) ++
  [2, 3, 4, 1, 6, 7, 5].map (fun n => [tileText n 'z'])

/-- assignment to a dictionary entry (`mahjong/record/const.py:10-13`) -/
def dictSet {κ β : Type} [DecidableEq κ] (d : List (κ × β)) (k : κ) (v : β) : List (κ × β) :=
  match d with
  | [] => [(k, v)]
  | (a, b) :: l => if a = k then (a, v) :: l else (a, b) :: dictSet l k v

/-- `_dora_map` (`mahjong/record/const.py:10-13`). -/
def doraMap : List (Str × List Str) :=
  "mps".toList.foldl (fun d s =>
      let d1 := dictSet d (tileText 0 s) [tileText 6 s]
      dictSet d1 (tileText 4 s) ((d1.lookup (tileText 4 s)).getD [] ++ [tileText 0 s]))
    (allTiles.zip doraTiles)

/-- `doras` (`mahjong/record/const.py:16-20`). -/
def doras : List Str → Except PyErr (List Str)
  | [] => .ok []
  | ind :: rest =>
    match doraMap.lookup ind with
    | none => .error .keyError
    | some l => (doras rest).map (fun r => l ++ r)

/-- `_player_4_tiles`, `_player_3_tiles` (`mahjong/record/const.py:23-24`). -/
def player4Tiles : Counter Str := Counter.ofIter ((List.replicate 4 allTiles).flatten)
/-- `_player_3_tiles` (`mahjong/record/const.py:24`) -/
def player3Tiles : Counter Str :=
  Counter.minus player4Tiles
    (Counter.ofIter ((List.replicate 4 ((List.range 7).map (fun i => tileText (i + 2) 'm'))).flatten))

/-- `initial_tiles` (`mahjong/record/const.py:27-35`). -/
def initialTiles (playerNum : Int) (hasAka : Bool) : List Str :=
  let initials := if playerNum = 3 then player3Tiles else player4Tiles
  let akas := Counter.ofIter [tileText 0 'm', tileText 0 's', tileText 0 'p']
  let akas := if playerNum = 3 then Counter.minus akas (Counter.ofIter [tileText 0 'm']) else akas
  let initials :=
    if hasAka then
      Counter.plus (Counter.minus initials (Counter.ofIter [tileText 5 'm', tileText 5 's', tileText 5 'p'])) akas
    else initials
  Counter.elements initials

end Verif.Model
