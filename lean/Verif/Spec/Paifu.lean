import Verif.Spec.Translate
import Verif.Model.Paifu

/-! What the table of a game (`to_paifu`) should contain, and how somebody who only has the table reads it. -/
namespace Verif.Spec
open Verif.Py Verif.Model

/-- a row written as column names and texts -/
def tableRow (l : List (String × Str)) : Row := l.map (fun e => (e.1.toList, PVal.str e.2))

/-- the text in a column of a row, if there is one -/
def cell (r : Row) (column : String) : Option Str :=
  match r.lookup column.toList with
  | some (.str s) => some s
  | _ => none

/-- tile names are two characters each -/
def namesIn : Str → List Str
  | a :: b :: s => [a, b] :: namesIn s
  | _ => []

/-- the tile names in a column -/
def cellNames (r : Row) (column : String) : List Str := namesIn ((cell r column).getD [])

/-- the names without one copy of each of `vs` -/
def takeAway (names vs : List Str) : List Str := vs.foldl List.erase names

/-- A reader keeping the hand of player `p` while going through the table: an `INIT` row of the player sets it, a
    `DRAW` row adds what is seen, a `DISCARD` row and the rows of melds take away what is shown.  Rows of other
    players are not looked at. -/
def readRow (p : Fin 4) (hand : List Str) (r : Row) : List Str :=
  if cell r "player" = some (natDigits p.val) then
    if cell r "event_type" ∈ [some "INIT1".toList, some "INIT2".toList, some "INIT3".toList, some "INIT4".toList] then
      cellNames r "player_see"
    else if cell r "event_type" = some "DRAW".toList then cellNames r "player_see" ++ hand
    else if cell r "event_type" ∈ [some "DISCARD".toList, some "CHI".toList, some "PENG ".toList, some "GANG".toList,
        some "KITA".toList, some "ANGANG".toList, some "MINGGANG".toList] then takeAway hand (cellNames r "player_show")
    else hand
  else hand

def readHand (p : Fin 4) (rows : List Row) : List Str := rows.foldl (readRow p) []

/-- the `event_type` of a meld -/
def meldName (x : Meld) : String :=
  match x.cls with
  | .flush => "CHI"
  | .triplet => "PENG "
  | .addedKan => "GANG"
  | .kita => "KITA"
  | .kan => if x.borrowedTiles = [] then "ANGANG" else "MINGGANG"
  | .kanFromTriplet => ""

/-- `iter` only reorders -/
def Reorders (iter : List Int → List Int) : Prop := ∀ l, (iter l).Perm l

/-- the names of some tiles, one after the other -/
def joined (l : List Int) : Str := (l.map tileName).flatten

/-- letters and characters of the winds, and the texts `E-1-0`, `東1局0本` of a round -/
def windLetter (w : Nat) : Char := ['E', 'S', 'W', 'N'].getD w ' '
def windSign (w : Nat) : Char := ['東', '南', '西', '北'].getD w ' '
def roundCode (w k : Nat) (honba : Int) : Str := windLetter w :: '-' :: natDigits (k + 1) ++ '-' :: pyStrInt honba
def roundTitle (w k : Nat) (honba : Int) : Str :=
  windSign w :: natDigits (k + 1) ++ '局' :: pyStrInt honba ++ ['本', ' ']

end Verif.Spec
