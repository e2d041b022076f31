import Verif.Model.Tile

/-!
Specification of the tile notation, read character by character: a digit denotes a tile when the run of
digits it starts is followed by a colour letter; honours are written with digits 1 to 7 only.
-/
namespace Verif.Spec
open Verif.Model (Suit Tile)

def isDec (c : Char) : Bool := decide (c ∈ ['0', '1', '2', '3', '4', '5', '6', '7', '8', '9'])

/-- the tile a digit denotes in a suit: `0` is the red five. -/
def digitTile (s : Suit) : Char → Option Tile
  | '0' => some ⟨s, 0, true⟩
  | '1' => some ⟨s, 1, false⟩
  | '2' => some ⟨s, 2, false⟩
  | '3' => some ⟨s, 3, false⟩
  | '4' => some ⟨s, 4, false⟩
  | '5' => some ⟨s, 5, false⟩
  | '6' => some ⟨s, 6, false⟩
  | '7' => some ⟨s, 7, false⟩
  | '8' => some ⟨s, 8, false⟩
  | '9' => some ⟨s, 9, false⟩
  | _ => none

/-- What the first character of `text` denotes, if anything. -/
def tileAt (text : List Char) : Option Tile :=
  match text with
  | [] => none
  | d :: _ =>
    match text.dropWhile isDec with
    | 'm' :: _ => digitTile .m d
    | 'p' :: _ => digitTile .p d
    | 's' :: _ => digitTile .s d
    | 'z' :: _ =>
      if (text.takeWhile isDec).all (fun c => decide (c ∉ ['0', '8', '9'])) then digitTile .z d else none
    | _ => none

/-- All tiles written in a text, left to right. -/
def written : List Char → List Tile
  | [] => []
  | c :: s => (tileAt (c :: s)).toList ++ written s

end Verif.Spec
