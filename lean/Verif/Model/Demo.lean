import Verif.Model.WinRateFloat
import Verif.Model.Notation
import Verif.Model.PageText

/-!
The dialogue and the report of the win-rate experiment (`mahjong/win_rate_demo.py:14-103`).

A run is a function of the lines typed at the prompts, the random numbers and what numpy makes of the matrix (the rough and
the accurate pick rates, lines 81-89, given as the values of the floats).  Not modelled: the prompts themselves, the lines about
progress and time (they depend on the clock), rates that are no finite real numbers, and `pause`.
-/
namespace Verif.Model
open Verif.Py

/-- `"%.df" % x` for a float of value `x`, for `d` at least one (`mahjong/win_rate_demo.py:98`; the float `-0.0`, which has a sign, is
    left out). -/
def floatText (d : Nat) (x : Rat) : Str :=
  let m := roundHalfEven (x.num.natAbs * 10 ^ d) x.den
  (if x.num < 0 then ['-'] else []) ++ natDigits (m / 10 ^ d) ++ '.' :: lastDigits d m

/-- what is printed about a hand that has not 14 tiles (`mahjong/win_rate_demo.py:17-18`). -/
def wrongHandText (hand : TileSet) : Str :=
  "Input hand should be 14 tiles, e.g. 123m067p9s1234567z. You have input ".toList ++ pyStrInt (TileSet.len hand) ++
    " legal tiles".toList

/-- asking for the hand (`mahjong/win_rate_demo.py:15-19`): the lines printed, and the hand with the lines not yet read, unless the
    input ends. -/
def askHand : List Str → List Str × Option (TileSet × List Str)
  | [] => ([], none)
  | line :: rest =>
    let hand := tileSetFromString line
    if TileSet.len hand ≠ 14 then
      let r := askHand rest
      (wrongHandText hand :: r.1, r.2)
    else ([], some (hand, rest))

/-- `1000 if try_count.strip() == '' else int(try_count)` (`mahjong/win_rate_demo.py:27`). -/
def tryCount (line : Str) : Except PyErr Int :=
  if line.all isSpace then .ok 1000 else pyInt line

/-- `sorted(pick_rank_map.items(), key=lambda tup: tup[1][1], reverse=True)` (`mahjong/win_rate_demo.py:90-93`): a stable sort, the
    highest accurate rate first. -/
def pickOrder (tiles : List Tile) (picks : List (Rat × Rat)) : List (Tile × Rat × Rat) :=
  pySorted (fun a b => decide (b.2.2 < a.2.2)) (tiles.zip picks)

/-- the line about one discard (`mahjong/win_rate_demo.py:97-102`): the quotient of whole numbers and the products with 100 are
    floats. -/
def discardText (st : WinStats) (tries : Int) (e : Tile × Rat × Rat) : Str :=
  "discard ".toList ++ e.1.str ++ ": ".toList ++
    floatText 2 (roundDouble (((st.win e.1.view * 100 : Int) : Rat) / (tries : Rat))) ++ "% win rate (".toList ++
    pyStrInt (st.win e.1.view) ++ "/".toList ++ pyStrInt tries ++ "), ".toList ++
    floatText 2 (roundDouble (e.2.1 * 100)) ++ "% rough pick rate, ".toList ++
    floatText 2 (roundDouble (e.2.2 * 100)) ++ "% accurate pick rate".toList

/-- the line above the report (`mahjong/win_rate_demo.py:94`). -/
def headText (hand : TileSet) (draws : Int) : Str :=
  "for input hand <".toList ++ TileSet.str hand ++ ">, remain ".toList ++ pyStrInt draws ++ " draws:".toList

/-- everything after the hand is accepted (`mahjong/win_rate_demo.py:20-102`): the lines of the report.  `rand i j` is the random
    number of draw `j` in experiment `i`; `none` means that the input has ended. -/
def demoReport (numpy : List (List Rat) → List (Rat × Rat)) (rand : Nat → Nat → Nat) (hand : TileSet) :
    List Str → Option (Except PyErr (List Str))
  | [] => none
  | drawLine :: rest =>
    match pyInt drawLine with
    | .error x => some (.error x)
    | .ok draws =>
      match rest with
      | [] => none
      | tryLine :: _ => some (do
        let tries ← tryCount tryLine
        let samples ← match drawSamples hand ((List.range tries.toNat).map (fun i => (List.range draws.toNat).map (rand i))) with
          | some s => .ok s
          | none => .error .indexError
        let st := winTrialsF hand samples
        let tiles := (possibleDiscard hand).map (fun d => d.1)
        let matrix ← conditionMatrixF st tries (tiles.map Tile.view)
        pure (headText hand draws :: (pickOrder tiles (numpy matrix)).map (discardText st tries)))

/-- `main` (`mahjong/win_rate_demo.py:14-103`): the lines printed and how it ends, `none` for the end of the input. -/
def demoMain (numpy : List (List Rat) → List (Rat × Rat)) (rand : Nat → Nat → Nat) (lines : List Str) :
    List Str × Option (Except PyErr Unit) :=
  match askHand lines with
  | (out, none) => (out, none)
  | (out, some (hand, rest)) =>
    match demoReport numpy rand hand rest with
    | none => (out, none)
    | some (.error x) => (out, some (.error x))
    | some (.ok report) => (out ++ report, some (.ok ()))

end Verif.Model
