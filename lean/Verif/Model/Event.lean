import Verif.Py.Str
import Verif.Model.Meld

/-!
XML events of a record and the predicates on them
(`mahjong/record/utils/event.py`, `mahjong/record/player.py`, `mahjong/record/utils/value/general.py`).
-/
namespace Verif.Model
open Verif.Py

/-- An XML element: its tag and its attributes (`Element` in `mahjong/record/utils/event.py:83-107`). -/
structure Event where
  tag : Str
  attrib : List (Str × Str)
  deriving DecidableEq, Repr

/-- `event.attrib[k]` (e.g. `mahjong/record/state.py:80`). -/
def Event.get (e : Event) (k : Str) : Except PyErr Str :=
  match e.attrib.lookup k with
  | some v => .ok v
  | none => .error .keyError

/-- Result of `int(float(x)) if int(float(x)) == float(x) else float(x)`: a whole number, or the
    non-integral decimal `m / 10 ^ k` in lowest decimal form.  Decimals are exact here; Python rounds to
    binary floating point, which keeps values and order of numbers with at most 15 digits (`C95_entry`, `C95_order`)
    (`mahjong/record/utils/value/general.py:1-5`). -/
inductive Num where
  | int (n : Int)
  | dec (m : Int) (k : Nat)
  deriving DecidableEq, Repr

/-- remove trailing zero decimals (`mahjong/record/utils/value/general.py:2-4`) -/
def Num.norm (m : Int) : Nat → Num
  | 0 => .int m
  | k + 1 => if m % 10 = 0 then Num.norm (m / 10) k else .dec m (k + 1)

/-- an optional sign in front of a number (`float(x)` in `mahjong/record/utils/value/general.py:2`) -/
def signOf : Str → Bool × Str
  | [] => (false, [])
  | c :: t => if c = '-' then (true, t) else if c = '+' then (false, t) else (false, c :: t)

/-- `float(x)` of a plain decimal: optional sign, digits, optional decimal point and digits (at least one digit)
    (`mahjong/record/utils/value/general.py:2-4`). -/
def parsePlain (s : Str) : Except PyErr Num :=
  let neg := (signOf s).1
  let body := (signOf s).2
  let whole := body.takeWhile isDigit
  match body.dropWhile isDigit with
  | [] => if whole = [] then .error .valueError else
      .ok (.int (if neg then -(digitsVal 0 whole) else digitsVal 0 whole))
  | c :: frac =>
    if c = '.' ∧ frac.all isDigit ∧ (whole ≠ [] ∨ frac ≠ []) then
      let m := digitsVal 0 (whole ++ frac)
      .ok (Num.norm (if neg then -m else m) frac.length)
    else .error .valueError

/-- a number with an exponent: `n * 10 ** e` (`float(x)` in `mahjong/record/utils/value/general.py:2`) -/
def Num.shift (n : Num) (e : Int) : Num :=
  match n with
  | .int m => if 0 ≤ e then .int (m * 10 ^ e.toNat) else Num.norm m (-e).toNat
  | .dec m k => if 0 ≤ e then Num.norm (m * 10 ^ e.toNat) k else Num.norm m (k + (-e).toNat)

/-- not the letter in front of an exponent (`float(x)` in `mahjong/record/utils/value/general.py:2`) -/
def noExponent (c : Char) : Bool := c ≠ 'e' && c ≠ 'E'

/-- `float(x)` of a decimal, with or without an exponent (`mahjong/record/utils/value/general.py:2`) -/
def parseExp (s : Str) : Except PyErr Num :=
  match s.dropWhile noExponent with
  | [] => parsePlain s
  | _ :: e => do
    let n ← parsePlain (s.takeWhile noExponent)
    .ok (n.shift (← plainInt e))

/-- the texts of which `float(x)` is infinite (`mahjong/record/utils/value/general.py:2`) -/
def isInfinite (s : Str) : Bool :=
  let w := (signOf s).2.map Char.toLower
  decide (w = "inf".toList ∨ w = "infinity".toList)

/-- `int(float(x)) if int(float(x)) == float(x) else float(x)` of any text: white space around it and underscores between digits
    are allowed, the `int` of an infinite float raises `OverflowError`, the `int` of `nan` raises `ValueError`
    (`mahjong/record/utils/value/general.py:2-4`). -/
def parseWide (s : Str) : Except PyErr Num :=
  if isInfinite (stripSpace s) then .error .overflowError else
  match dropUnderscores false (stripSpace s) with
  | some t => parseExp t
  | none => .error .valueError

/-- `int(float(x)) if int(float(x)) == float(x) else float(x)`.  A plain decimal is read at once, which gives the same.
    Decimals are exact here (see `Num`), so no float is too large; digits other than the ASCII ones are not modelled
    (`mahjong/record/utils/value/general.py:2-4`). -/
def parseNum (s : Str) : Except PyErr Num :=
  match parsePlain s with
  | .ok n => .ok n
  | .error _ => parseWide s

/-- `number_list` (`mahjong/record/utils/value/general.py:1-5`). -/
def numberList (s : Str) : Except PyErr (List Num) := (splitOn ',' s).mapM parseNum

/-- `number_list` where the entries are used as tile numbers: a fractional entry, which the code would
    carry along as a float, is an error here (`mahjong/record/utils/value/general.py:1-5`). -/
def Num.toInt : Num → Except PyErr Int
  | .int n => .ok n
  | .dec _ _ => .error .typeError

/-- `number_list` of tile numbers (`mahjong/record/utils/value/general.py:1-5`) -/
def intList (s : Str) : Except PyErr (List Int) := do
  let l ← numberList s
  l.mapM Num.toInt

/-- `is_game_init`, `is_open_hand`, `is_dora_indicator_event` (`mahjong/record/utils/event.py:13-22`). -/
def isGameInit (e : Event) : Bool := decide (e.tag = "INIT".toList)
/-- `is_open_hand` (`mahjong/record/utils/event.py:17-18`) -/
def isOpenHand (e : Event) : Bool := decide (e.tag = "N".toList)
/-- `is_dora_indicator_event` (`mahjong/record/utils/event.py:21-22`) -/
def isDora (e : Event) : Bool := decide (e.tag = "DORA".toList)
/-- `is_somebody_win_game`, `is_nobody_win_game`, `is_richii` (`mahjong/record/utils/event.py:25-34`). -/
def isRichii (e : Event) : Bool := decide (e.tag = "REACH".toList)
/-- `is_somebody_win_game` (`mahjong/record/utils/event.py:29-30`) -/
def isSomebodyWin (e : Event) : Bool := decide (e.tag = "AGARI".toList)
/-- `is_nobody_win_game` (`mahjong/record/utils/event.py:33-34`) -/
def isNobodyWin (e : Event) : Bool := decide (e.tag = "RYUUKYOKU".toList)

/-- `DRAW_INDICATOR`, `DISCARD_INDICATOR` (`mahjong/record/utils/constant.py:5,8`). -/
def DRAW_INDICATOR : List Char := ['T', 'U', 'V', 'W']
/-- `DISCARD_INDICATOR` (`mahjong/record/utils/constant.py:8`) -/
def DISCARD_INDICATOR : List Char := ['D', 'E', 'F', 'G']

/-- `re.match(r"^<c>([0-9]+)", tag)` and `int(group(1))` (`mahjong/record/utils/constant.py:114-115`): the
    longest run of digits after the letter; the rest of the tag is not looked at. -/
def prefixNumber (c : Char) : Str → Option Int
  | [] => none
  | d :: t =>
    if d = c then
      let ds := t.takeWhile isDigit
      if ds = [] then none else some (digitsVal 0 ds)
    else none

/-- `re.match(r"^[<cs>]([0-9]+)$", tag)` (`mahjong/record/utils/constant.py:6-10`): `$` also accepts one
    trailing newline. -/
def wholeNumber (cs : List Char) : Str → Option (Char × Int)
  | [] => none
  | d :: t =>
    if d ∈ cs then
      let ds := t.takeWhile isDigit
      let rest := t.dropWhile isDigit
      if ds ≠ [] ∧ (rest = [] ∨ rest = ['\n']) then some (d, digitsVal 0 ds) else none
    else none

/-- `draw_value`, `discard_value` (`mahjong/record/utils/event.py:37-46`); `none` is `None`. -/
def drawValue (e : Event) : Option Int := (wholeNumber DRAW_INDICATOR e.tag).map (fun r => r.2)
/-- `discard_value` (`mahjong/record/utils/event.py:43-46`) -/
def discardValue (e : Event) : Option Int := (wholeNumber DISCARD_INDICATOR e.tag).map (fun r => r.2)

/-- `is_event_triggered_by_player` (`mahjong/record/player.py:7-8`). -/
def triggeredBy (e : Event) (player : Fin 4) (tag : Str) : Except PyErr Bool := do
  if e.tag = tag then
    let w ← pyInt (← e.get "who".toList)
    pure (decide (w = player.val))
  else pure false

/-- `TenhouPlayer.is_draw` with `draw_tile_index` (`mahjong/record/player.py:35-41`). -/
def playerDraw (player : Fin 4) (e : Event) : Option Int :=
  prefixNumber (DRAW_INDICATOR.getD player.val ' ') e.tag
/-- `TenhouPlayer.is_discard` with `discard_tile_index` (`mahjong/record/player.py:43-49`). -/
def playerDiscard (player : Fin 4) (e : Event) : Option Int :=
  prefixNumber (DISCARD_INDICATOR.getD player.val ' ') e.tag
/-- `TenhouPlayer.is_open_hand`, `is_reach`, `is_win` (`mahjong/record/player.py:51-52,60-64`). -/
def playerOpenHand (player : Fin 4) (e : Event) : Except PyErr Bool := triggeredBy e player "N".toList
/-- `is_reach` of a player (`mahjong/record/player.py:60-61`) -/
def playerReach (player : Fin 4) (e : Event) : Except PyErr Bool := triggeredBy e player "REACH".toList
/-- `is_win` of a player (`mahjong/record/player.py:63-64`) -/
def playerWin (player : Fin 4) (e : Event) : Except PyErr Bool := triggeredBy e player "AGARI".toList

/-- `is_player_choice` (`mahjong/record/player.py:54-55`). -/
def playerChoice (player : Fin 4) (e : Event) : Except PyErr Bool := do
  if (playerDiscard player e).isSome then pure true
  else if ← playerOpenHand player e then pure true
  else playerWin player e

/-- `meld_from` (`mahjong/record/utils/value/meld.py:367-381`) on an event. -/
def meldFrom (e : Event) : Except PyErr Meld := do
  let who ← pyInt (← e.get "who".toList)
  let m ← pyInt (← e.get "m".toList)
  meldOf who m

end Verif.Model
