import Verif.Py.Base
import Verif.Py.Regex

/-!
Python string operations on lists of characters.
-/
namespace Verif.Py
open Verif.Model (PyErr)

/-- texts are lists of characters (all of /repo/mahjong, e.g. `mahjong/record/utils/event.py:13-38`) -/
abbrev Str := List Char

/-- white space as `str.split()`, `str.strip()`, `int` and `float` see it: the 29 characters for which `str.isspace` holds
    (`mahjong/record/utils/bit.py:8`, `mahjong/record/universe/tenhou/event_definition.py:196`). -/
def isSpace (c : Char) : Bool :=
  let n := c.toNat
  if n ≤ 32 then (9 ≤ n && n ≤ 13) || 28 ≤ n
  else if n < 133 then false
  else n == 0x85 || n == 0xA0 || n == 0x1680 || (0x2000 ≤ n && n ≤ 0x200A) || n == 0x2028 || n == 0x2029 || n == 0x202F ||
    n == 0x205F || n == 0x3000

/-- `s.split(sep)` for a one-character separator: always at least one part
    (`mahjong/record/utils/bit.py:10,16`, `mahjong/record/utils/value/general.py:5`). -/
def splitOn (sep : Char) : Str → List Str
  | [] => [[]]
  | c :: s =>
    if c = sep then [] :: splitOn sep s
    else match splitOn sep s with
      | p :: ps => (c :: p) :: ps
      | [] => [[c]]

/-- `s.split()`: maximal runs of non-space characters (`mahjong/record/utils/bit.py:8,14`). -/
def splitSpace : Str → List Str
  | [] => []
  | c :: s =>
    if isSpace c then splitSpace s
    else match s, splitSpace s with
      | [], _ => [[c]]
      | d :: _, ps => if isSpace d then [c] :: ps else
        match ps with
        | p :: ps => (c :: p) :: ps
        | [] => [[c]]

/-- value of a string of ASCII digits (`int` in `mahjong/record/utils/event.py:40,46`) -/
def digitsVal (acc : Int) : Str → Int
  | [] => acc
  | c :: s => digitsVal (acc * 10 + digitVal c) s

/-- `int(s)` for an optional sign and ASCII digits; anything else raises `ValueError`
    (`mahjong/record/player.py`, `mahjong/record/reader.py:64,84`) -/
def plainInt (s : Str) : Except PyErr Int :=
  match s with
  | [] => .error .valueError
  | c :: t =>
    if c = '-' then
      if t ≠ [] ∧ t.all isDigit then .ok (-(digitsVal 0 t)) else .error .valueError
    else if c = '+' then
      if t ≠ [] ∧ t.all isDigit then .ok (digitsVal 0 t) else .error .valueError
    else if s.all isDigit then .ok (digitsVal 0 s) else .error .valueError

/-- `s.strip()`, which `int` and `float` do first (`mahjong/record/player.py`, `mahjong/record/utils/value/general.py:2`) -/
def stripSpace (s : Str) : Str := ((s.dropWhile isSpace).reverse.dropWhile isSpace).reverse

/-- `int` and `float` ignore underscores between two digits and refuse others; `prev` says whether a digit stands in front
    (`mahjong/record/player.py`, `mahjong/record/utils/value/general.py:2`) -/
def dropUnderscores (prev : Bool) : Str → Option Str
  | [] => some []
  | c :: s =>
    if c = '_' then
      match s with
      | d :: _ => if prev && isDigit d then dropUnderscores false s else none
      | [] => none
    else (dropUnderscores (isDigit c) s).map (c :: ·)

/-- `int(s)` for a string: an optional sign and digits, with white space around them and underscores between digits allowed;
    anything else raises `ValueError`.  A text of digits is read at once, which gives the same.
    (Digits other than the ASCII ones, which Python also accepts, are not modelled.)
    (`mahjong/record/player.py`, `mahjong/record/reader.py:64,84`) -/
def pyInt (s : Str) : Except PyErr Int :=
  match plainInt s with
  | .ok n => .ok n
  | .error _ =>
    match dropUnderscores false (stripSpace s) with
    | some t => plainInt t
    | none => .error .valueError

/-- decimal digits of a natural number, most significant first, given enough fuel
    (`str` of numbers, e.g. `mahjong/tile/definition.py:101-105`) -/
def natDigitsFuel : Nat → Nat → Str
  | 0, _ => []
  | f + 1, n => if n < 10 then [Char.ofNat (48 + n)] else natDigitsFuel f (n / 10) ++ [Char.ofNat (48 + n % 10)]

/-- decimal digits of a natural number (`str` of numbers, e.g. `mahjong/tile/definition.py:101-105`) -/
def natDigits (n : Nat) : Str := natDigitsFuel (n + 1) n

/-- `str(n)` / `"%d" % n` for an integer (e.g. `mahjong/tile/definition.py:101-105`, `mahjong/record/reader.py:105-118`). -/
def pyStrInt (n : Int) : Str := if n < 0 then '-' :: natDigits n.natAbs else natDigits n.natAbs

/-- `sep.join(parts)` for a one-character separator
    (`mahjong/record/universe/tenhou/event_definition.py:217`, `mahjong/record/reader.py:109,167`). -/
def joinWith (sep : Char) : List Str → Str
  | [] => []
  | [p] => p
  | p :: ps => p ++ sep :: joinWith sep ps

end Verif.Py
