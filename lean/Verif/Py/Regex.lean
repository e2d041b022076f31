/-!
The part of Python's `re` used by the library: a backtracking matcher over character classes.
`Re.run r s` lists the remaining texts after each way `r` can match a prefix of `s`, in the order the
backtracking engine tries them; `re` takes the first.
-/
namespace Verif.Py

/-- the regular expressions needed (`re` as used in `mahjong/container/utils.py:8-16`) -/
inductive Re where
  | cls (p : Char → Bool)          -- one character of a class
  | plus (p : Char → Bool)         -- greedy `[..]+`
  | seq (a b : Re)
  | alt (a b : Re)

/-- the ways a greedy `[..]*` can match, longest first (`re` as used in `mahjong/container/utils.py:8-16`) -/
def starRun (p : Char → Bool) : List Char → List (List Char)
  | [] => [[]]
  | c :: s => if p c then starRun p s ++ [c :: s] else [c :: s]

/-- what is left behind every possible match, in the order tried (`re` as used in `mahjong/container/utils.py:8-16`) -/
def Re.run : Re → List Char → List (List Char)
  | .cls _, [] => []
  | .cls p, c :: s => if p c then [s] else []
  | .plus _, [] => []
  | .plus p, c :: s => if p c then starRun p s else []
  | .seq a b, s => (a.run s).flatMap b.run
  | .alt a b, s => a.run s ++ b.run s

/-- `re.match`: the matched text and the rest (`re` as used in `mahjong/container/utils.py:8-16`). -/
def Re.matchPrefix (r : Re) (s : List Char) : Option (List Char × List Char) :=
  match r.run s with
  | [] => none
  | rest :: _ => some (s.take (s.length - rest.length), rest)

/-- `re.finditer`: scan from the left; after a match continue behind it, otherwise one character
    further.  `fuel` bounds the number of scan steps (`finditer_fuel`: the length of the text is
    enough).  The patterns used never match the empty text (`re` as used in `mahjong/container/utils.py:8-16`). -/
def Re.finditerAux (r : Re) : Nat → List Char → List (List Char)
  | 0, _ => []
  | _ + 1, [] => []
  | fuel + 1, c :: s =>
    match r.matchPrefix (c :: s) with
    | some (m, rest) => m :: r.finditerAux fuel rest
    | none => r.finditerAux fuel s

/-- `re.finditer` (`re` as used in `mahjong/container/utils.py:8-16`) -/
def Re.finditer (r : Re) (s : List Char) : List (List Char) := r.finditerAux s.length s

/-- the ASCII digit class `[0-9]`
    (used for tags in `mahjong/record/utils/constant.py:6-10` and notation in `mahjong/container/utils.py`) -/
def isDigit (c : Char) : Bool := decide ('0' ≤ c ∧ c ≤ '9')

/-- `int(c)` of an ASCII digit (`re` as used in `mahjong/container/utils.py:8-16`). -/
def digitVal (c : Char) : Int := (c.toNat : Int) - 48

/-- `str(n)` of a digit (`re` as used in `mahjong/container/utils.py:8-16`). -/
def digitChar (n : Int) : Char := Char.ofNat (48 + n.toNat)

end Verif.Py
