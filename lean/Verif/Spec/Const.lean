import Verif.Py.Str

/-! Dora and tile sets, and URLs with query parameters, specified directly. -/
namespace Verif.Spec
open Verif.Py

/-- the text of a tile: one digit and the suit letter -/
def txt (n : Nat) (s : Char) : Str := [Char.ofNat (48 + n), s]

/-- the tiles shown by an indicator: the successor in its suit -/
def Shows (n : Nat) (s : Char) (shown : List Str) : Prop :=
  (s ∈ ['m', 'p', 's'] ∧
    ((n = 0 ∧ shown = [txt 6 s]) ∨
     (n = 4 ∧ shown = [txt 5 s, txt 0 s]) ∨
     (n = 9 ∧ shown = [txt 1 s]) ∨
     (1 ≤ n ∧ n ≤ 8 ∧ n ≠ 4 ∧ shown = [txt (n + 1) s]))) ∨
  (s = 'z' ∧
    ((1 ≤ n ∧ n ≤ 3 ∧ shown = [txt (n + 1) s]) ∨ (n = 4 ∧ shown = [txt 1 s]) ∨
     (5 ≤ n ∧ n ≤ 6 ∧ shown = [txt (n + 1) s]) ∨ (n = 7 ∧ shown = [txt 5 s])))

/-- how many copies of a tile are in play: four of each, one of the fives being red when red fives are used;
    three players play without the twos to eights of characters -/
def copies (three aka : Bool) (n : Nat) (s : Char) : Nat :=
  if s ∈ ['m', 'p', 's'] ∧ n ≤ 9 then
    if three ∧ s = 'm' ∧ n ≠ 1 ∧ n ≠ 9 then 0
    else if n = 0 then (if aka then 1 else 0)
    else if n = 5 ∧ aka then 3
    else 4
  else if s = 'z' ∧ 1 ≤ n ∧ n ≤ 7 then 4
  else 0

/-- what a piece of a query means: `+` is a space, and a text with `%` is what the percent-decoder makes of it -/
def queryText (decode : Str → Str) (s : Str) : Str :=
  if '%' ∈ s then decode (s.map (fun c => if c = '+' then ' ' else c)) else s.map (fun c => if c = '+' then ' ' else c)

/-- a query parameter that is not `log`: no separators, and the decoded text before its first `=` is not `log` -/
def Extra (decodeName : Str → Str) (p : Str) : Prop :=
  '&' ∉ p ∧ ';' ∉ p ∧ '#' ∉ p ∧ ∀ n v, p = n ++ '=' :: v → '=' ∉ n → decodeName n ≠ "log".toList

end Verif.Spec
