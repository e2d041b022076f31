import Verif.Py.Str

/-!
What the tag of a draw or a discard looks like: a letter and a decimal number.
-/
namespace Verif.Spec
open Verif.Py

/-- the value of a text of decimal digits -/
def decimal (ds : Str) : Nat := ds.foldl (fun a d => 10 * a + (d.toNat - '0'.toNat)) 0

/-- one or more decimal digits -/
def DigitText (ds : Str) : Prop := ds ≠ [] ∧ ∀ d ∈ ds, '0' ≤ d ∧ d ≤ '9'

/-- `tag` is the letter `c`, one of `letters`, and the digits of `n`, nothing else but perhaps a newline at the end -/
def Numbered (letters : String) (tag : Str) (c : Char) (n : Nat) : Prop :=
  c ∈ letters.toList ∧ ∃ ds, DigitText ds ∧ decimal ds = n ∧ (tag = c :: ds ∨ tag = c :: ds ++ ['\n'])

/-- `tag` begins with the letter `c` and the digits of `n`; anything but another digit may follow -/
def Begins (c : Char) (tag : Str) (n : Nat) : Prop :=
  ∃ ds rest, DigitText ds ∧ decimal ds = n ∧ tag = c :: ds ++ rest ∧ ∀ d r, rest = d :: r → ¬ ('0' ≤ d ∧ d ≤ '9')

end Verif.Spec
