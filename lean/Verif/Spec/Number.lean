import Verif.Model.Event
import Verif.Spec.Tags
import Mathlib.Algebra.Field.Rat

/-! What a number of the state is worth, and which texts write a number. -/
namespace Verif.Spec
open Verif.Py Verif.Model

/-- a whole number is worth itself, a decimal `m` with `k` decimals is worth `m / 10 ^ k` -/
def worth : Num → ℚ
  | .int n => n
  | .dec m k => m / 10 ^ k

/-- digits without a sign, with or without a decimal point, that write `q`: `12`, `12.`, `.5`, `12.50` -/
def Decimal (s : Str) (q : ℚ) : Prop :=
  (DigitText s ∧ q = decimal s) ∨
  ∃ a b, s = a ++ '.' :: b ∧ DigitText (a ++ b) ∧ q = decimal (a ++ b) / 10 ^ b.length

/-- the text `s` writes the number `q`: digits, with a sign in front or without -/
def WritesNum (s : Str) (q : ℚ) : Prop :=
  Decimal s q ∨ (∃ t, s = '+' :: t ∧ Decimal t q) ∨ (∃ t, s = '-' :: t ∧ Decimal t (-q))

/-- the code points of white space: tab to carriage return, the four separators, space, and the spaces outside ASCII -/
def whiteCodes : List Nat :=
  [0x09, 0x0A, 0x0B, 0x0C, 0x0D, 0x1C, 0x1D, 0x1E, 0x1F, 0x20, 0x85, 0xA0, 0x1680, 0x2000, 0x2001, 0x2002, 0x2003, 0x2004, 0x2005,
   0x2006, 0x2007, 0x2008, 0x2009, 0x200A, 0x2028, 0x2029, 0x202F, 0x205F, 0x3000]

/-- `c` is white space -/
def White (c : Char) : Prop := c.toNat ∈ whiteCodes

instance (c : Char) : Decidable (White c) := by unfold White; infer_instance

/-- `s` is `t` with white space around it -/
def Padded (s t : Str) : Prop :=
  ∃ a b, s = a ++ t ++ b ∧ (∀ c ∈ a, White c) ∧ ∀ c ∈ b, White c

/-- `t` is `s` without its underscores, each of which stands between two digits -/
def Grouped (s t : Str) : Prop :=
  t = s.filter (fun c => c ≠ '_') ∧ ∀ a b, s = a ++ '_' :: b →
    (∃ a' d, a = a' ++ [d] ∧ '0' ≤ d ∧ d ≤ '9') ∧ ∃ d b', b = d :: b' ∧ '0' ≤ d ∧ d ≤ '9'

/-- digits, with a sign in front or without, that write the whole number `k` -/
def WritesInt (s : Str) (k : Int) : Prop :=
  (DigitText s ∧ k = decimal s) ∨ (∃ t, s = '+' :: t ∧ DigitText t ∧ k = decimal t) ∨
    ∃ t, s = '-' :: t ∧ DigitText t ∧ k = -decimal t

/-- a decimal, perhaps with an exponent behind it: `12.5`, `1.25e1`, `125E-1` -/
def Scientific (s : Str) (q : ℚ) : Prop :=
  WritesNum s q ∨ ∃ m c z r k, s = m ++ c :: z ∧ (c = 'e' ∨ c = 'E') ∧ WritesNum m r ∧ WritesInt z k ∧ q = r * 10 ^ k

/-- every text that Python's `float` takes for the number `q` (with digits `0` to `9`) -/
def NumberText (s : Str) (q : ℚ) : Prop := ∃ t u, Padded s t ∧ Grouped t u ∧ Scientific u q

/-- every text that Python's `int` takes for the whole number `k` (with digits `0` to `9`) -/
def IntText (s : Str) (k : Int) : Prop := ∃ t u, Padded s t ∧ Grouped t u ∧ WritesInt u k

/-- every text that Python's `float` takes for an infinite number -/
def InfinityText (s : Str) : Prop :=
  ∃ t w, Padded s t ∧ (t = w ∨ t = '+' :: w ∨ t = '-' :: w) ∧
    (w.map Char.toLower = "inf".toList ∨ w.map Char.toLower = "infinity".toList)

end Verif.Spec
