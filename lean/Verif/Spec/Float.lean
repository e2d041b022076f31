import Mathlib.Algebra.Order.Field.Rat
import Mathlib.Algebra.Order.Group.Unbundled.Abs

/-! The numbers a Python float can hold, as far as the exponent is not limited. -/
namespace Verif.Spec

/-- a whole number of at most 53 bits times a power of two -/
def IsDouble (q : ℚ) : Prop := ∃ m e : ℤ, |m| ≤ 2 ^ 53 ∧ q = m * (2 : ℚ) ^ e

/-- `d` is a float and no float is nearer to `q` -/
def NearestDouble (q d : ℚ) : Prop := IsDouble d ∧ ∀ c, IsDouble c → |d - q| ≤ |c - q|

end Verif.Spec
