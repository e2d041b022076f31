/-!
Specification of mixed-radix numbering (the order in which `itertools.product` of ranges lists tuples).
-/
namespace Verif.Spec

/-- Product of the sizes. -/
def prodI : List Int → Int
  | [] => 1
  | t :: ts => t * prodI ts

/-- The position of a tuple of digits: the first digit is the most significant one. -/
def radix : List Int → List Int → Int
  | _ :: ts, d :: ds => d * prodI ts + radix ts ds
  | _, _ => 0

/-- A tuple with one digit per size, each digit in range. -/
def Digits (ts ds : List Int) : Prop :=
  ds.length = ts.length ∧ ∀ j (h : j < ts.length) (h' : j < ds.length), 0 ≤ ds[j] ∧ ds[j] < ts[j]

/-- All sizes positive. -/
def Positive (ts : List Int) : Prop := ∀ t ∈ ts, 0 < t

end Verif.Spec
