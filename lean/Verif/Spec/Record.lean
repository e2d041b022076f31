import Verif.Model.Record

/-! Final standings and record chunks, specified directly. -/
namespace Verif.Spec
open Verif.Model

/-- `a` is the smaller decimal number -/
def Smaller (a b : Num) : Prop := a.num * 10 ^ b.scale < b.num * 10 ^ a.scale

instance (a b : Num) : Decidable (Smaller a b) := inferInstanceAs (Decidable (_ < _))

/-- seat `q` finishes before seat `p`: a higher score, or the same score and a lower seat -/
def Before (scores : List Num) (q p : Nat) : Prop :=
  match scores[q]?, scores[p]? with
  | some a, some b => Smaller b a ∨ (¬ Smaller a b ∧ q < p)
  | _, _ => False

instance (scores : List Num) (q p : Nat) : Decidable (Before scores q p) := by
  unfold Before
  split <;> infer_instance

/-- the place of seat `p` among the first `n` seats: one plus the number of seats finishing before it -/
def place (scores : List Num) (n p : Nat) : Nat := ((List.range n).filter (fun q => decide (Before scores q p))).length + 1

end Verif.Spec
