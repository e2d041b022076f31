import Verif.Model.Stage

/-! What grouping by stages means, without iterators. -/
namespace Verif.Spec
open Verif.Model
variable {α κ : Type}

/-- the keys are some copies of the first stage, then some copies of the second, and so on -/
def InOrder (stages keys : List κ) : Prop :=
  ∃ counts : List Nat, counts.length = stages.length ∧
    keys = (List.zipWith (fun n s => List.replicate n s) counts stages).flatten

/-- keys that can stand in one group: listed stages in order, or one repeated key that is not listed -/
def OneGroup (stages keys : List κ) : Prop :=
  keys ≠ [] ∧ (InOrder stages keys ∨ ∃ k n, k ∉ stages ∧ keys = List.replicate n k)

/-- every group runs as long as the keys allow -/
def Maximal (stages : List κ) (key : α → κ) : List (List α) → Prop
  | [] => True
  | [_] => True
  | g :: h :: gs => (∀ x, h.head? = some x → ¬ OneGroup stages ((g ++ [x]).map key)) ∧ Maximal stages key (h :: gs)

/-- the partition of the input into groups -/
structure StageGroups (stages : List κ) (key : α → κ) (input : List α) (groups : List (List α)) : Prop where
  concat : groups.flatten = input
  valid : ∀ g ∈ groups, OneGroup stages (g.map key)
  maximal : Maximal stages key groups

/-- what is returned with a group: the stages from that of its first element on, or its unlisted key -/
def GroupKey [DecidableEq κ] (stages : List κ) (key : α → κ) (g : List α) (t : Tgt κ) : Prop :=
  ∃ x rest, g = x :: rest ∧
    ((key x ∉ stages ∧ t = .unknown (some (key x))) ∨
     (∃ before after, stages = before ++ key x :: after ∧ key x ∉ before ∧ t = .stages (key x :: after)))

end Verif.Spec
