import Verif.Spec.Values

/-! Which events of a record say nothing the converter knows. -/
namespace Verif.Spec
open Verif.Py Verif.Model

/-- an element of another name than those of a record: not one of the eleven named ones, no draw and no discard -/
def Unknown (e : Event) : Prop :=
  (∀ s ∈ ["INIT", "N", "GO", "TAIKYOKU", "UN", "DORA", "REACH", "AGARI", "SHUFFLE", "BYE", "RYUUKYOKU"], e.tag ≠ s.toList) ∧
  (∀ c n, ¬ Numbered "TUVW" e.tag c n) ∧ ∀ c n, ¬ Numbered "DEFG" e.tag c n

/-- an event that says nothing: of unknown name, a riichi that is neither step 1 nor step 2, or an element `UN` that
    names nobody -/
def Silent (e : Event) : Prop :=
  Unknown e ∨
  (e.tag = "REACH".toList ∧ e.get "step".toList ≠ .ok "1".toList ∧ e.get "step".toList ≠ .ok "2".toList) ∨
  (e.tag = "UN".toList ∧ ∀ p, p < 4 → ¬ Enters p e)

end Verif.Spec
