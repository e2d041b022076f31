import Verif.Spec.Flatten
import Verif.Model.Frame

/-! Tables of records. -/
namespace Verif.Spec
open Verif.Py Verif.Model

/-- whoever an event names as its player sits at the table -/
def Seated (e : Event) : Prop := ∀ w n, e.attrib.lookup "who".toList = some w → pyInt w = .ok n → 0 ≤ n ∧ n < 4

/-- a tag made of letters followed by a number, as the draws and discards have -/
def NumberedAs (tag name number : Str) : Prop :=
  tag = name ++ number ∧ name ≠ [] ∧ number ≠ [] ∧
    (∀ c ∈ name, ('A' ≤ c ∧ c ≤ 'Z') ∨ ('a' ≤ c ∧ c ≤ 'z')) ∧ (∀ c ∈ number, '0' ≤ c ∧ c ≤ '9')

/-- an element as the XML parser gives it: attribute names differ and contain no `<`, tags no newline -/
def Element (e : Event) : Prop :=
  (e.attrib.map Prod.fst).Nodup ∧ (∀ a ∈ e.attrib, '<' ∉ a.1) ∧ '\n' ∉ e.tag

end Verif.Spec
