import Verif.Spec.Command

/-! Flat tables of nested dictionaries. -/
namespace Verif.Spec
open Verif.Py Verif.Model

/-- every dictionary in the tree has each key once, as Python's dictionaries do -/
def Dicts (t : Tree) : Prop := ∀ p kids, reads t p = some (.node kids) → (kids.map Prod.fst).Nodup

/-- the property a path ends in, if it ends in one -/
def lastProp (p : List Key) : Option View :=
  match p.getLast? with
  | some (.prop v) => some v
  | _ => none

/-- how the value of a property is written: texts as they are, everything else as JSON; `showVal` is what Python's
    `str` gives for a value that is no text in a text property -/
def cellText (showVal : Val → Str) (k : PropKind) (x : Val) : Str :=
  if k = .text then (match x with | .str s => s | x => showVal x) else jsonDumps x

/-- `t` is how the value `x` at a place is written; `w` is the property there, if it is one -/
def WrittenAs (showVal : Val → Str) (w : Option View) (x : Val) (t : Str) : Prop :=
  match w with
  | none => t = jsonDumps x
  | some v => ∃ k, HasKind v k ∧ t = cellText showVal k x

end Verif.Spec
