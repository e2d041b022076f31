import Verif.Spec.Flatten
import Verif.Model.StateCsv

/-! What a table of states is, and what pandas may make of its texts. -/
namespace Verif.Spec
open Verif.Py Verif.Model

/-- what pandas may make of a text that is written in a file: the text; a truth value; a number; a missing value -/
inductive TableCell : Str → Cell → Prop where
  | text (t : Str) : TableCell t (.text t)
  | true : TableCell "true".toList (.bool Bool.true)
  | false : TableCell "false".toList (.bool Bool.false)
  | num (n : Num) : TableCell (numText n) (.num n)
  | null : TableCell "null".toList .nan

/-- `cols` is the table with the rows `rows`: one column for every place that occurs in a row, labelled with the texts of
    its keys, and in every row the cell of the text the row has there, or an empty one -/
structure TableOf (rows : List (List (List Key × Str))) (places : List (List Key)) (cols : List (List Str × List Cell)) :
    Prop where
  covers : ∀ p, p ∈ places ↔ ∃ row ∈ rows, p ∈ row.map Prod.fst
  labels : cols.map Prod.fst = places.map (fun p => p.map Key.label)
  heights : ∀ col ∈ cols, col.2.length = rows.length
  cells : ∀ (i k : Nat) p col row c, places[i]? = some p → cols[i]? = some col → rows[k]? = some row → col.2[k]? = some c →
    (∀ t, (p, t) ∈ row → TableCell t c) ∧ (p ∉ row.map Prod.fst → c = .nan)

/-- the sub-scope a property can have: a player 0 to 3 for properties of players, "all" for the others -/
def SeatOf (sub : Sub) (v : View) : Prop :=
  match v.scope with
  | .player => ∃ p : Fin 4, sub = .num (p.val : Int)
  | _ => sub = Sub.all

/-- a key of an executor's states; texts are any that have not exactly one dot -/
def StateKey : Key → Prop
  | .text s => s.count '.' ≠ 1
  | .scope _ => True
  | .player _ => True
  | .prop v => IsProperty v

end Verif.Spec
