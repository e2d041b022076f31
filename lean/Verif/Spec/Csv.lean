import Verif.Model.CsvFile
import Verif.Spec.Number
import Verif.Spec.Command

/-! What pandas may make of the texts of a file. -/
namespace Verif.Spec
open Verif.Py Verif.Model

/-- texts that stand for a missing value -/
def missingTexts : List Str :=
  ["", "#N/A", "#N/A N/A", "#NA", "-1.#IND", "-1.#QNAN", "-NaN", "-nan", "1.#IND", "1.#QNAN", "<NA>", "N/A", "NA", "NULL", "NaN",
   "None", "n/a", "nan", "null"].map String.toList

/-- texts that stand for a truth value -/
def boolTexts (b : Bool) : List Str := (if b then ["True", "TRUE", "true"] else ["False", "FALSE", "false"]).map String.toList

/-- a text of digits, signs, points, exponents and blanks, or a way to write infinity -/
def numberLike (s : Str) : Bool :=
  (s.all (fun c => isDigit c || "+-.eE \t".toList.contains c) && s.any isDigit) ||
  ["inf".toList, "+inf".toList, "-inf".toList, "infinity".toList, "+infinity".toList, "-infinity".toList].contains
    ((s.filter (fun c => decide (c ≠ ' ') && decide (c ≠ '\t'))).map Char.toLower)

/-- What a cell of the text `s` may be read as: as missing if the text says so, and otherwise as the text, or as the number or
    truth value it writes; texts such as `1e5` that look like numbers but are no decimals, as any number.  Which of these depends on
    the other cells of the column. -/
def CellRead (s : Str) : Cell → Prop
  | .nan => s ∈ missingTexts
  | .text t => t = s ∧ s ∉ missingTexts
  | .bool b => s ∈ boolTexts b
  | .num n => NumOk n ∧ numberLike s = true ∧ ∀ q, WritesNum s q → q = worth n

/-- a text that can only be read as itself -/
def PlainText (s : Str) : Prop := ∀ c, CellRead s c → c = .text s

/-- pandas reads every cell in one of these ways, and a column of whole numbers of at most 63 bits as numbers -/
structure PandasReads (pandas : List (List Str) → List (List Cell)) : Prop where
  cells : ∀ rows, List.Forall₂ (List.Forall₂ CellRead) rows (pandas rows)
  whole : ∀ rows j, (∀ row ∈ rows, ∃ n : Int, n.natAbs < 2 ^ 63 ∧ (row : List Str)[(j : Nat)]? = some (pyStrInt n)) →
    ∀ row ∈ pandas rows, ∃ n : Num, row[j]? = some (Cell.num n)

/-- a command for a table: of an existing property, with a timestamp, for everybody or for a player by number -/
structure Storable (c : Cmd) : Prop where
  kind : ∃ k, HasKind c.prop k
  value : ValOk c.value
  state : ValOk c.state
  sub : c.sub = Sub.all ∨ ∃ n : Nat, c.sub = .num n
  timestamp : ∃ n : Int, c.timestamp = some n ∧ n.natAbs < 2 ^ 63

/-- The command `c'` is what is read for `c`: it has the same property, update method, event, timestamp and sub-scope; the same
    value and state if the property is no text; and otherwise the texts they were written as, if those can only be read as texts,
    and the text `nan` if they stand for a missing value; texts anyway. -/
structure ReadAs (showVal : Val → Str) (c c' : Cmd) : Prop where
  prop : c'.prop = c.prop
  update : c'.update = c.update
  event : c'.event = c.event
  timestamp : c'.timestamp = c.timestamp
  sub : c'.sub = c.sub
  exact : ¬ HasKind c.prop .text → c'.value = c.value ∧ c'.state = c.state
  text : HasKind c.prop .text →
    (PlainText (pyStrVal showVal c.value) → c'.value = .str (pyStrVal showVal c.value)) ∧
    (PlainText (pyStrVal showVal c.state) → c'.state = .str (pyStrVal showVal c.state)) ∧
    (pyStrVal showVal c.value ∈ missingTexts → c'.value = .str "nan".toList) ∧
    (pyStrVal showVal c.state ∈ missingTexts → c'.state = .str "nan".toList)
  texts : HasKind c.prop .text → (∃ s, c'.value = .str s) ∧ ∃ s, c'.state = .str s

end Verif.Spec
