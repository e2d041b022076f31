import Verif.Py.Xml
import Verif.Model.Record
import Verif.Model.Describe
import Verif.Model.Frame

/-!
From the text of a document to the record and the tables made of it.
-/
namespace Verif.Model
open Verif.Py

/-- what the program uses of an element: its tag and its attributes.  `TenhouRecord(root)` goes through the children of the root
    (`mahjong/record/reader.py:137`), `_event_df_iter(root)` too (`mahjong/record/util_functions.py:36-37`). -/
def eventsOf (root : Elem) : List Event := root.children.map (fun e => ⟨e.tag, e.attrib⟩)

/-- `TenhouRecord(ET.fromstring(text))` and `TenhouRecord(next(ET.parse(file).iter()))` for a file with this text
    (`mahjong/record/reader.py:193-198`); `none` is a `ParseError`.  The download, the file system and the decoding of bytes
    are not modelled. -/
def recordOfText (text : Str) : Option (Except PyErr TRecord) := (xmlParse text).map (fun root => TRecord.make (eventsOf root))

/-- `TenhouEvent.__str__` (`mahjong/record/utils/event.py:109-112`).  The element has no text, no children and nothing but the
    next tag behind it, as in the records of the site; `ET.tostring` would write white space behind the element too. -/
def eventText (iter : List Int → List Int) (e : Event) : Except PyErr Str := do
  pure ((← baseText iter e) ++ ':' :: xmlText e.tag e.attrib)

/-- `os.path.split(path)[-1]` (`posixpath`): what stands after the last `/`
    (`mahjong/record/util_functions.py:56`) -/
def pathTail (path : Str) : Str := (path.reverse.takeWhile (fun c => c ≠ '/')).reverse

/-- `os.path.splitext(name)[0]` (`genericpath._splitext`) for a name without `/`: the text before the last dot, unless nothing but
    dots stands there (`mahjong/record/util_functions.py:57`). -/
def dropExt (name : Str) : Str :=
  if '.' ∈ name then
    let front := ((name.reverse.dropWhile (fun c => c ≠ '.')).tail).reverse
    if front.any (fun c => c ≠ '.') then front else name
  else name

/-- `log_id` in `light_dataframe_from_file` (`mahjong/record/util_functions.py:56-57`) -/
def logIdOfPath (path : Str) : Str := dropExt (pathTail path)

/-- `light_dataframe_from_file` (`mahjong/record/util_functions.py:54-60`) for a file with this text: rows and their `log_id` -/
def lightDf (abstract : Bool) (path text : Str) : Option (List (DfRow × Str)) :=
  (xmlParse text).map (fun root => (eventDf abstract (eventsOf root)).map (fun r => (r, logIdOfPath path)))

end Verif.Model
