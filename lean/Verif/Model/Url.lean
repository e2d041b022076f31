import Verif.Py.Str

/-! Log ids and URLs (`mahjong/record/reader.py:27-39`). -/
namespace Verif.Model
open Verif.Py

/-- the part after the first `c`, if there is one (used in `mahjong/record/reader.py:34`) -/
def afterFirst (c : Char) : Str → Option Str
  | [] => none
  | d :: s => if d = c then some s else afterFirst c s

/-- `urlparse(url).query` of the standard library: the fragment starts at the first `#`, the query at the first
    `?` before it.  Scheme, network location and path never contain these two characters.  (Not modelled:
    stripping of control characters and spaces, and the errors for malformed network locations.)
    (used in `mahjong/record/reader.py:34`) -/
def urlQuery (url : Str) : Str :=
  (afterFirst '?' (url.takeWhile (fun c => decide (c ≠ '#')))).getD []

/-- `str.replace('+', ' ')` and `unquote`; text without `%` is left alone, otherwise `decode` is what the
    library's percent-decoder does (used in `mahjong/record/reader.py:34`). -/
def unquotePlus (decode : Str → Str) (s : Str) : Str :=
  let r := s.map (fun c => if c = '+' then ' ' else c)
  if '%' ∈ r then decode r else r

/-- the pieces of a query: separated by `&`, and before Python 3.9.2 also by `;` (`semi`)
    (used in `mahjong/record/reader.py:34`). -/
def queryPieces (semi : Bool) (q : Str) : List Str :=
  if semi then (splitOn '&' q).flatMap (splitOn ';') else splitOn '&' q

/-- `name_value.split('=', 1)` (used in `mahjong/record/reader.py:34`) -/
def splitEq : Str → Option (Str × Str)
  | [] => none
  | c :: s => if c = '=' then some ([], s) else (splitEq s).map (fun p => (c :: p.1, p.2))

/-- one piece of a query: pieces without `=` or with an empty value are dropped (`parse_qsl` of the standard
    library without `keep_blank_values`) (used in `mahjong/record/reader.py:34`). -/
def queryPair (decode : Str → Str) (nv : Str) : Option (Str × Str) :=
  match splitEq nv with
  | none => none
  | some (n, v) => if v = [] then none else some (unquotePlus decode n, unquotePlus decode v)

/-- `parse_qsl` of the standard library (used in `mahjong/record/reader.py:34`). -/
def parseQsl (decode : Str → Str) (semi : Bool) (q : Str) : List (Str × Str) :=
  (queryPieces semi q).filterMap (queryPair decode)

/-- `log_id_from_url` (`mahjong/record/reader.py:33-35`): `parse_qs(...)['log'][0]`. -/
def logIdFromUrl (decode : Str → Str) (semi : Bool) (url : Str) : Except PyErr Str :=
  match (parseQsl decode semi (urlQuery url)).lookup "log".toList with
  | some v => .ok v
  | none => .error .keyError

/-- `log_id_to_url` (`mahjong/record/reader.py:38-39`). -/
def logIdToUrl (id : Str) : Str := "http://tenhou.net/0/?log=".toList ++ id

/-- `download_url` (`mahjong/record/reader.py:27-30`) with `API_URL_TEMPLATE`
    (`mahjong/record/utils/constant.py:116`). -/
def downloadUrl (decode : Str → Str) (semi : Bool) (url : Str) : Except PyErr Str := do
  let id ← logIdFromUrl decode semi url
  pure ("http://e.mjv.jp/0/log/?".toList ++ id)

end Verif.Model
