import Verif.Py.Str

/-!
XML documents: what `xml.etree.ElementTree` reads (`ET.fromstring`, `ET.parse`) and writes (`ET.tostring`).

Only tags, attributes and children are kept; the program never uses the text of an element.  Documents with text that is
not white space, with comments, `CDATA`, processing instructions, document types, names with other characters than
ASCII letters, digits, `_`, `-` and `.` (so also with namespaces) are refused here; expat reads them.
-/
namespace Verif.Py

/-- an element: tag, attributes in document order, children
    (`ElementTree` as used in `mahjong/record/reader.py:194,198`) -/
inductive Elem where
  | mk (tag : Str) (attrib : List (Str × Str)) (children : List Elem)

/-- `element.tag` (`ElementTree` as used in `mahjong/record/reader.py:194,198`) -/
def Elem.tag : Elem → Str
  | .mk t _ _ => t
/-- `element.attrib` (`ElementTree` as used in `mahjong/record/reader.py:194,198`) -/
def Elem.attrib : Elem → List (Str × Str)
  | .mk _ a _ => a
/-- `list(element)` (`ElementTree` as used in `mahjong/record/reader.py:194,198`) -/
def Elem.children : Elem → List Elem
  | .mk _ _ c => c

/-- white space in XML (`ElementTree` as used in `mahjong/record/reader.py:194,198`) -/
def xmlSpace (c : Char) : Bool := c = ' ' || c = '\t' || c = '\n' || c = '\r'

/-- characters a document may have (`ElementTree` as used in `mahjong/record/reader.py:194,198`) -/
def xmlChar (n : Nat) : Bool :=
  n = 9 || n = 10 || n = 13 || (32 ≤ n && n ≤ 0xD7FF) || (0xE000 ≤ n && n ≤ 0xFFFD) || (0x10000 ≤ n && n ≤ 0x10FFFF)

/-- characters that can start a name (ASCII) (`ElementTree` as used in `mahjong/record/reader.py:194,198`) -/
def nameStart (c : Char) : Bool := ('a' ≤ c && c ≤ 'z') || ('A' ≤ c && c ≤ 'Z') || c = '_'
/-- characters of a name (ASCII) (`ElementTree` as used in `mahjong/record/reader.py:194,198`) -/
def nameChar (c : Char) : Bool := nameStart c || isDigit c || c = '-' || c = '.'

/-- a name at the front of a text (`ElementTree` as used in `mahjong/record/reader.py:194,198`) -/
def scanName (s : Str) : Option (Str × Str) :=
  match s with
  | [] => none
  | c :: t => if nameStart c then some (c :: t.takeWhile nameChar, t.dropWhile nameChar) else none

/-- value of hexadecimal digits (`ElementTree` as used in `mahjong/record/reader.py:194,198`) -/
def xmlHex (c : Char) : Option Nat :=
  if '0' ≤ c ∧ c ≤ '9' then some (c.toNat - 48)
  else if 'a' ≤ c ∧ c ≤ 'f' then some (c.toNat - 87)
  else if 'A' ≤ c ∧ c ≤ 'F' then some (c.toNat - 55)
  else none
/-- value of a decimal digit (`ElementTree` as used in `mahjong/record/reader.py:194,198`) -/
def xmlDigit (c : Char) : Option Nat := if '0' ≤ c ∧ c ≤ '9' then some (c.toNat - 48) else none

/-- a number to a base, digit by digit; no digits are no number
    (`ElementTree` as used in `mahjong/record/reader.py:194,198`) -/
def scanDigits (digit : Char → Option Nat) (base acc : Nat) : Str → Option Nat
  | [] => some acc
  | c :: s =>
    match digit c with
    | some d => scanDigits digit base (acc * base + d) s
    | none => none

/-- the character with a number, if documents may have it
    (`ElementTree` as used in `mahjong/record/reader.py:194,198`) -/
def numberedChar (n : Option Nat) : Option Char :=
  match n with
  | some n => if xmlChar n then some (Char.ofNat n) else none
  | none => none

/-- the character for what stands between `&` and `;`
    (`ElementTree` as used in `mahjong/record/reader.py:194,198`) -/
def refChar (s : Str) : Option Char :=
  if s = "amp".toList then some '&'
  else if s = "lt".toList then some '<'
  else if s = "gt".toList then some '>'
  else if s = "quot".toList then some '"'
  else if s = "apos".toList then some '\''
  else match s with
    | '#' :: 'x' :: d :: ds => numberedChar (scanDigits xmlHex 16 0 (d :: ds))
    | '#' :: d :: ds => numberedChar (scanDigits xmlDigit 10 0 (d :: ds))
    | _ => none

/-- an attribute value up to the quote `q`: white space becomes a space each, the pair of a carriage return and a line feed one
    space; `ref` is an unfinished reference (`ElementTree` as used in `mahjong/record/reader.py:194,198`). -/
def scanValue (q : Char) : Option Str → Str → Option (Str × Str)
  | _, [] => none
  | some acc, c :: s =>
    if c = ';' then
      match refChar acc with
      | some ch => (scanValue q none s).map (fun p => (ch :: p.1, p.2))
      | none => none
    else scanValue q (some (acc ++ [c])) s
  | none, c :: s =>
    if c = q then some ([], s)
    else if c = '<' then none
    else if c = '&' then scanValue q (some []) s
    else if c = '\r' ∧ s.head? = some '\n' then scanValue q none s
    else if xmlSpace c then (scanValue q none s).map (fun p => (' ' :: p.1, p.2))
    else if xmlChar c.toNat then (scanValue q none s).map (fun p => (c :: p.1, p.2))
    else none

/-- one attribute without the white space in front: name, `=`, quoted value
    (`ElementTree` as used in `mahjong/record/reader.py:194,198`) -/
def scanAttr (s : Str) : Option ((Str × Str) × Str) :=
  match scanName s with
  | none => none
  | some (name, s) =>
    match s.dropWhile xmlSpace with
    | '=' :: s =>
      match s.dropWhile xmlSpace with
      | q :: s => if q = '"' ∨ q = '\'' then (scanValue q none s).map (fun p => ((name, p.1), p.2)) else none
      | [] => none
    | _ => none

/-- the attributes of a start tag; what is left begins with `/` or `>`
    (`ElementTree` as used in `mahjong/record/reader.py:194,198`) -/
def scanAttrs : Nat → Str → Option (List (Str × Str) × Str)
  | 0, _ => none
  | f + 1, s =>
    match s.dropWhile xmlSpace with
    | [] => none
    | c :: r =>
      if c = '/' ∨ c = '>' then some ([], c :: r)
      else if s.head?.any xmlSpace then
        match scanAttr (c :: r) with
        | none => none
        | some (a, s') => (scanAttrs f s').map (fun p => (a :: p.1, p.2))
      else none

mutual
/-- an element at the front of a text (`ElementTree` as used in `mahjong/record/reader.py:194,198`) -/
def scanElem : Nat → Str → Option (Elem × Str)
  | 0, _ => none
  | f + 1, s =>
    match s with
    | '<' :: s =>
      match scanName s with
      | none => none
      | some (name, s) =>
        match scanAttrs (s.length + 1) s with
        | none => none
        | some (attrib, s) =>
          if (attrib.map (fun a => a.1)).Nodup then
            match s with
            | '/' :: '>' :: s => some (.mk name attrib [], s)
            | '>' :: s =>
              match scanContent f s with
              | none => none
              | some (children, s) =>
                match scanName s with
                | none => none
                | some (name', s) =>
                  match s.dropWhile xmlSpace with
                  | '>' :: s => if name' = name then some (.mk name attrib children, s) else none
                  | _ => none
            | _ => none
          else none
    | _ => none
/-- the elements in an element, up to `</` (`ElementTree` as used in `mahjong/record/reader.py:194,198`) -/
def scanContent : Nat → Str → Option (List Elem × Str)
  | 0, _ => none
  | f + 1, s =>
    match s.dropWhile xmlSpace with
    | '<' :: '/' :: s => some ([], s)
    | s =>
      match scanElem f s with
      | none => none
      | some (e, s) => (scanContent f s).map (fun p => (e :: p.1, p.2))
end

/-- what stands after the first `?>` (`ElementTree` as used in `mahjong/record/reader.py:194,198`) -/
def afterDecl : Str → Option Str
  | [] => none
  | c :: s => if c = '?' ∧ s.head? = some '>' then some s.tail else afterDecl s

/-- a text without an XML declaration; its contents are not checked
    (`ElementTree` as used in `mahjong/record/reader.py:194,198`) -/
def stripDecl (s : Str) : Option Str :=
  match s with
  | '<' :: '?' :: 'x' :: 'm' :: 'l' :: c :: s => if xmlSpace c then afterDecl s else none
  | s => some s

/-- `ET.fromstring(text)`; `none` is a `ParseError` (`ElementTree` as used in `mahjong/record/reader.py:194,198`). -/
def xmlParse (text : Str) : Option Elem :=
  match stripDecl text with
  | none => none
  | some s =>
    match scanElem (text.length + 1) (s.dropWhile xmlSpace) with
    | some (e, s) => if s.all xmlSpace then some e else none
    | none => none

/-- a character of an attribute value as `ET.tostring` writes it (Python 3.9 and later), in ASCII
    (`mahjong/record/utils/event.py:111`) -/
def xmlEscape (c : Char) : Str :=
  if c = '&' then "&amp;".toList
  else if c = '<' then "&lt;".toList
  else if c = '>' then "&gt;".toList
  else if c = '"' then "&quot;".toList
  else if c = '\r' then "&#13;".toList
  else if c = '\n' then "&#10;".toList
  else if c = '\t' then "&#09;".toList
  else if c.toNat < 128 then [c]
  else '&' :: '#' :: natDigits c.toNat ++ [';']

/-- `ET.tostring(element).decode("utf-8")` of an element without text and children
    (`mahjong/record/utils/event.py:111`) -/
def xmlText (tag : Str) (attrib : List (Str × Str)) : Str :=
  '<' :: tag ++ attrib.flatMap (fun a => ' ' :: a.1 ++ '=' :: '"' :: a.2.flatMap xmlEscape ++ ['"']) ++ " />".toList

end Verif.Py
