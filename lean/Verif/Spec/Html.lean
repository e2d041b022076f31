import Verif.Py.Str

/-!
What a browser makes of a page: characters and tags, the tree of elements, and what can be looked up in it.  This
is independent of how pages are made.  Only what a simple page needs is described: every element that is not void has
its closing tag, character references are those of `entity`, and anything else is not accepted.
-/
namespace Verif.Spec.Html
open Verif.Py (Str)

/-- a character shown, or a tag: the text between `<` and `>` -/
inductive Token where
  | chr (c : Char)
  | tag (raw : Str)
  deriving DecidableEq, Repr

/-- where the reader of a page is: in text, in a character reference, or in a tag and there possibly in quotes -/
inductive Mode where
  | data
  | ref (name : Str)
  | tag (raw : Str) (quote : Option Char)

/-- character references -/
def entity (name : Str) : Option Char :=
  if name = "amp".toList then some '&'
  else if name = "lt".toList then some '<'
  else if name = "gt".toList then some '>'
  else if name = "#34".toList then some '"'
  else if name = "#39".toList then some '\''
  else if name = "nbsp".toList then some (Char.ofNat 160)
  else none

/-- the characters and tags of a page -/
def lex : Mode → Str → Option (List Token)
  | .data, [] => some []
  | _, [] => none
  | .data, c :: s =>
    if c = '<' then lex (.tag [] none) s
    else if c = '&' then lex (.ref []) s
    else (lex .data s).map (Token.chr c :: ·)
  | .ref name, c :: s =>
    if c = ';' then
      match entity name with
      | some d => (lex .data s).map (Token.chr d :: ·)
      | none => none
    else lex (.ref (name ++ [c])) s
  | .tag raw none, c :: s =>
    if c = '>' then (lex .data s).map (Token.tag raw :: ·)
    else lex (.tag (raw ++ [c]) (if c = '"' ∨ c = '\'' then some c else none)) s
  | .tag raw (some q), c :: s => lex (.tag (raw ++ [c]) (if c = q then none else some q)) s

/-- a sequence of trees: characters, and elements with their tag and what they contain -/
inductive Forest where
  | nil
  | text (c : Char) (rest : Forest)
  | el (raw : Str) (inside rest : Forest)

/-- the name of a tag -/
def tagName (raw : Str) : Str := raw.takeWhile (fun c => decide (c ≠ ' '))

/-- tags without a closing tag -/
def isVoid (name : Str) : Bool := name ∈ ["!DOCTYPE", "meta", "hr", "br"].map String.toList

/-- elements that wait for their opening tag, with what follows them, and what has been read after the last tag -/
abbrev Reading := Option (List (Str × Forest) × Forest)

/-- Tokens are put together from the last to the first: a closing tag starts an element, the opening tag of the same
    name completes it. -/
def put : Token → Reading → Reading
  | _, none => none
  | .chr c, some (stack, f) => some (stack, .text c f)
  | .tag raw, some (stack, f) =>
    match raw with
    | '/' :: name => some ((name, f) :: stack, .nil)
    | _ =>
      if isVoid (tagName raw) then some (stack, .el raw .nil f)
      else
        match stack with
        | (name, after) :: stack => if name = tagName raw then some (stack, .el raw f after) else none
        | [] => none

/-- the trees of a page, if all of it is well formed -/
def document (page : Str) : Option Forest :=
  match lex .data page with
  | none => none
  | some tokens =>
    match tokens.foldr put (some ([], .nil)) with
    | some ([], f) => some f
    | _ => none

/-! ### Looking things up -/

/-- the text in a sequence of trees, without tags -/
def Forest.content : Forest → Str
  | .nil => []
  | .text c r => c :: r.content
  | .el _ i r => i.content ++ r.content

/-- all tags -/
def Forest.tags : Forest → List Str
  | .nil => []
  | .text _ r => r.tags
  | .el raw i r => raw :: (i.tags ++ r.tags)

/-- the elements with a name that are not inside other elements: the tag and what is inside -/
def Forest.children (name : String) : Forest → List (Str × Forest)
  | .nil => []
  | .text _ r => r.children name
  | .el raw i r => if tagName raw = name.toList then (raw, i) :: r.children name else r.children name

/-- the parts of a text between occurrences of a character -/
def parts (sep : Char) : Str → List Str
  | [] => [[]]
  | c :: s =>
    match parts sep s with
    | p :: ps => if c = sep then [] :: p :: ps else (c :: p) :: ps
    | [] => []

/-- the parts of a tag outside of quotes; parts inside and outside take turns -/
def outside : List Str → List Str
  | [] => []
  | [a] => [a]
  | a :: _ :: l => a :: outside l

/-- the text of a value in quotes, with character references resolved -/
def resolved (s : Str) : Option Str :=
  (lex .data s).map (fun l => l.filterMap (fun t => match t with
    | .chr c => some c
    | .tag _ => none))

/-- the value of the attribute of a tag with only one attribute, `name key="value"` -/
def attrValue (key : String) (raw : Str) : Option Str :=
  match parts '"' raw with
  | [before, value, []] => if before = tagName raw ++ ' ' :: key.toList ++ ['='] then resolved value else none
  | _ => none

/-- the pictures in a sequence of trees: the classes that begin with `pic`, in order -/
def Forest.pictures : Forest → List Str
  | .nil => []
  | .text _ r => r.pictures
  | .el raw i r =>
    (match attrValue "class" raw with
     | some v => if "pic".toList <+: v then [v] else []
     | none => []) ++ i.pictures ++ r.pictures

/-- white space between words -/
def blank (c : Char) : Bool := decide (c = ' ' ∨ c = '\n')

/-- the words of a text -/
def words (s : Str) : List Str := ((s.map (fun c => if blank c then ' ' else c)) |> parts ' ').filter (fun w => decide (w ≠ []))

/-! ### The page of the record checker -/

/-- an item of the list of choices: the pictures of the discard, the words beside it, and the pictures of the tiles
    expected -/
structure ShownItem where
  discard : List Str
  words : List Str
  useful : List Str
  deriving DecidableEq

/-- a row of a game: its style, the texts and pictures of its five cells -/
structure ShownRow where
  style : Str
  number : Str
  hand : List Str
  choice : List Str
  expected : List Str
  /-- the words in the four cells of the small table -/
  summary : List (List Str)
  items : List ShownItem
  /-- the words and the items of the two lists that open separately -/
  more : List (List Str × List ShownItem)
  deriving DecidableEq

/-- the item inside an element -/
def readItem (f : Forest) : Option ShownItem :=
  match f.children "div" with
  | [(_, a), (_, b)] => some ⟨a.pictures, words a.content, b.pictures⟩
  | _ => none

/-- all of a list, if every element can be read -/
def readAll {α β : Type} (f : α → Option β) : List α → Option (List β)
  | [] => some []
  | a :: l =>
    match f a, readAll f l with
    | some b, some bs => some (b :: bs)
    | _, _ => none

/-- a list that opens separately -/
def readMore (f : Forest) : Option (List Str × List ShownItem) :=
  match f.children "summary", readAll (fun e => readItem e.2) (f.children "div") with
  | [(_, s)], some items => some (words s.content, items)
  | _, _ => none

/-- the cells of all rows of a table -/
def tableCells (f : Forest) : List Forest :=
  (f.children "table").flatMap (fun t => (t.2.children "tr").flatMap (fun r => (r.2.children "td").map (fun c => c.2)))

/-- a row of a game -/
def readRow (row : Str × Forest) : Option ShownRow :=
  match attrValue "style" row.1, row.2.children "td" with
  | some style, [(_, a), (_, b), (_, c), (_, d), (_, e)] =>
    match e.children "details" with
    | [(_, body)] =>
      match body.children "summary", readAll (fun e => readItem e.2) (body.children "div"),
        readAll (fun e => readMore e.2) (body.children "details") with
      | [(_, s)], some items, some more =>
        some ⟨style, a.content, b.pictures, c.pictures, d.pictures, (tableCells s).map (fun c => words c.content), items, more⟩
      | _, _, _ => none
    | _ => none
  | _, _ => none

/-- a game: the caption, and the rows after the one with the headings -/
def readGame (f : Forest) : Option (Str × List ShownRow) :=
  match f.children "summary", f.children "table" with
  | [(_, s)], [(_, t)] =>
    match t.children "tr" with
    | _ :: rows =>
      match readAll readRow rows with
      | some rows => some (s.content, rows)
      | none => none
    | [] => none
  | _, _ => none

/-- what is inside of the body of a page -/
def readBody (page : Str) : Option Forest :=
  match document page with
  | none => none
  | some f =>
    match f.children "html" with
    | [(_, h)] =>
      match h.children "body" with
      | [(_, b)] => some b
      | _ => none
    | _ => none

/-- the text of the style sheet of a page -/
def readStyle (page : Str) : Option Str :=
  match document page with
  | none => none
  | some f =>
    match f.children "html" with
    | [(_, h)] =>
      match h.children "head" with
      | [(_, b)] =>
        match b.children "style" with
        | [(_, s)] => some s.content
        | _ => none
      | _ => none
    | _ => none

/-! ### Base64 -/

/-- the six bits a character stands for -/
def sixBits (c : Char) : Option Nat :=
  if 'A' ≤ c ∧ c ≤ 'Z' then some (c.toNat - 'A'.toNat)
  else if 'a' ≤ c ∧ c ≤ 'z' then some (c.toNat - 'a'.toNat + 26)
  else if '0' ≤ c ∧ c ≤ '9' then some (c.toNat - '0'.toNat + 52)
  else if c = '+' then some 62
  else if c = '/' then some 63
  else none

/-- the bytes a base64 text stands for: four characters are 24 bits and give three bytes; the last four can end in one or
    two `=` and give two bytes or one -/
def base64Bytes : Str → Option (List Nat)
  | [] => some []
  | a :: b :: c :: d :: s =>
    match sixBits a, sixBits b with
    | some w, some x =>
      if c = '=' ∧ d = '=' ∧ s = [] then some [w * 4 + x / 16]
      else
        match sixBits c with
        | none => none
        | some y =>
          if d = '=' ∧ s = [] then some [w * 4 + x / 16, x % 16 * 16 + y / 4]
          else
            match sixBits d, base64Bytes s with
            | some z, some l => some ([w * 4 + x / 16, x % 16 * 16 + y / 4, y % 4 * 64 + z] ++ l)
            | _, _ => none
    | _, _ => none
  | _ => none

/-- the games of a page: the elements `details` in the `div`s of its body -/
def readGames (page : Str) : Option (List (Str × List ShownRow)) :=
  match readBody page with
  | some b => readAll (fun d => readGame d.2) ((b.children "div").flatMap (fun d => d.2.children "details"))
  | none => none

/-- the paragraphs of a page -/
def readParagraphs (page : Str) : Option (List Str) :=
  (readBody page).map (fun b => (b.children "p").map (fun p => p.2.content))

/-- the texts and targets of the links in the paragraphs of a page -/
def readLinks (page : Str) : Option (List (Str × Option Str)) :=
  (readBody page).map (fun b => (b.children "p").flatMap (fun p =>
    (p.2.children "a").map (fun a => (a.2.content, attrValue "href" a.1))))

end Verif.Spec.Html
