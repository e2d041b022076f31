import Verif.Py.Xml

/-!
The grammar of XML documents, for the part of XML that records use: an optional declaration, elements, attributes with
references, white space.  `ElemText e t`: the element `e` may be written as the text `t`.
-/
namespace Verif.Spec
open Verif.Py

/-- white space -/
def Blank (s : Str) : Prop := ∀ c ∈ s, c = ' ' ∨ c = '\t' ∨ c = '\n' ∨ c = '\r'

/-- a character that documents may have (XML 1.0, production 2) -/
def DocChar (n : Nat) : Prop :=
  n = 0x9 ∨ n = 0xA ∨ n = 0xD ∨ (0x20 ≤ n ∧ n ≤ 0xD7FF) ∨ (0xE000 ≤ n ∧ n ≤ 0xFFFD) ∨ (0x10000 ≤ n ∧ n ≤ 0x10FFFF)

/-- a tag or the name of an attribute -/
def IsName (s : Str) : Prop :=
  ∃ c t, s = c :: t ∧ (('a' ≤ c ∧ c ≤ 'z') ∨ ('A' ≤ c ∧ c ≤ 'Z') ∨ c = '_') ∧
    ∀ x ∈ t, ('a' ≤ x ∧ x ≤ 'z') ∨ ('A' ≤ x ∧ x ≤ 'Z') ∨ ('0' ≤ x ∧ x ≤ '9') ∨ x = '_' ∨ x = '-' ∨ x = '.'

/-- `ds` are digits to the base `base`, most significant first, of the number `n` -/
inductive DigitsOf (base : Nat) (digit : Char → Nat → Prop) : Str → Nat → Prop
  | one {c d} : digit c d → DigitsOf base digit [c] d
  | more {ds n c d} : DigitsOf base digit ds n → digit c d → DigitsOf base digit (ds ++ [c]) (n * base + d)

/-- a decimal digit -/
def RefDecDigit (c : Char) (d : Nat) : Prop := d < 10 ∧ c.toNat = '0'.toNat + d

/-- a hexadecimal digit, of either case -/
def RefHexDigit (c : Char) (d : Nat) : Prop :=
  RefDecDigit c d ∨ (10 ≤ d ∧ d < 16 ∧ (c.toNat + 10 = 'a'.toNat + d ∨ c.toNat + 10 = 'A'.toNat + d))

/-- the texts of a reference to a character, without `&` and `;` -/
inductive RefText : Char → Str → Prop
  | amp : RefText '&' "amp".toList
  | lt : RefText '<' "lt".toList
  | gt : RefText '>' "gt".toList
  | quot : RefText '"' "quot".toList
  | apos : RefText '\'' "apos".toList
  | dec {c ds} : DigitsOf 10 RefDecDigit ds c.toNat → DocChar c.toNat → RefText c ('#' :: ds)
  | hex {c ds} : DigitsOf 16 RefHexDigit ds c.toNat → DocChar c.toNat → RefText c ('#' :: 'x' :: ds)

/-- the texts of a value between the quotes `q`: a character as it is or as a reference; white space stands for a space -/
inductive ValueText (q : Char) : Str → Str → Prop
  | nil : ValueText q [] []
  | char {c v t} : c ≠ q → c ≠ '<' → c ≠ '&' → ¬ Blank [c] → DocChar c.toNat → ValueText q v t → ValueText q (c :: v) (c :: t)
  | blank {c v t} : Blank [c] → ¬ (c = '\r' ∧ t.head? = some '\n') → ValueText q v t → ValueText q (' ' :: v) (c :: t)
  | newline {v t} : ValueText q v t → ValueText q (' ' :: v) ('\r' :: '\n' :: t)
  | ref {c v r t} : RefText c r → ValueText q v t → ValueText q (c :: v) ('&' :: r ++ ';' :: t)

/-- the texts of the attributes of an element -/
inductive AttrsText : List (Str × Str) → Str → Prop
  | nil : AttrsText [] []
  | cons {w n w1 w2 q v t as u} : Blank w → w ≠ [] → IsName n → Blank w1 → Blank w2 → (q = '"' ∨ q = '\'') → ValueText q v t →
      AttrsText as u → AttrsText ((n, v) :: as) (w ++ n ++ w1 ++ '=' :: w2 ++ q :: t ++ q :: u)

mutual
/-- the texts of an element -/
inductive ElemText : Elem → Str → Prop
  | empty {n as t w} : IsName n → (as.map Prod.fst).Nodup → AttrsText as t → Blank w →
      ElemText (.mk n as []) ('<' :: n ++ t ++ w ++ "/>".toList)
  | full {n as t w kids u w2} : IsName n → (as.map Prod.fst).Nodup → AttrsText as t → Blank w → ContentText kids u → Blank w2 →
      ElemText (.mk n as kids) ('<' :: n ++ t ++ w ++ '>' :: u ++ "</".toList ++ n ++ w2 ++ ">".toList)
/-- the texts of the elements in an element -/
inductive ContentText : List Elem → Str → Prop
  | nil {w} : Blank w → ContentText [] w
  | cons {w e t es u} : Blank w → ElemText e t → ContentText es u → ContentText (e :: es) (w ++ t ++ u)
end

/-- a declaration: `<?xml`, white space, anything, `?>` -/
def IsDecl (s : Str) : Prop := ∃ c t, Blank [c] ∧ ¬ "?>".toList <:+: (t ++ "?".toList) ∧ s = "<?xml".toList ++ c :: t ++ "?>".toList

/-- the texts of a document -/
def DocText (e : Elem) (s : Str) : Prop :=
  ∃ decl w t w2, (decl = [] ∨ IsDecl decl) ∧ Blank w ∧ ElemText e t ∧ Blank w2 ∧ s = decl ++ w ++ t ++ w2

end Verif.Spec
