import Verif.Py.Str

/-!
`mahjong/record/utils/bit.py`: bit-field descriptions.  The library call `bitstruct.compile(fmt)` is
modelled for the formats used: a `>` (most significant bit first) followed by fields `u<n>` (unsigned) and
`b<n>` (boolean), unpacked from and packed into the two bytes of `struct.pack(">H", value)`.
-/
namespace Verif.Model
open Verif.Py

/-- One field of a description line such as `kui:u2` (`mahjong/record/utils/bit.py:8-16`). -/
structure Field where
  name : Str
  width : Nat
  deriving DecidableEq, Repr

/-- one line of a description: `line.split(":")[0]` is the name, `[1]` the format letter and width
    (`mahjong/record/utils/bit.py:10,16`). -/
def parseField (line : Str) : Option Field :=
  match splitOn ':' line with
  | name :: fmt :: _ =>
    match fmt with
    | c :: w => if (c = 'u' ∨ c = 'b') ∧ w ≠ [] ∧ w.all isDigit then some ⟨name, (digitsVal 0 w).toNat⟩ else none
    | [] => none
  | _ => none

/-- `desc_str.strip().split()` (`mahjong/record/utils/bit.py:8,14`), the lines in description order.
    `none` stands for a description `bitstruct` would reject. -/
def parseDesc (desc : Str) : Option (List Field) := (splitSpace desc).mapM parseField

/-- `to_bit_bytes` (`mahjong/record/utils/bit.py:27-29`): `struct.pack(">H", value)` raises
    `struct.error` outside 0..65535; the two bytes are kept as the number they stand for. -/
def toBitBytes (value : Int) : Except PyErr Int :=
  if 0 ≤ value ∧ value ≤ 65535 then .ok value else .error .structError

/-- unpack the fields of widths `ws`, most significant first, from a number whose `rest` low bits are
    still unread (`bitstruct` as used in `mahjong/record/utils/bit.py:20`). -/
def unpackMsb : List Nat → Nat → Int → List Int
  | [], _, _ => []
  | w :: ws, rest, v => (v / 2 ^ (rest - w)) % 2 ^ w :: unpackMsb ws (rest - w) v

/-- pack fields most significant first (`bitstruct` as used in `mahjong/record/utils/bit.py:24`). -/
def packMsb : List (Nat × Int) → Int → Int
  | [], acc => acc
  | (w, x) :: r, acc => packMsb r (acc * 2 ^ w + x)

/-- `unpack_with` (`mahjong/record/utils/bit.py:19-20`): the named tuple, as (name, value) pairs in the
    reversed description order (`:8-9,14-15`).  Defined for descriptions of 16 bits. -/
def unpackWith (desc : List Field) (value : Int) : Except PyErr (List (Str × Int)) :=
  match toBitBytes value with
  | .error e => .error e
  | .ok v => .ok ((desc.reverse.map (fun f => f.name)).zip (unpackMsb (desc.reverse.map (fun f => f.width)) 16 v))

/-- `repack_to` (`mahjong/record/utils/bit.py:23-24`). -/
def repackTo (desc : List Field) (values : List Int) : Int :=
  packMsb ((desc.reverse.map (fun f => f.width)).zip values) 0

/-- attribute access on the named tuple; a missing name raises `AttributeError`
    (`mahjong/record/utils/value/gametype.py:37-69`, `mahjong/record/utils/value/meld.py:119-137`). -/
def field (data : List (Str × Int)) (name : Str) : Except PyErr Int :=
  match data.lookup name with
  | some v => .ok v
  | none => .error .attributeError

end Verif.Model
