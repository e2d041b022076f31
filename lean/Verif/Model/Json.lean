import Verif.Model.Value

/-!
`json.dumps` and `json.loads` of the standard library, as used by
`mahjong/record/universe/property_manager.py:79-91`, on the values of `Model/Value.lean`.

Left out: dictionaries, NaN and infinities, numbers with exponents, lone surrogates (a Lean `Char` is never
one).  A non-integral number is written with all its decimals (`repr` of a float switches to an exponent below
1e-4 and from 1e16 on, and rounds to binary).
-/
namespace Verif.Model
open Verif.Py

/-- a hexadecimal digit, lower case (`json` as used in `mahjong/record/universe/property_manager.py:81`) -/
def hexDigit (n : Nat) : Char := if n < 10 then Char.ofNat (48 + n) else Char.ofNat (87 + n)

/-- `'\\u{0:04x}'.format(n)` (`json` as used in `mahjong/record/universe/property_manager.py:81`) -/
def uEscape (n : Nat) : Str :=
  ['\\', 'u', hexDigit (n / 4096 % 16), hexDigit (n / 256 % 16), hexDigit (n / 16 % 16), hexDigit (n % 16)]

/-- the escape of one character (`py_encode_basestring_ascii`)
    (`json` as used in `mahjong/record/universe/property_manager.py:81`). -/
def jsonChar (c : Char) : Str :=
  if c = '"' then ['\\', '"']
  else if c = '\\' then ['\\', '\\']
  else if c = '\n' then ['\\', 'n']
  else if c = '\r' then ['\\', 'r']
  else if c = '\t' then ['\\', 't']
  else if c = Char.ofNat 12 then ['\\', 'f']
  else if c = Char.ofNat 8 then ['\\', 'b']
  else if 32 ≤ c.toNat ∧ c.toNat ≤ 126 then [c]
  else if c.toNat < 65536 then uEscape c.toNat
  else
    let n := c.toNat - 65536
    uEscape (55296 + n / 1024 % 1024) ++ uEscape (56320 + n % 1024)

/-- a text in quotes (`json` as used in `mahjong/record/universe/property_manager.py:81`) -/
def jsonStr (s : Str) : Str := '"' :: s.flatMap jsonChar ++ ['"']

/-- a decimal number in full (`json` as used in `mahjong/record/universe/property_manager.py:81`) -/
def decText (m : Int) (k : Nat) : Str :=
  let ds := natDigits m.natAbs
  let padded := List.replicate (k + 1 - ds.length) '0' ++ ds
  (if m < 0 then ['-'] else []) ++ padded.take (padded.length - k) ++ '.' :: padded.drop (padded.length - k)

/-- the text of a number (`json` as used in `mahjong/record/universe/property_manager.py:81`) -/
def numText : Num → Str
  | .int n => pyStrInt n
  | .dec m k => decText m k

mutual
/-- `json.dumps(x)` (`json` as used in `mahjong/record/universe/property_manager.py:81`) -/
def jsonDumps : Val → Str
  | .none => "null".toList
  | .bool true => "true".toList
  | .bool false => "false".toList
  | .num n => numText n
  | .str s => jsonStr s
  | .list [] => "[]".toList
  | .list (v :: l) => '[' :: (jsonDumps v ++ jsonItems l)
/-- `", "` before every further item, and the closing bracket
    (`json` as used in `mahjong/record/universe/property_manager.py:81`) -/
def jsonItems : List Val → Str
  | [] => [']']
  | v :: l => ',' :: ' ' :: (jsonDumps v ++ jsonItems l)
end

/-- white space of JSON (`json` as used in `mahjong/record/universe/property_manager.py:91`) -/
def jsonSpace (c : Char) : Bool := c = ' ' || c = '\t' || c = '\n' || c = '\r'
/-- a text without white space in front (`json` as used in `mahjong/record/universe/property_manager.py:91`) -/
def skipSpace (s : Str) : Str := s.dropWhile jsonSpace

/-- the value of a hexadecimal digit (`json` as used in `mahjong/record/universe/property_manager.py:91`) -/
def hexVal (c : Char) : Option Nat :=
  if '0' ≤ c ∧ c ≤ '9' then some (c.toNat - 48)
  else if 'a' ≤ c ∧ c ≤ 'f' then some (c.toNat - 87)
  else if 'A' ≤ c ∧ c ≤ 'F' then some (c.toNat - 55)
  else none

/-- four hexadecimal digits (`json` as used in `mahjong/record/universe/property_manager.py:91`) -/
def hex4 : Str → Option (Nat × Str)
  | a :: b :: c :: d :: r =>
    match hexVal a, hexVal b, hexVal c, hexVal d with
    | some a, some b, some c, some d => some (a * 4096 + b * 256 + c * 16 + d, r)
    | _, _, _, _ => none
  | _ => none

/-- the character after `\u`: a pair of surrogates is joined
    (`json` as used in `mahjong/record/universe/property_manager.py:91`) -/
def uChar (s : Str) : Option (Char × Str) :=
  match hex4 s with
  | none => none
  | some (n, r) =>
    if 55296 ≤ n ∧ n ≤ 56319 then
      match r with
      | '\\' :: 'u' :: r' =>
        match hex4 r' with
        | some (n2, r'') =>
          if 56320 ≤ n2 ∧ n2 ≤ 57343 then
            some (Char.ofNat (65536 + (n - 55296) * 1024 + (n2 - 56320)), r'')
          else none
        | none => none
      | _ => none
    else if 56320 ≤ n ∧ n ≤ 57343 then none
    else some (Char.ofNat n, r)

/-- `scanstring` after the opening quote (strict: control characters are refused); every step consumes a
    character, `fuel` is the length of the text
    (`json` as used in `mahjong/record/universe/property_manager.py:91`). -/
def scanString : Nat → Str → Option (Str × Str)
  | 0, _ => none
  | _ + 1, [] => none
  | f + 1, c :: s =>
    if c = '"' then some ([], s)
    else if c = '\\' then
      match s with
      | [] => none
      | e :: r =>
        if e = 'u' then
          match uChar r with
          | some (ch, r') => (scanString f r').map (fun p => (ch :: p.1, p.2))
          | none => none
        else
          let ch : Option Char :=
            if e = '"' then some '"' else if e = '\\' then some '\\' else if e = '/' then some '/'
            else if e = 'b' then some (Char.ofNat 8) else if e = 'f' then some (Char.ofNat 12)
            else if e = 'n' then some '\n' else if e = 'r' then some '\r' else if e = 't' then some '\t' else none
          match ch with
          | some ch => (scanString f r).map (fun p => (ch :: p.1, p.2))
          | none => none
    else if c.toNat < 32 then none
    else (scanString f s).map (fun p => (c :: p.1, p.2))

/-- the integer part of a number: `0` or digits not starting with `0`
    (`json` as used in `mahjong/record/universe/property_manager.py:91`) -/
def scanWhole : Str → Option (Str × Str)
  | [] => none
  | c :: s =>
    if c = '0' then some (['0'], s)
    else if isDigit c then some (c :: s.takeWhile isDigit, s.dropWhile isDigit)
    else none

/-- a number without its sign: `(0|[1-9]\d*)(\.\d+)?`
    (`json` as used in `mahjong/record/universe/property_manager.py:91`) -/
def scanAbs (neg : Bool) (body : Str) : Option (Num × Str) :=
  match scanWhole body with
  | none => none
  | some (whole, r) =>
    match r with
    | '.' :: r' =>
      let frac := r'.takeWhile isDigit
      if frac = [] then some (.int (if neg then -(digitsVal 0 whole) else digitsVal 0 whole), r)
      else
        let m := digitsVal 0 (whole ++ frac)
        some (Num.norm (if neg then -m else m) frac.length, r'.dropWhile isDigit)
    | _ => some (.int (if neg then -(digitsVal 0 whole) else digitsVal 0 whole), r)

/-- a number (`json` as used in `mahjong/record/universe/property_manager.py:91`) -/
def scanNumber : Str → Option (Num × Str)
  | [] => none
  | c :: s => if c = '-' then scanAbs true s else scanAbs false (c :: s)

mutual
/-- `scan_once` (`json` as used in `mahjong/record/universe/property_manager.py:91`) -/
def parseVal : Nat → Str → Option (Val × Str)
  | 0, _ => none
  | _ + 1, [] => none
  | f + 1, c :: s =>
    if c = '"' then (scanString (s.length + 1) s).map (fun p => (.str p.1, p.2))
    else if c = '[' then
      match skipSpace s with
      | ']' :: r => some (.list [], r)
      | r => (parseItems f r).map (fun p => (.list p.1, p.2))
    else if (c :: s).take 4 = "null".toList then some (.none, s.drop 3)
    else if (c :: s).take 4 = "true".toList then some (.bool true, s.drop 3)
    else if (c :: s).take 5 = "false".toList then some (.bool false, s.drop 4)
    else (scanNumber (c :: s)).map (fun p => (.num p.1, p.2))
/-- the items of an array, up to the closing bracket
    (`json` as used in `mahjong/record/universe/property_manager.py:91`) -/
def parseItems : Nat → Str → Option (List Val × Str)
  | 0, _ => none
  | f + 1, s =>
    match parseVal f s with
    | none => none
    | some (v, r) =>
      match skipSpace r with
      | c :: r' =>
        if c = ']' then some ([v], r')
        else if c = ',' then (parseItems f (skipSpace r')).map (fun p => (v :: p.1, p.2))
        else none
      | [] => none
end

/-- `json.loads(s)`; `JSONDecodeError` is a `ValueError`
    (`json` as used in `mahjong/record/universe/property_manager.py:91`). -/
def jsonLoads (s : Str) : Except PyErr Val :=
  match parseVal (s.length + 1) (skipSpace s) with
  | some (v, r) => if skipSpace r = [] then .ok v else .error .valueError
  | none => .error .valueError

end Verif.Model
