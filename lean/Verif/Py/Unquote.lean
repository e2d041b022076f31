import Verif.Py.Str

/-! `urllib.parse.unquote` of the standard library with its defaults (UTF-8, `errors='replace'`), used by
    `mahjong/record/player.py:17`. -/
namespace Verif.Py

/-- value of a hexadecimal digit (`_hexdig` of `urllib.parse`: both cases)
    (`urllib.parse.unquote` as used in `mahjong/record/player.py:17`) -/
def hexValue (c : Char) : Option Nat :=
  if '0'.toNat ≤ c.toNat ∧ c.toNat ≤ '9'.toNat then some (c.toNat - '0'.toNat)
  else if 'a'.toNat ≤ c.toNat ∧ c.toNat ≤ 'f'.toNat then some (c.toNat - 'a'.toNat + 10)
  else if 'A'.toNat ≤ c.toNat ∧ c.toNat ≤ 'F'.toNat then some (c.toNat - 'A'.toNat + 10)
  else none

/-- `unquote_to_bytes` of ASCII text: `%` and two hexadecimal digits are a byte, any other `%` stays
    (`urllib.parse.unquote` as used in `mahjong/record/player.py:17`). -/
def percentBytes : Str → List Nat
  | [] => []
  | [c] => [c.toNat]
  | [c, d] => [c.toNat, d.toNat]
  | c :: a :: b :: s =>
    if c = '%' then
      match hexValue a, hexValue b with
      | some x, some y => (16 * x + y) :: percentBytes s
      | _, _ => c.toNat :: percentBytes (a :: b :: s)
    else c.toNat :: percentBytes (a :: b :: s)

/-- the replacement character (`urllib.parse.unquote` as used in `mahjong/record/player.py:17`) -/
def replacementChar : Char := Char.ofNat 0xFFFD

/-- what a byte at the start of a character means to the UTF-8 decoder: a character of its own, the first byte of a longer
    one (bits so far, bytes to come, bounds of the next byte), or nothing valid
    (`urllib.parse.unquote` as used in `mahjong/record/player.py:17`) -/
inductive Lead where
  | char (c : Char)
  | more (bits left lo hi : Nat)
  | bad

/-- what a first byte means (`urllib.parse.unquote` as used in `mahjong/record/player.py:17`) -/
def leadByte (b : Nat) : Lead :=
  if b < 0x80 then .char (Char.ofNat b)
  else if b < 0xC2 then .bad
  else if b < 0xE0 then .more (b - 0xC0) 1 0x80 0xBF
  else if b = 0xE0 then .more 0 2 0xA0 0xBF
  else if b = 0xED then .more 0xD 2 0x80 0x9F
  else if b < 0xF0 then .more (b - 0xE0) 2 0x80 0xBF
  else if b = 0xF0 then .more 0 3 0x90 0xBF
  else if b < 0xF4 then .more (b - 0xF0) 3 0x80 0xBF
  else if b = 0xF4 then .more 4 3 0x80 0x8F
  else .bad

/-- `bytes.decode('utf-8', 'replace')`: every longest prefix of a character that does not go on properly, and every byte
    no character starts with, becomes one replacement character.  The first argument is an unfinished character
    (`urllib.parse.unquote` as used in `mahjong/record/player.py:17`). -/
def utf8Replace : Option (Nat × Nat × Nat × Nat) → List Nat → Str
  | none, [] => []
  | some _, [] => [replacementChar]
  | none, b :: l =>
    match leadByte b with
    | .char c => c :: utf8Replace none l
    | .more bits left lo hi => utf8Replace (some (bits, left, lo, hi)) l
    | .bad => replacementChar :: utf8Replace none l
  | some (bits, left, lo, hi), b :: l =>
    if lo ≤ b ∧ b ≤ hi then
      if left = 1 then Char.ofNat (bits * 64 + (b - 0x80)) :: utf8Replace none l
      else utf8Replace (some (bits * 64 + (b - 0x80), left - 1, 0x80, 0xBF)) l
    else
      match leadByte b with
      | .char c => replacementChar :: c :: utf8Replace none l
      | .more bits left lo hi => replacementChar :: utf8Replace (some (bits, left, lo, hi)) l
      | .bad => replacementChar :: replacementChar :: utf8Replace none l

/-- `unquote`, given the run of ASCII characters before: runs of ASCII characters are decoded, others stay
    (`_asciire.split`) (`urllib.parse.unquote` as used in `mahjong/record/player.py:17`). -/
def unquoteRuns : Str → Str → Str
  | run, [] => utf8Replace none (percentBytes run)
  | run, c :: s =>
    if c.toNat < 128 then unquoteRuns (run ++ [c]) s
    else utf8Replace none (percentBytes run) ++ c :: unquoteRuns [] s

/-- `unquote` (`urllib.parse.unquote` as used in `mahjong/record/player.py:17`) -/
def unquote (s : Str) : Str := if '%' ∈ s then unquoteRuns [] s else s

end Verif.Py
