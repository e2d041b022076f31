import Verif.Py.Str

/-! `markupsafe.escape` and `base64.standard_b64encode`, as the page template uses them. -/
namespace Verif.Py

/-- what `markupsafe.escape` puts in place of a character
    (autoescape of `mahjong/tenhou_record_check.py:143-146`) -/
def escapeChar (c : Char) : Str :=
  if c = '&' then "&amp;".toList
  else if c = '<' then "&lt;".toList
  else if c = '>' then "&gt;".toList
  else if c = '\'' then "&#39;".toList
  else if c = '"' then "&#34;".toList
  else [c]

/-- `markupsafe.escape(s)` for a text (autoescape of `mahjong/tenhou_record_check.py:143-146`) -/
def escape (s : Str) : Str := s.flatMap escapeChar

/-- the 64 characters of the standard alphabet (`mahjong/tenhou_record_check.py:148`) -/
def base64Alphabet : Str := "ABCDEFGHIJKLMNOPQRSTUVWXYZabcdefghijklmnopqrstuvwxyz0123456789+/".toList

/-- the character for six bits (`mahjong/tenhou_record_check.py:148`) -/
def base64Char (n : Nat) : Char := base64Alphabet.getD (n % 64) 'A'

/-- `base64.standard_b64encode(bytes).decode()`; bytes are numbers below 256
    (`mahjong/tenhou_record_check.py:148`). -/
def b64encode : List Nat → Str
  | [] => []
  | [a] => [base64Char (a / 4), base64Char (a % 4 * 16), '=', '=']
  | [a, b] => [base64Char (a / 4), base64Char (a % 4 * 16 + b / 16), base64Char (b % 16 * 4), '=']
  | a :: b :: c :: l =>
    base64Char (a / 4) :: base64Char (a % 4 * 16 + b / 16) :: base64Char (b % 16 * 4 + c / 64) :: base64Char (c % 64) ::
      b64encode l

end Verif.Py
