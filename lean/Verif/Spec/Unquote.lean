import Verif.Py.Str

/-! Percent-encoding of text. -/
namespace Verif.Spec
open Verif.Py

/-- `c` is the hexadecimal digit of value `n` -/
def HexDigit (n : Nat) (c : Char) : Prop :=
  "0123456789abcdef".toList[n]? = some c ∨ "0123456789ABCDEF".toList[n]? = some c

/-- `t` writes the bytes as `%` and two hexadecimal digits each, small or capital -/
inductive WritesBytes : List UInt8 → Str → Prop
  | nil : WritesBytes [] []
  | cons {b : UInt8} {bs : List UInt8} {h l : Char} {t : Str} : HexDigit (b.toNat / 16) h → HexDigit (b.toNat % 16) l →
      WritesBytes bs t → WritesBytes (b :: bs) ('%' :: h :: l :: t)

/-- `t` is a percent-encoding of `s`: every character of `s` is written as its UTF-8 bytes, or left as it is, where a `%`
    may be left only if two hexadecimal digits do not follow. -/
inductive PercentEncodes : Str → Str → Prop
  | nil : PercentEncodes [] []
  | plain {c : Char} {s t : Str} : c ≠ '%' → PercentEncodes s t → PercentEncodes (c :: s) (c :: t)
  | coded {c : Char} {e s t : Str} : WritesBytes (String.utf8EncodeChar c) e → PercentEncodes s t →
      PercentEncodes (c :: s) (e ++ t)
  | stray {s t : Str} : (∀ a b r m n, t = a :: b :: r → ¬ (HexDigit m a ∧ HexDigit n b)) → PercentEncodes s t →
      PercentEncodes ('%' :: s) ('%' :: t)

/-! ### Bytes that need not be text -/

/-- the UTF-8 bytes of a character -/
def utf8Bytes (c : Char) : List Nat := (String.utf8EncodeChar c).map UInt8.toNat

/-- the bytes begin a character, but end before it does -/
def Unfinished (p : List Nat) : Prop := ∃ c, p <+: utf8Bytes c ∧ p ≠ utf8Bytes c

/-- what bytes are shown as: characters where there are bytes of a character, and one `U+FFFD` for the longest unfinished
    character, or else for a single byte, where there are none -/
inductive ShownBytes : List Nat → Str → Prop
  | nil : ShownBytes [] []
  | char {l : List Nat} {s : Str} (c : Char) : ShownBytes l s → ShownBytes (utf8Bytes c ++ l) (c :: s)
  | broken {p l : List Nat} {s : Str} : (∀ c, ¬ utf8Bytes c <+: p ++ l) → (p.length = 1 ∨ 1 < p.length ∧ Unfinished p) →
      (∀ q, Unfinished q → q <+: p ++ l → q.length ≤ p.length) → ShownBytes l s →
      ShownBytes (p ++ l) (Char.ofNat 0xFFFD :: s)

/-- the bytes an ASCII text stands for: `%` and two hexadecimal digits for one byte, every other character for itself -/
inductive StandsFor : Str → List Nat → Prop
  | nil : StandsFor [] []
  | plain {c : Char} {t : Str} {bs : List Nat} : c.toNat < 128 → c ≠ '%' → StandsFor t bs → StandsFor (c :: t) (c.toNat :: bs)
  | coded {h l : Char} {m n : Nat} {t : Str} {bs : List Nat} : HexDigit m h → HexDigit n l → StandsFor t bs →
      StandsFor ('%' :: h :: l :: t) ((16 * m + n) :: bs)
  | stray {t : Str} {bs : List Nat} : (∀ a b r m n, t = a :: b :: r → ¬ (HexDigit m a ∧ HexDigit n b)) → StandsFor t bs →
      StandsFor ('%' :: t) ('%'.toNat :: bs)

/-- `s` is what any text `t` is decoded to: characters beyond ASCII stay, and what stands between them is shown as the bytes
    it stands for -/
inductive DecodesTo : Str → Str → Prop
  | last {t s : Str} {bs : List Nat} : StandsFor t bs → ShownBytes bs s → DecodesTo t s
  | more {t r s u : Str} {c : Char} {bs : List Nat} : StandsFor t bs → ShownBytes bs s → 128 ≤ c.toNat → DecodesTo r u →
      DecodesTo (t ++ c :: r) (s ++ c :: u)

end Verif.Spec
