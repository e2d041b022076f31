import Mathlib.Algebra.Order.Field.Rat

/-!
Python's `float`: binary numbers with 53 significant bits.

A float is modelled by its value, a rational number; an operation on floats gives the exact result rounded to the
nearest float, to the one with the even significand if two are equally near.  Not modelled: numbers too large
(from about 1.8e308 on) or too small (below about 2.2e-308) for the exponent of a float, `inf`, `nan` and the sign of zero.
-/
namespace Verif.Py

/-- `a / b` rounded to the nearest whole number, halves to the even neighbour
    (floats in `mahjong/tenhou_record_check.py:34,256-261` and `mahjong/record/utils/value/general.py:2-4`) -/
def roundHalfEven (a b : Nat) : Nat :=
  let q := a / b
  let r := a % b
  if 2 * r < b then q else if b < 2 * r then q + 1 else if q % 2 = 0 then q else q + 1

/-- numerator and denominator of `n / d / 2 ^ e`
    (floats in `mahjong/tenhou_record_check.py:34,256-261` and `mahjong/record/utils/value/general.py:2-4`) -/
def scaled (n d : Nat) (e : Int) : Nat × Nat :=
  if 0 ≤ e then (n, d * 2 ^ e.toNat) else (n * 2 ^ (-e).toNat, d)

/-- the whole number `e` with `2 ^ e ≤ n / d < 2 ^ (e + 1)`, for positive `n` and `d`
    (floats in `mahjong/tenhou_record_check.py:34,256-261` and `mahjong/record/utils/value/general.py:2-4`) -/
def binade (n d : Nat) : Int :=
  let e : Int := (Nat.log2 n : Int) - Nat.log2 d
  if (scaled n d e).2 ≤ (scaled n d e).1 then e else e - 1

/-- `m * 2 ^ e`
    (floats in `mahjong/tenhou_record_check.py:34,256-261` and `mahjong/record/utils/value/general.py:2-4`) -/
def times2 (m : Nat) (e : Int) : Rat :=
  if 0 ≤ e then ((m * 2 ^ e.toNat : Nat) : Rat) else (m : Rat) / ((2 ^ (-e).toNat : Nat) : Rat)

/-- the float nearest to a number
    (floats in `mahjong/tenhou_record_check.py:34,256-261` and `mahjong/record/utils/value/general.py:2-4`) -/
def roundDouble (q : Rat) : Rat :=
  if q.num = 0 then 0
  else
    let e := binade q.num.natAbs q.den - 52
    let s := scaled q.num.natAbs q.den e
    let v := times2 (roundHalfEven s.1 s.2) e
    if q.num < 0 then -v else v

end Verif.Py
