import Verif.Model.Bits
/-! Specification of bit-field layouts: the first line describes the least significant bits. -/
namespace Verif.Spec
open Verif.Py Verif.Model

/-- the `w` bits of `v` starting at bit `off` -/
def bitsAt (v : Int) (off w : Nat) : Int := v / 2 ^ off % 2 ^ w

/-- the number of bits described by the lines before line `j` -/
def offset (desc : List Field) (j : Nat) : Nat := ((desc.take j).map (fun f => f.width)).sum

/-- total width -/
def totalWidth (desc : List Field) : Nat := (desc.map (fun f => f.width)).sum

end Verif.Spec
