import Verif.Spec.Hand

/-! Specification vocabulary for tile symbols: the Unicode block "Mahjong Tiles". -/
namespace Verif.Spec
open Verif.Model (Kind)

/-- the 34 tile symbols in the order of their code points from U+1F000: winds, red, green and white dragon,
    characters (man), bamboos (sou), circles (pin) -/
def unicodeOrder : List Kind :=
  [(.z,1),(.z,2),(.z,3),(.z,4),(.z,7),(.z,6),(.z,5),
   (.m,1),(.m,2),(.m,3),(.m,4),(.m,5),(.m,6),(.m,7),(.m,8),(.m,9),
   (.s,1),(.s,2),(.s,3),(.s,4),(.s,5),(.s,6),(.s,7),(.s,8),(.s,9),
   (.p,1),(.p,2),(.p,3),(.p,4),(.p,5),(.p,6),(.p,7),(.p,8),(.p,9)]

end Verif.Spec
