import Verif.Spec.Report
import Verif.Model.Frontend

/-! What the front end should show and write. -/
namespace Verif.Spec
open Verif.Py Verif.Model

/-- the text is the number `k` in decimal, possibly with zeros in front -/
def Writes (s : Str) (k : Nat) : Prop := ∃ z, s = List.replicate z '0' ++ natDigits k

/-- every text a report shows as a tile -/
def shownBy (r : RoundReasoning) : List Str :=
  r.hand ++ r.melds.flatten ++ (r.yourChoice :: r.expected ++ r.merged).flatMap (fun x => x.discard ++ x.useful)

/-- the tile numbers of the game -/
def IsTileNumber (n : Int) : Prop := 0 ≤ n ∧ n < 136

end Verif.Spec
