import Verif.Spec.Translate

/-! The tiles a player gets and lays open. -/
namespace Verif.Spec
open Verif.Py Verif.Model

/-- the tiles `p` draws among the moves, in order -/
def drawsOf (p : Fin 4) (ms : List Move) : List Int :=
  ms.filterMap (fun m => match m with | .draw q t => if q = p then some (t : Int) else none | _ => none)

/-- the tiles `p` lays down from the own hand for melds and norths, in order -/
def laidOf (p : Fin 4) (ms : List Move) : List Int := (meldsOf p ms).flatMap Meld.selfTiles

/-- the norths `p` puts aside, in order -/
def northsOf (p : Fin 4) (ms : List Move) : List Int :=
  ((meldsOf p ms).filter (fun m => decide (m.cls = .kita))).flatMap Meld.selfTiles

end Verif.Spec
