import Verif.Spec.Checker
import Verif.Spec.State

/-! Specification of the reports of a game. -/
namespace Verif.Spec
open Verif.Py Verif.Model

/-- the discards of player `p` in a game, in order, each with the moves before it -/
def discardPoints (p : Fin 4) (ms : List Move) : List (List Move × Nat) :=
  (List.range ms.length).filterMap (fun (i : Nat) =>
    match ms[i]? with
    | some (Move.discard q t) => if q = p then some (ms.take i, t) else none
    | _ => none)

/-- the report for one discard: made from the hand, the invisible tiles and the melds after the moves before it
    and nothing else; a `StopIteration` appears as `RuntimeError`.  The flag tells whether a REACH came before. -/
def reportAt (iter : List Int → List Int) (p : Fin 4) (four : Bool) (x : List Move × Nat) : Except PyErr RoundReasoning := do
  let h ← (GState.hand p []).passedEvents (x.1.map Move.event)
  let i ← (GState.invisible four (initialInvisible four)).passedEvents (x.1.map Move.event)
  let m ← (GState.melds p []).passedEvents (x.1.map Move.event)
  let r ← inGenerator (discardReasoning iter p (Move.discard p x.2).event (handValue h) (invisibleValue i) (meldsValue m))
  pure { r with somebodyRichii := x.1.any (fun m => decide (m.event.tag = "REACH".toList)) }

end Verif.Spec
