import Verif.Spec.Csv
import Verif.Spec.Translate
import Verif.Spec.Open
import Verif.Spec.Xml

/-! What C102 says about the states of a replayed file. -/
namespace Verif.Spec
open Verif.Py Verif.Model

/-- `state["global"]["time"]["timestamp"]` -/
def StampedWith (y : TD) (time : Int) : Prop :=
  reads (.node y.kids) [.text "global".toList, .text "time".toList, .text "timestamp".toList] = some (.leaf (.num (.int time)))

/-- the state shows this value as this property of player `p` -/
def ShowsOf (y : TD) (p : Fin 4) (name : String) (v : Val) : Prop :=
  reads (.node y.kids) [.scope .player, .player p, .prop (view .player name)] = some (.leaf v)

/-- Two states show the same, texts aside: the same time, and at every property that is no text the same value or none. -/
structure SameShown (y y' : TD) : Prop where
  time : reads (.node y'.kids) [.text "global".toList, .text "time".toList, .text "timestamp".toList] =
    reads (.node y.kids) [.text "global".toList, .text "time".toList, .text "timestamp".toList]
  single : ∀ v, ¬ HasKind v .text → v.scope = .game ∨ v.scope = .record →
    reads (.node y'.kids) [.scope v.scope, .text "single".toList, .prop v] =
      reads (.node y.kids) [.scope v.scope, .text "single".toList, .prop v]
  player : ∀ v (p : Fin 4), ¬ HasKind v .text → v.scope = .player →
    reads (.node y'.kids) [.scope .player, .player p, .prop v] = reads (.node y.kids) [.scope .player, .player p, .prop v]

/-- The state shows where the tiles of player `p` are after these moves, and the points of `p`: in the hand the tiles held, laid
    open those put down from the hand, and the discards in order; `ten` hundred points less 1000 for every accepted reach. -/
structure ShowsTable (y : TD) (p : Fin 4) (deal : Move) (ms : List Move) (ten : Int) : Prop where
  hand : ∃ (held : List Int) (names : List Str), held.Nodup ∧ (∀ t, t ∈ held ↔ Held p t (deal :: ms)) ∧ names.Perm (held.map tileName) ∧
    ShowsOf y p "hand" (strs names)
  discards : ShowsOf y p "discard_tiles" (strs ((discardsOf p ms).map tileName))
  laid : ShowsOf y p "meld_public_tiles" (strs ((laidOf p ms).map tileName))
  score : ShowsOf y p "score" (.num (.int (ten * 100 - 1000 * (ms.filter (fun m => decide (AcceptsReach p m))).length)))

end Verif.Spec
