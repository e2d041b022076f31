import Verif.Model.SetStore
import Verif.Spec.Hand

/-! Objects before and after an analysis. -/
namespace Verif.Spec
open Verif.Py Verif.Model

/-- The shared pairs, triplets and runs of all real tiles are among the objects, where `unitAt` says, and none of them is the hand. -/
def Shared (unitAt : TileSet → Nat) (hand : Nat) (h : Store) : Prop :=
  ∀ t, RealTile t → ∀ u, u = t.pair ∨ u = t.triplet ∨ t.flush = some u → h[unitAt u]? = some (.set u) ∧ unitAt u ≠ hand

/-- From `h` to `h'` nothing happened but that the entries of the hand were put in another order and that new objects were made: every
    other object is as it was. -/
def OnlySorted (hand : Nat) (h h' : Store) : Prop :=
  (∀ r < h.length, r ≠ hand → h'[r]? = h[r]?) ∧
  ∃ s s', h[hand]? = some (.set s) ∧ h'[hand]? = some (.set s') ∧ s'.Perm s

/-- The hand that was `s` is a hand with the same counts. -/
def KeepsCounts (hand : Nat) (s : TileSet) (h' : Store) : Prop :=
  ∃ s', h'[hand]? = some (.set s') ∧ HandOK s' ∧ ∀ k, content s' k = content s k

end Verif.Spec
