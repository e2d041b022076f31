import Verif.Spec.Hand

namespace Verif.Spec
open Verif.Model (Kind TileSet Pattern)

/-- the tile set `u` holds exactly the tiles of the group `g`. -/
def IsGroup (u : TileSet) (g : Group) : Prop := ∀ k, content u k = g.count k

/-- the tile sets are, one by one, the groups. -/
def AreGroups : List TileSet → List Group → Prop
  | [], [] => True
  | u :: us, g :: gs => IsGroup u g ∧ AreGroups us gs
  | _, _ => False

/-- the list of tile sets is, in some order, the multiset of groups `D`. -/
def Realises (sel : List TileSet) (D : List Group) : Prop := ∃ D', D'.Perm D ∧ AreGroups sel D'

end Verif.Spec
