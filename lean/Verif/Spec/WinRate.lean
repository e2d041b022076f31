import Verif.Spec.Hand

/-! What one experiment of the win-rate tool is about. -/
namespace Verif.Spec
open Verif.Model (Kind Tile TileSet Pattern)

/-- The tiles left after throwing one tile of kind `k` away from the hand and taking `drawn`. -/
def after (hand : TileSet) (k : Kind) (drawn : List Tile) : Kind → Int := fun j =>
  content hand j - (if j = k then 1 else 0) + ((drawn.map Tile.view).count j : Int)

/-- Throwing `k` away leads to a win: four melds and a pair, or seven pairs, are among the tiles left. -/
def Completes (hand : TileSet) (k : Kind) (drawn : List Tile) : Prop :=
  Wins (.normal 1 4) (after hand k drawn) ∨ Wins (.unique 7 []) (after hand k drawn)

/-- the kinds of tiles held. -/
def heldList (hand : TileSet) : List Kind := hand.map (fun e => e.1.view)

open Classical in
/-- the kinds that lead to a win when thrown away. -/
noncomputable def winners (hand : TileSet) (drawn : List Tile) : List Kind :=
  (heldList hand).filter (fun k => decide (Completes hand k drawn))

end Verif.Spec
