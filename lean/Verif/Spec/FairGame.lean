import Verif.Spec.Report
import Verif.Spec.Frontend

/-! Games in which a player keeps to the rules of taking and discarding tiles. -/
namespace Verif.Spec
open Verif.Py Verif.Model

/-- what a meld adds to the tiles its owner has beyond three per meld: a chi or pon one (two own tiles and a called one
    make the meld), a kan with a called tile none, a concealed or added kan or a kita takes one -/
def meldExtra (x : Meld) : Int :=
  match x.cls with
  | .flush | .triplet => 1
  | .kan => if x.borrowedTiles = [] then -1 else 0
  | .addedKan | .kita => -1
  | .kanFromTriplet => 0

/-- what a move adds to the tiles the player `p` has beyond three per meld: a draw one, a
    discard takes one, a meld as above -/
def extra (p : Fin 4) : Move → Int
  | .draw q _ => if q = p then 1 else 0
  | .discard q _ => if q = p then -1 else 0
  | .meld q c => if q = p then
      (match meldOf q.val c with | .ok x => meldExtra x | .error _ => 0) else 0
  | _ => 0

/-- `p` discards only with one tile more than after the deal, counting melds as three -/
def InTurn (p : Fin 4) (ms : List Move) : Prop :=
  ∀ pre t post, ms = pre ++ .discard p t :: post → (pre.map (extra p)).sum = 1

/-- A game, after its deal, as player `p` sees it: the moves are readable, `p` is dealt 13 different tiles, draws tiles
    not held, uses only tiles held, and discards in turn. -/
structure FairGame (p : Fin 4) (seed : List Int) (hands : Fin 4 → List Int) (more : List (Str × Str)) (ms : List Move) : Prop where
  legal : ∀ m ∈ Move.deal seed hands more :: ms, LegalMove m
  oneDeal : ∀ m ∈ ms, m.isDeal = false
  dealt : (hands p).Nodup ∧ (hands p).length = 13 ∧ ∀ n ∈ hands p, IsTileNumber n
  drawn : ∀ n, Move.draw p n ∈ ms → n < 136
  held : Consistent p (Move.deal seed hands more :: ms)
  turns : InTurn p ms

/-- the hand, the tiles `p` holds, has already won, for one of the win types looked at with so many melds -/
def AlreadyWon (p : Fin 4) (ms : List Move) : Prop :=
  ∃ hand : List Int, hand.Nodup ∧ (∀ x, x ∈ hand ↔ Held p x ms) ∧
    ∃ w ∈ checkedWins (meldCount (finalMelds (meldsOf p ms))), Wins w (heldKinds hand)

end Verif.Spec
