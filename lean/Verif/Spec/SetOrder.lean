import Verif.Model.Tile

/-! What it means that one collection of tiles comes before another. -/
namespace Verif.Spec
open Verif.Model (Suit Kind Tile TileSet)

/-- the entries of a collection in the order in which it stores them: which kind, and how many -/
def entries (c : TileSet) : List (Kind × Int) := c.map (fun e => (e.1.view, e.2))

/-- the suits in their order -/
def suitRank : Suit → Nat
  | .m => 0
  | .p => 1
  | .s => 2
  | .z => 3

/-- an entry comes before another: by suit, then by the number on the tile, then by how many there are -/
def EntryBefore (a b : Kind × Int) : Prop :=
  suitRank a.1.1 < suitRank b.1.1 ∨
    (a.1.1 = b.1.1 ∧ (a.1.2 < b.1.2 ∨ (a.1.2 = b.1.2 ∧ a.2 < b.2)))

/-- as words in a dictionary: after a common beginning `p` the first ends and the second goes on, or the next entry of the first
    comes before the next entry of the second -/
def SetBefore (c d : TileSet) : Prop :=
  ∃ p, (entries c = p ∧ ∃ b s, entries d = p ++ b :: s) ∨
    (∃ a r b s, entries c = p ++ a :: r ∧ entries d = p ++ b :: s ∧ EntryBefore a b)

/-- the same tiles, whatever the order in which they are stored -/
def SameEntries (c d : TileSet) : Prop := ∀ x, x ∈ entries c ↔ x ∈ entries d

end Verif.Spec
