import Verif.Model.Win

/-!
Specification vocabulary for hands, written without any function of the searches.
A hand is read as a multiset of tile kinds: how many copies of each kind it holds.
-/
namespace Verif.Spec
open Verif.Model (Suit Kind Tile TileSet Pattern)

/-- the 34 kinds of tiles: 1..9 in three suits and 1..7 honours. -/
def ValidKind (k : Kind) : Prop :=
  (k.1 ≠ Suit.z ∧ 1 ≤ k.2 ∧ k.2 ≤ 9) ∨ (k.1 = Suit.z ∧ 1 ≤ k.2 ∧ k.2 ≤ 7)

instance (k : Kind) : Decidable (ValidKind k) := by unfold ValidKind; infer_instance

/-- the 34 kinds, listed. -/
def allKinds : List Kind :=
  [(.m,1),(.m,2),(.m,3),(.m,4),(.m,5),(.m,6),(.m,7),(.m,8),(.m,9),
   (.p,1),(.p,2),(.p,3),(.p,4),(.p,5),(.p,6),(.p,7),(.p,8),(.p,9),
   (.s,1),(.s,2),(.s,3),(.s,4),(.s,5),(.s,6),(.s,7),(.s,8),(.s,9),
   (.z,1),(.z,2),(.z,3),(.z,4),(.z,5),(.z,6),(.z,7)]

/-- Sum over the 34 kinds. -/
def sumK (f : Kind → Int) : Int := (allKinds.map f).sum

/-- A group of tiles that a winning hand is made of. -/
inductive Group where
  | pair (k : Kind)
  | run (k : Kind)   -- `k`, `k+1`, `k+2` of one suit
  | trip (k : Kind)
  deriving DecidableEq, Repr

/-- Which groups exist: pairs and triplets of any tile, runs inside one number suit. -/
def Group.Proper : Group → Prop
  | .pair k => ValidKind k
  | .run k => k.1 ≠ Suit.z ∧ 1 ≤ k.2 ∧ k.2 ≤ 7
  | .trip k => ValidKind k

instance (g : Group) : Decidable g.Proper := by
  cases g <;> simp only [Group.Proper] <;> infer_instance

/-- How many copies of kind `j` the group holds. -/
def Group.count : Group → Kind → Int
  | .pair k, j => if j = k then 2 else 0
  | .run k, j => if j.1 = k.1 ∧ k.2 ≤ j.2 ∧ j.2 ≤ k.2 + 2 then 1 else 0
  | .trip k, j => if j = k then 3 else 0

def Group.isPair : Group → Bool
  | .pair _ => true
  | _ => false

/-- Copies of kind `j` in all groups of `D`. -/
def need (D : List Group) (j : Kind) : Int := (D.map (fun g => g.count j)).sum

/-- `D` is a complete set of groups for the win pattern:
    `p` pairs and `m` runs or triplets, or `p` pairs of pairwise different kinds (outside `used`). -/
def Legal : Pattern → List Group → Prop
  | .normal p m, D =>
    (∀ g ∈ D, g.Proper) ∧ (D.filter (fun g => g.isPair)).length = p ∧
      (D.filter (fun g => !g.isPair)).length = m
  | .unique p used, D =>
    (∀ g ∈ D, ∃ k, g = .pair k ∧ ValidKind k ∧ k ∉ used) ∧ D.Nodup ∧ D.length = p

/-- The hand `h` contains a complete set of groups (it may hold more tiles). -/
def Wins (w : Pattern) (h : Kind → Int) : Prop := ∃ D, Legal w D ∧ ∀ k, need D k ≤ h k

/-- Tiles that exist in a game: one of the 34 kinds; a red tile is a red five. -/
def RealTile (t : Tile) : Prop :=
  ValidKind t.view ∧ (t.aka = true → t.number = 0 ∧ t.color ≠ Suit.z)

instance (t : Tile) : Decidable (RealTile t) := by unfold RealTile; infer_instance

/-- A hand as the API receives it: a dict (no two equal keys) of real tiles with non-negative
    counts.  Stored zero counts, any key order and red fives are allowed. -/
def HandOK (c : TileSet) : Prop :=
  Verif.Py.Counter.WF c ∧ (∀ e ∈ c, RealTile e.1) ∧ (∀ e ∈ c, 0 ≤ e.2)

instance (c : TileSet) : Decidable (HandOK c) := by unfold HandOK; infer_instance

/-- The multiset a `TileSet` stands for. -/
def content (c : TileSet) : Kind → Int := fun k => Verif.Py.Counter.get c k

end Verif.Spec
