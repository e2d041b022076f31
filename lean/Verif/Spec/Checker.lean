import Verif.Model.Checker
import Verif.Spec.Waiting

/-! Specification vocabulary for the record checker. -/
namespace Verif.Spec
open Verif.Py Verif.Model

/-- tile number `n` (0..135) is a copy of kind `k`: kinds in order, four numbers each -/
def CopyOf (n : Int) (k : Kind) : Prop := 0 ≤ n ∧ n < 136 ∧ allKinds[(n / 4).toNat]? = some k

instance (n : Int) (k : Kind) : Decidable (CopyOf n k) := by unfold CopyOf; infer_instance

/-- how many numbers of the set are copies of `k` -/
def unseen (inv : List InvElem) (k : Kind) : Nat :=
  (inv.filter (fun x => match x with | .num n => decide (CopyOf n k) | .tup _ _ _ => false)).length

/-- how many numbers of the set are copies of one of the kinds -/
def unseenOf (inv : List InvElem) (ks : List Kind) : Nat :=
  (inv.filter (fun x => match x with | .num n => decide (∃ k ∈ ks, CopyOf n k) | .tup _ _ _ => false)).length

/-- the kind whose copies the code counts for a tile: for a red five not the five but the tile before the
    suit's first -/
def countedKind (t : Tile) : Option Kind :=
  if t.aka then
    match t.color with
    | .m => none
    | .p => some (.m, 9)
    | .s => some (.p, 9)
    | .z => none
  else some t.view

/-- `x` has the smallest waiting step of the list, and among those the most useful tiles -/
def BestItem (l : List RItem) (x : RItem) : Prop :=
  ∀ y ∈ l, x.step < y.step ∨ (x.step = y.step ∧ y.count ≤ x.count)

instance (l : List RItem) (x : RItem) : Decidable (BestItem l x) := by unfold BestItem; infer_instance

/-- the win types the checker looks at for a player with `k` melds (kitas not counted) -/
def checkedWins (k : Nat) : List Pattern := .normal 1 (4 - k) :: (if k = 0 then [.unique 7 []] else [])

/-- how many of the melds are not kitas -/
def meldCount (melds : List Meld) : Nat := (melds.filter (fun m => decide (m.cls ≠ .kita))).length

/-- how many copies of a kind a hand of tile numbers holds -/
def heldKinds (hand : List Int) (k : Kind) : Int := ((hand.filter (fun n => decide (CopyOf n k))).length : Nat)

/-- a hand of different tile numbers -/
def NumberHand (hand : List Int) : Prop := hand.Nodup ∧ ∀ n ∈ hand, 0 ≤ n ∧ n < 136

/-- none of the numbers is a red five -/
def NoRedFives (hand : List Int) : Prop := ∀ n ∈ hand, n ≠ 16 ∧ n ≠ 52 ∧ n ≠ 88

/-- tile `n` is the red five of kind `k` -/
def IsRed (n : Int) (k : Kind) : Prop := (n = 16 ∧ k = (.m, 5)) ∨ (n = 52 ∧ k = (.p, 5)) ∨ (n = 88 ∧ k = (.s, 5))

/-- the red five of kind `k` is in the hand -/
def RedIn (hand : List Int) (k : Kind) : Prop := ∃ n ∈ hand, IsRed n k

/-- `l` is the right analysis of the discards from the hand `h` for the win type `w`: it lists, once each, the
    kinds whose discard keeps the waiting step, with that step and, each once, the kinds useful afterwards -/
def DiscardAnalyses (w : Pattern) (h : Kind → Int) (l : List RItem) : Prop :=
  ∃ n, IsStep true w h n ∧ (l.map (fun x => x.discard.view)).Nodup ∧
    (∀ k, k ∈ l.map (fun x => x.discard.view) ↔ 0 < h k ∧ IsStep true w (minus h k) n) ∧
    ∀ x ∈ l, x.step = n ∧ (x.useful.map Tile.view).Nodup ∧
      ∀ u, u ∈ x.useful.map Tile.view ↔ UsefulKind w (minus h x.discard.view) u

/-- `n` is the waiting step of `h`, the least over several win types -/
def StepFor (ws : List Pattern) (h : Kind → Int) (n : Int) : Prop :=
  (∃ w ∈ ws, IsStep true w h n) ∧ ∀ w ∈ ws, ∀ m, IsStep true w h m → n ≤ m

/-- drawing a `u` lowers the waiting step `n` of `h` for one of the win types that have that step -/
def UsefulFor (ws : List Pattern) (h : Kind → Int) (n : Int) (u : Kind) : Prop :=
  ∃ w ∈ ws, IsStep true w h n ∧ UsefulKind w h u

/-- the discards from `h` that keep the waiting step `n` -/
def Keepers (ws : List Pattern) (h : Kind → Int) (n : Int) : Set Kind := {k | 0 < h k ∧ StepFor ws (minus h k) n}

/-- every item of `l` is right: it is about a discard that keeps the waiting step, each at most once, and says which kinds
    are useful afterwards -/
def RightItems (ws : List Pattern) (h : Kind → Int) (n : Int) (l : List RItem) : Prop :=
  (l.map (fun x => x.discard.view)).Nodup ∧
  ∀ x ∈ l, x.discard.view ∈ Keepers ws h n ∧ x.step = n ∧ (x.useful.map Tile.view).Nodup ∧
    ∀ u, u ∈ x.useful.map Tile.view ↔ UsefulFor ws (minus h x.discard.view) n u

end Verif.Spec
