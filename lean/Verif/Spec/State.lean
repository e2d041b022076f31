import Verif.Spec.Moves
import Verif.Model.State

/-! Specification of what each game state should contain after a sequence of moves. -/
namespace Verif.Spec
open Verif.Py Verif.Model

mutual
/-- Two states track the same thing: same class, same player, and for collections the same names and
    members that track the same things.  Contents are ignored. -/
def sameTracking : GState → GState → Bool
  | .hand p _, .hand q _ => decide (p = q)
  | .melds p _, .melds q _ => decide (p = q)
  | .discards p _, .discards q _ => decide (p = q)
  | .dora _, .dora _ => true
  | .invisible f _, .invisible g _ => decide (f = g)
  | .coll ns ss, .coll ms ts => decide (ns = ms) && sameTrackings ss ts
  | _, _ => false
def sameTrackings : List GState → List GState → Bool
  | [], [] => true
  | s :: ss, t :: ts => sameTracking s t && sameTrackings ss ts
  | _, _ => false
end

/-- scanning every event in order -/
def scanEvery (s : GState) (es : List Event) : Except PyErr GState := es.foldlM GState.scan s

/-- the own tiles of the meld with this code -/
def IsOwnTile (q : Fin 4) (code : Nat) (t : Int) : Prop := ∃ x, meldOf q.val code = .ok x ∧ t ∈ x.selfTiles

/-- the move puts tile `t` into the hand of `p` -/
def Gains (p : Fin 4) (t : Int) : Move → Prop
  | .deal _ hands _ => t ∈ hands p
  | .draw q n => q = p ∧ (n : Int) = t
  | _ => False

/-- after the move tile `t` is not in the hand of `p` -/
def Loses (p : Fin 4) (t : Int) : Move → Prop
  | .deal _ hands _ => t ∉ hands p
  | .discard q n => q = p ∧ (n : Int) = t
  | .meld q c => q = p ∧ IsOwnTile q c t
  | _ => False

/-- `p` holds `t` after the moves: some move gave it and no later move took it away -/
def Held (p : Fin 4) (t : Int) (ms : List Move) : Prop :=
  ∃ pre m post, ms = pre ++ m :: post ∧ Gains p t m ∧ ∀ x ∈ post, ¬ Loses p t x

/-- `p` only draws tiles not held and only discards or melds tiles held -/
def Consistent (p : Fin 4) (ms : List Move) : Prop :=
  ∀ pre m post, ms = pre ++ m :: post →
    (∀ n : Nat, m = .draw p n → ¬ Held p n pre) ∧ (∀ n : Nat, m = .discard p n → Held p n pre) ∧
    (∀ c t, m = .meld p c → IsOwnTile p c t → Held p t pre)

/-- change of the number of tiles in the hand of `p` -/
def handChange (p : Fin 4) : Move → Int
  | .draw q _ => if q = p then 1 else 0
  | .discard q _ => if q = p then -1 else 0
  | .meld q c => if q = p then
      (match meldOf q.val c with | .ok x => -(x.selfTiles.length : Int) | .error _ => 0) else 0
  | _ => 0

/-- the move shows tile `t` to everybody, as far as the code notices: discarding tile 0 is missed -/
def ShowsButZero (t : Int) : Move → Prop
  | .discard _ n => (n : Int) = t ∧ n ≠ 0
  | .meld q c => IsOwnTile q c t
  | .dora n => (n : Int) = t
  | _ => False

/-- the melds of `p` among the moves, decoded, in order -/
def meldsOf (p : Fin 4) : List Move → List Meld
  | [] => []
  | .meld q c :: ms =>
    if q = p then (match meldOf q.val c with | .ok x => x :: meldsOf p ms | .error _ => meldsOf p ms)
    else meldsOf p ms
  | _ :: ms => meldsOf p ms

/-- all own tiles of the two melds are of one kind -/
def sameKind (a b : Meld) : Bool := a.selfTiles.all (fun t => b.selfTiles.all (fun u => decide (t / 4 = u / 4)))

/-- the kan made of a pon and the added tile -/
def kanOf (pon added : Meld) : Meld :=
  ⟨.kanFromTriplet, (pon.selfTiles ++ added.selfTiles).eraseDups, pon.borrowedTiles, pon.fromWho⟩

/-- what becomes of a meld: a pon turns into a kan with the first later added tile of its kind -/
def upgraded (m : Meld) (later : List Meld) : Meld :=
  if m.cls = .triplet then
    match later.find? (fun a => decide (a.cls = .addedKan) && sameKind m a) with
    | some a => kanOf m a
    | none => m
  else m

/-- one entry for every meld that is not an added kan -/
def finalMelds : List Meld → List Meld
  | [] => []
  | m :: later => if m.cls = .addedKan then finalMelds later else upgraded m later :: finalMelds later

/-- the discards of `p`, and the dora indicators turned up, in order -/
def discardsOf (p : Fin 4) (ms : List Move) : List Int :=
  ms.filterMap (fun m => match m with | .discard q t => if q = p then some (t : Int) else none | _ => none)
def dorasOf (ms : List Move) : List Int :=
  ms.filterMap (fun m => match m with | .dora t => some (t : Int) | _ => none)

end Verif.Spec
