import Verif.Spec.Waiting

/-!
Playing on with a hand: draws and discards, as a player at the table sees them.
-/
namespace Verif.Spec
open Verif.Model (Kind Pattern)

/-- Number of tiles in a complete win. -/
def winSize : Pattern → Int
  | .normal pairs melds => 2 * pairs + 3 * melds
  | .unique pairs _ => 2 * pairs

/-- `g` is held after starting from `h`, drawing `n` tiles (never a fifth copy) and discarding any number of
    tiles, in any order. -/
inductive After (h : Kind → Int) : Nat → (Kind → Int) → Prop where
  | start : After h 0 h
  | draw {n g} (t : Kind) : After h n g → ValidKind t → g t < 4 → After h (n + 1) (plus g t)
  | discard {n g} (t : Kind) : After h n g → 0 < g t → After h n (minus g t)

/-- `g` is held after `n` ordinary turns from `h`: each turn draws one tile and then discards one, so the number
    of tiles stays the same. -/
inductive Turns (h : Kind → Int) : Nat → (Kind → Int) → Prop where
  | start : Turns h 0 h
  | turn {n g} (t d : Kind) : Turns h n g → ValidKind t → g t < 4 → 0 < plus g t d →
      Turns h (n + 1) (minus (plus g t) d)

end Verif.Spec
