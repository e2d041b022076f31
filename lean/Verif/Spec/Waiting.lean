import Verif.Spec.Hand

/-!
Specification of "how far a hand is from winning", independent of the searches.
-/
namespace Verif.Spec
open Verif.Model (Kind Pattern)

/-- Tiles of the complete win `D` that the hand lacks. -/
def deficit (D : List Group) (h : Kind → Int) : Int := sumK (fun k => max 0 (need D k - h k))

/-- A win that could exist with four copies of each kind (`lim = true`), or any win. -/
def Feasible (lim : Bool) (D : List Group) : Prop := lim = true → ∀ k, need D k ≤ 4

/-- `n` is the waiting step: some complete (feasible) win lacks exactly `n + 1` tiles, none lacks
    fewer. -/
def IsStep (lim : Bool) (w : Pattern) (h : Kind → Int) (n : Int) : Prop :=
  (∃ D, Legal w D ∧ Feasible lim D ∧ deficit D h = n + 1) ∧
  ∀ D, Legal w D → Feasible lim D → n + 1 ≤ deficit D h

/-- The hand with one more tile of kind `t`. -/
def plus (h : Kind → Int) (t : Kind) : Kind → Int := fun k => if k = t then h k + 1 else h k

/-- The hand with one tile of kind `t` removed. -/
def minus (h : Kind → Int) (t : Kind) : Kind → Int := fun k => if k = t then h k - 1 else h k

/-- `t` is useful: one more copy exists and it brings the hand closer to winning. -/
def UsefulKind (w : Pattern) (h : Kind → Int) (t : Kind) : Prop :=
  ValidKind t ∧ h t < 4 ∧ ∃ n n', IsStep true w h n ∧ IsStep true w (plus h t) n' ∧ n' < n

/-- A multiset of `n` real tiles can be added, never exceeding four copies of a kind, so that the hand
    contains a win. -/
def CanReach (w : Pattern) (h : Kind → Int) (n : Nat) : Prop :=
  ∃ add : Kind → Int, (∀ k, 0 ≤ add k) ∧ (∀ k, ¬ ValidKind k → add k = 0) ∧ sumK add = n ∧
    (∀ k, h k + add k ≤ 4) ∧ Wins w (fun k => h k + add k)

/-- The hand holds at most four copies of each kind. -/
def AtMostFour (h : Kind → Int) : Prop := ∀ k, h k ≤ 4

end Verif.Spec
