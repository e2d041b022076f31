import Verif.Spec.Regular
import Verif.Spec.WholeRow

/-! What the page of a player of a complete record should show, in terms of the record alone. -/
namespace Verif.Spec
open Verif.Py Verif.Model Verif.Spec.Html

/-- a round as it was played: its deal and what follows -/
structure Play where
  seed : List Int
  hands : Fin 4 → List Int
  more : List (Str × Str)
  moves : List Move

def Play.deal (g : Play) : Move := .deal g.seed g.hands g.more

/-- the elements of the round -/
def Play.events (g : Play) : List Event := (g.deal :: g.moves).map Move.event

/-- player `p` keeps to the rules in the round -/
def Play.Fair (p : Fin 4) (g : Play) : Prop := FairGame p g.seed g.hands g.more g.moves

/-- a win that can be shown among `n` players: the tile is given by one of them, and the points of the win are in second place -/
def WinShown (n : Nat) (e : Event) : Prop := e.tag = "AGARI".toList →
  ∃ giver, giver < n ∧ e.get "fromWho".toList = .ok (natDigits giver) ∧
    ∃ points : List Int, 2 ≤ points.length ∧ e.get "ten".toList = .ok (commaList points)

/-- row `index` is right about discarding `t` after `game`: in all it says, and, for a hand to which no five is useful of
    which the red one is held, in what it recommends.  Without called melds it is only known to be right as far as it goes, and only if the hand is nearer to four
    melds and a pair than to seven pairs. -/
def RowRight (float : Rat → Str) (p : Fin 4) (four : Bool) (game : List Move) (t index : Nat) (row : ShownRow) : Prop :=
  RowOf float p four game t index row ∧
  (NoRedUseful p game →
    (1 ≤ meldCount (finalMelds (meldsOf p game)) → AdviceOf float p four game row) ∧
    (meldCount (finalMelds (meldsOf p game)) = 0 → NearerMelds p game →
      PartAdviceOf float p four game row ∧
      ((∀ e, HandStep p game e → {k : Kind | Keeps p game e k}.ncard ≤ pairKeepers p game) → AdviceOf float p four game row)))

/-- the rows of a round: one for every discard of the player, in order, each of them right -/
def RowsRight (float : Rat → Str) (p : Fin 4) (four : Bool) (g : Play) (rows : List ShownRow) : Prop :=
  rows.length = (discardsOf p g.moves).length ∧
  ∀ pre t post, g.moves = pre ++ .discard p t :: post → ∃ row, rows[(discardsOf p pre).length]? = some row ∧
    RowRight float p four (g.deal :: pre) t (discardsOf p pre).length row

/-- the hand can be compared with what it should become: it is open, or nearer to four melds and a pair than to seven pairs -/
def Compared (p : Fin 4) (game : List Move) : Prop :=
  1 ≤ meldCount (finalMelds (meldsOf p game)) ∨ meldCount (finalMelds (meldsOf p game)) = 0 ∧ NearerMelds p game

/-- and all discards that keep the waiting step are compared: the hand is open, or not more discards keep the waiting step than keep
    the one for seven pairs -/
def AllCompared (p : Fin 4) (game : List Move) : Prop :=
  1 ≤ meldCount (finalMelds (meldsOf p game)) ∨ meldCount (finalMelds (meldsOf p game)) = 0 ∧ NearerMelds p game ∧
    ∀ e, HandStep p game e → {k : Kind | Keeps p game e k}.ncard ≤ pairKeepers p game

/-- no discard that keeps the waiting step leaves an unseen tile that is useful -/
def NothingLeft (p : Fin 4) (four : Bool) (game : List Move) : Prop :=
  ∀ e, HandStep p game e → ∀ k, Keeps p game e k → unseenCopies p four game (UsefulAfter p game k e) = 0

/-- the page of player `p`: a section for every round, in order, with the right rows -/
def PageRight (float : Rat → Str) (p : Fin 4) (four : Bool) (plays : List Play) (shown : List (Str × List ShownRow)) : Prop :=
  List.Forall₂ (fun g s => RowsRight float p four g s.2) plays shown

/-- the address of the record, if given, has the id of a record in it, and if the file is to be named one of them is given -/
def SourceKnown (decode : Str → Str) (semi : Bool) (logUrl logId : Option Str) (generate : Bool) : Prop :=
  (∀ u, logUrl = some u → ∃ id, logIdFromUrl decode semi u = .ok id) ∧ (generate = true → logUrl ≠ none ∨ logId ≠ none)

end Verif.Spec
