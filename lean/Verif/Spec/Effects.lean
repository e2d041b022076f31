import Verif.Spec.Translate
import Verif.Spec.Tags

/-!
What an event of a record may change, in terms of the properties of the converted state.
-/
namespace Verif.Spec
open Verif.Py Verif.Model

/-- what the end of a game sets for every player -/
def endEffects : List (Scope × String) :=
  [(.player, "score"), (.player, "is_win"), (.player, "is_self_win"), (.player, "is_discard_lose_game"),
   (.player, "faans"), (.player, "final_score"), (.player, "final_point"), (.player, "rank"), (.game, "nobody_win")]

/-- the properties every named event is about -/
def namedEffects : List (String × List (Scope × String)) :=
  [("SHUFFLE", [(.record, "seed")]),
   ("GO", [(.record, "play_level"), (.record, "show_discard_shadow"), (.record, "play_wind_count"),
      (.record, "allow_tanyao_open"), (.record, "speed_up"), (.record, "player_count"), (.record, "using_tiles")]),
   ("UN", [(.player, "disconnected"), (.player, "name"), (.player, "level"), (.player, "extra_level")]),
   ("BYE", [(.player, "disconnected")]),
   ("TAIKYOKU", [(.player, "is_dealer")]),
   ("INIT", [(.game, "wind"), (.game, "round"), (.game, "sub_round"), (.game, "richii_remain_scores"),
      (.game, "dora_indicators"), (.player, "is_dealer"), (.player, "hand"), (.player, "score"), (.player, "round"),
      (.player, "in_richii"), (.player, "discard_tiles"), (.player, "discard_from_hand"), (.player, "fixed_meld"),
      (.player, "meld_public_tiles"), (.player, "bonus_tiles")]),
   ("N", [(.player, "hand"), (.player, "fixed_meld"), (.player, "meld_public_tiles"), (.player, "bonus_tiles")]),
   ("DORA", [(.game, "dora_indicators")]),
   ("REACH", [(.player, "in_richii"), (.player, "score")]),
   ("AGARI", (.player, "hand") :: endEffects),
   ("RYUUKYOKU", (.game, "extra_reason") :: endEffects)]

/-- the properties an event with this tag may change: the named events as above, a draw (`T`, `U`, `V`, `W` and a
    tile) the hand, a discard (`D`, `E`, `F`, `G` and a tile) the hand, the discards and the number of turns -/
def mayChange (tag : Str) : List (Scope × String) :=
  match namedEffects.find? (fun x => decide (x.1.toList = tag)) with
  | some x => x.2
  | none =>
    match tag with
    | [] => []
    | c :: _ =>
      if c ∈ "TUVW".toList then [(.player, "hand")]
      else if c ∈ "DEFG".toList then
        [(.player, "hand"), (.player, "round"), (.player, "discard_from_hand"), (.player, "discard_tiles")]
      else []

/-- the event is a move of player `q`: a draw, a discard, a call, a reach or a disconnection -/
def MoveOf (q : Fin 4) (e : Event) : Prop :=
  (∃ n, Numbered "TUVW" e.tag ("TUVW".toList.getD q.val ' ') n) ∨
  (∃ n, Numbered "DEFG" e.tag ("DEFG".toList.getD q.val ' ') n) ∨
  (e.tag = "N".toList ∨ e.tag = "REACH".toList ∨ e.tag = "BYE".toList) ∧
    ∃ w, e.get "who".toList = .ok w ∧ pyInt w = .ok (q.val : Int)

end Verif.Spec
