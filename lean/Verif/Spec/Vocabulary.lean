import Verif.Spec.Effects

/-!
Which commands an event may give: the property, how it is updated, and the kind of event the command names.
-/
namespace Verif.Spec
open Verif.Py Verif.Model

/-- a property, a way of updating it, a kind of event -/
abbrev Phrase := Scope × String × Update × EventType

/-- what the end of a round says of every player, and the end of a record -/
def endPhrases : List Phrase :=
  [(.player, "score", .assertEqualOrSet, .gameFinish), (.player, "score", .add, .gameFinish),
   (.player, "is_win", .replace, .gameFinish), (.player, "is_self_win", .replace, .gameFinish),
   (.player, "is_discard_lose_game", .replace, .gameFinish), (.player, "faans", .replace, .gameFinish),
   (.game, "nobody_win", .replace, .gameFinish),
   (.player, "final_score", .replace, .recordFinish), (.player, "final_point", .replace, .recordFinish),
   (.player, "rank", .replace, .recordFinish)]

/-- the phrases of the named elements -/
def namedPhrases : List (String × List Phrase) :=
  [("SHUFFLE", [(.record, "seed", .replace, .recordInit)]),
   ("GO", ["play_level", "show_discard_shadow", "play_wind_count", "allow_tanyao_open", "speed_up", "player_count",
      "using_tiles"].map (fun n => (.record, n, .replace, .recordInit))),
   ("UN", [(.player, "disconnected", .replace, .connectChange), (.player, "name", .assertEqualOrSet, .recordInit),
      (.player, "level", .replace, .recordInit), (.player, "extra_level", .replace, .recordInit)]),
   ("BYE", [(.player, "disconnected", .replace, .connectChange)]),
   ("TAIKYOKU", [(.player, "is_dealer", .replace, .gameInit)]),
   ("INIT", ["wind", "round", "sub_round", "richii_remain_scores"].map (fun n => (.game, n, .replace, .gameInit)) ++
      [(.game, "dora_indicators", .replace, .newDora)] ++
      ["is_dealer", "hand", "in_richii"].map (fun n => (.player, n, .replace, .gameInit)) ++
      [(.player, "score", .assertEqualOrSet, .gameInit)] ++
      ["round", "discard_tiles", "discard_from_hand", "fixed_meld", "meld_public_tiles", "bonus_tiles"].map
        (fun n => (.player, n, .resetDefault, .gameInit))),
   ("N", [(.player, "hand", .remove, .openHand), (.player, "fixed_meld", .add, .openHand),
      (.player, "meld_public_tiles", .add, .openHand), (.player, "bonus_tiles", .add, .openHand)]),
   ("DORA", [(.game, "dora_indicators", .add, .newDora)]),
   ("REACH", [(.player, "in_richii", .replace, .richii), (.player, "score", .remove, .richii)]),
   ("AGARI", (.player, "hand", .assertEqualOrSet, .gameFinish) :: endPhrases),
   ("RYUUKYOKU", (.game, "extra_reason", .replace, .gameFinish) :: endPhrases)]

/-- the phrases of an element: the named elements as above, a draw, a discard; nothing for any other -/
def phrases (tag : Str) : List Phrase :=
  match namedPhrases.find? (fun x => decide (x.1.toList = tag)) with
  | some x => x.2
  | none =>
    match tag with
    | [] => []
    | c :: _ =>
      if c ∈ "TUVW".toList then [(.player, "hand", .add, .draw)]
      else if c ∈ "DEFG".toList then
        [(.player, "round", .add, .discard), (.player, "discard_from_hand", .add, .discard),
         (.player, "hand", .remove, .discard), (.player, "discard_tiles", .add, .discard)]
      else []

/-- the command says this phrase -/
def Says (c : Cmd) (x : Phrase) : Prop :=
  c.prop = Verif.Model.view x.1 x.2.1 ∧ c.update = x.2.2.1 ∧ c.event = some x.2.2.2

end Verif.Spec
