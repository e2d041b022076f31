import Verif.Py.Str

/-!
`mahjong/record/universe/format.py`: views, their properties and types.

An enum member is its name; a `Flag` value is the number `auto()` gives it (1, 2, 4, ... in order of
definition) or the `|` of such numbers.
-/
namespace Verif.Model
open Verif.Py

/-- `ViewScope` (`mahjong/record/universe/format.py:12-23`); every scope has one view class
    (`format.py:28-33`). -/
inductive Scope where
  | game | player | record
  deriving DecidableEq, Repr

/-- `ViewScope[name]`, `scope.name` (`mahjong/record/universe/format.py:12-15`) -/
def Scope.name : Scope → Str
  | .game => "game".toList
  | .player => "player".toList
  | .record => "record".toList
/-- `ViewScope[name]` (`mahjong/record/universe/format.py:77`) -/
def Scope.ofName (s : Str) : Except PyErr Scope :=
  if s = "game".toList then .ok .game else if s = "player".toList then .ok .player
  else if s = "record".toList then .ok .record else .error .keyError

/-- the properties of a view class in order of definition (`format.py:95-103,111-118,129-151`) -/
def propertyNames : Scope → List String
  | .record => ["player_count", "play_level", "has_aka_dora", "speed_up", "allow_tanyao_open", "play_wind_count",
      "show_discard_shadow", "seed", "using_tiles"]
  | .game => ["wind", "round", "sub_round", "dora_indicators", "richii_remain_scores", "dealer", "nobody_win",
      "extra_reason"]
  | .player => ["name", "level", "extra_level", "hand", "in_richii", "discard_tiles", "discard_from_hand",
      "fixed_meld", "meld_public_tiles", "score", "bonus_tiles", "round", "disconnected", "is_dealer", "is_win",
      "is_self_win", "is_discard_lose_game", "faans", "rank", "final_score", "final_point"]

/-- the `type__...` members of a view class in order of definition, with the properties they join
    (`format.py:105-108,120-125,153-161`) -/
def typeMembers : Scope → List (String × List String)
  | .record => [("index", ["player_count", "play_wind_count"]), ("str", ["play_level", "seed"]),
      ("bool", ["has_aka_dora", "speed_up", "allow_tanyao_open", "show_discard_shadow"]), ("list", ["using_tiles"])]
  | .game => [("index", ["wind", "round", "sub_round", "dealer"]), ("score", ["richii_remain_scores"]),
      ("tiles", ["dora_indicators"]), ("bool", ["nobody_win"]), ("str", ["extra_reason"])]
  | .player => [("str", ["name", "level", "extra_level"]), ("index", ["round"]), ("int", ["rank"]),
      ("float", ["final_point"]),
      ("bool", ["is_dealer", "is_win", "is_self_win", "is_discard_lose_game", "in_richii", "disconnected"]),
      ("score", ["score", "final_score"]), ("tiles", ["hand", "discard_tiles", "meld_public_tiles", "bonus_tiles"]),
      ("melds", ["fixed_meld"]), ("list", ["discard_from_hand", "faans"])]

/-- the value `auto()` gives a property (`mahjong/record/universe/format.py:94-151`) -/
def flagOf (s : Scope) (name : String) : Nat := 2 ^ (propertyNames s).idxOf name

/-- A member of a view class: its class (by scope) and its flag value
    (`mahjong/record/universe/format.py:26-39,94-161`). -/
structure View where
  scope : Scope
  flag : Nat
  deriving DecidableEq, Repr

/-- the member of a view class with a name (`mahjong/record/universe/format.py:94-151`) -/
def view (s : Scope) (name : String) : View := ⟨s, flagOf s name⟩

/-- The properties of a view class (`all_properties`, `format.py:51-54`). -/
def properties (s : Scope) : List View := (propertyNames s).map (view s)

/-- `a in b` for flags
    (`mahjong/record/universe/format.py:62`, `mahjong/record/universe/property_manager.py:125`) -/
def flagIn (a b : Nat) : Bool := decide (a &&& b = a)

/-- `ViewType` (`format.py:81-91`): a flag value. -/
abbrev ViewType := Nat
/-- `ViewType.index` (`mahjong/record/universe/format.py:82`) -/
def ViewType.index : ViewType := 1
/-- `ViewType.score` (`mahjong/record/universe/format.py:83`) -/
def ViewType.score : ViewType := 2
/-- `ViewType.tiles` (`mahjong/record/universe/format.py:84`) -/
def ViewType.tiles : ViewType := 4
/-- `ViewType.melds` (`mahjong/record/universe/format.py:85`) -/
def ViewType.melds : ViewType := 8
/-- `ViewType.str` (`mahjong/record/universe/format.py:86`) -/
def ViewType.str : ViewType := 16
/-- `ViewType.bool` (`mahjong/record/universe/format.py:87`) -/
def ViewType.bool : ViewType := 32
/-- `ViewType.float` (`mahjong/record/universe/format.py:88`) -/
def ViewType.float : ViewType := 64
/-- `ViewType.int` (`mahjong/record/universe/format.py:90`) -/
def ViewType.int : ViewType := ViewType.index ||| ViewType.score
/-- `ViewType.list` (`mahjong/record/universe/format.py:91`) -/
def ViewType.list : ViewType := ViewType.tiles ||| ViewType.melds

/-- `ViewType[name]`; a missing name raises `ValueError` in `View.type`
    (`mahjong/record/universe/format.py:64-71`). -/
def ViewType.ofName : String → Except PyErr ViewType
  | "index" => .ok ViewType.index
  | "score" => .ok ViewType.score
  | "tiles" => .ok ViewType.tiles
  | "melds" => .ok ViewType.melds
  | "str" => .ok ViewType.str
  | "bool" => .ok ViewType.bool
  | "float" => .ok ViewType.float
  | "int" => .ok ViewType.int
  | "list" => .ok ViewType.list
  | _ => .error .valueError

/-- flag value of a `type__...` member (`mahjong/record/universe/format.py:105-108,120-125,153-161`) -/
def typeFlag (s : Scope) (names : List String) : Nat := names.foldl (fun a n => a ||| flagOf s n) 0

/-- `View.type` (`format.py:56-72`). -/
def View.type (v : View) : Except PyErr ViewType :=
  match (typeMembers v.scope).find? (fun t => flagIn v.flag (typeFlag v.scope t.2)) with
  | some t => ViewType.ofName t.1
  | none => .error .valueError

/-- `view.name` of a property (`_name_` of a flag member; `None` for other values)
    (`mahjong/record/universe/command.py:134`, `mahjong/record/universe/format.py:94-151`). -/
def View.name (v : View) : Option Str :=
  ((propertyNames v.scope).find? (fun n => decide (flagOf v.scope n = v.flag))).map String.toList

/-- `View.by_name(scope)[property]` (`format.py:74-78`, used at `command.py:142`): members also have the
    `type__...` names. -/
def View.byName (scope : Scope) (property : Str) : Except PyErr View :=
  match (propertyNames scope).find? (fun n => decide (n.toList = property)) with
  | some n => .ok (Verif.Model.view scope n)
  | none =>
    match (typeMembers scope).find? (fun t => decide (("type__" ++ t.1).toList = property)) with
    | some t => .ok ⟨scope, typeFlag scope t.2⟩
    | none => .error .keyError

/-- `Update` (`format.py:174-180`). -/
inductive Update where
  | replace | clear | add | remove | resetDefault | assertEqualOrSet
  deriving DecidableEq, Repr

/-- `update.name` (`mahjong/record/universe/format.py:174-180`) -/
def Update.name : Update → Str
  | .replace => "REPLACE".toList
  | .clear => "CLEAR".toList
  | .add => "ADD".toList
  | .remove => "REMOVE".toList
  | .resetDefault => "RESET_DEFAULT".toList
  | .assertEqualOrSet => "ASSERT_EQUAL_OR_SET".toList

/-- `Update[name]` (`mahjong/record/universe/command.py:146`) -/
def Update.ofName (s : Str) : Except PyErr Update :=
  match [Update.replace, .clear, .add, .remove, .resetDefault, .assertEqualOrSet].find? (fun u => decide (u.name = s)) with
  | some u => .ok u
  | none => .error .keyError

/-- `EventType` (`format.py:206-216`). -/
inductive EventType where
  | recordInit | gameInit | draw | discard | openHand | newDora | richii | connectChange | gameFinish | recordFinish
  deriving DecidableEq, Repr

/-- `event.name` (`mahjong/record/universe/format.py:206-216`) -/
def EventType.name : EventType → Str
  | .recordInit => "record_init".toList
  | .gameInit => "game_init".toList
  | .draw => "draw".toList
  | .discard => "discard".toList
  | .openHand => "open_hand".toList
  | .newDora => "new_dora".toList
  | .richii => "richii".toList
  | .connectChange => "connect_change".toList
  | .gameFinish => "game_finish".toList
  | .recordFinish => "record_finish".toList

/-- `EventType[name]` (`mahjong/record/universe/command.py:145`) -/
def EventType.ofName (s : Str) : Except PyErr EventType :=
  match [EventType.recordInit, .gameInit, .draw, .discard, .openHand, .newDora, .richii, .connectChange,
      .gameFinish, .recordFinish].find? (fun u => decide (u.name = s)) with
  | some u => .ok u
  | none => .error .keyError

end Verif.Model
