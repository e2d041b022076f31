import Verif.Model.Bits

/-! `mahjong/record/utils/value/gametype.py`. -/
namespace Verif.Model
open Verif.Py

/-- `game_type_desc` (`mahjong/record/utils/value/gametype.py:3-16`). -/
def gameTypeDesc : List Field :=
  [⟨"preserved".toList, 1⟩, ⟨"no_aka_dora".toList, 1⟩, ⟨"no_tanyao_open_hand".toList, 1⟩,
   ⟨"east_and_south_round".toList, 1⟩, ⟨"three_players".toList, 1⟩, ⟨"play_level_high_bit".toList, 1⟩,
   ⟨"speed_up".toList, 1⟩, ⟨"play_level_low_bit".toList, 1⟩, ⟨"show_discard_shadow".toList, 1⟩,
   ⟨"with_tips".toList, 1⟩, ⟨"is_5tips".toList, 1⟩, ⟨"padding_".toList, 5⟩]

/-- A `GameType` object: `origin`, `data`, `standard_code` (`mahjong/record/utils/value/gametype.py:27-34`). -/
structure GameType where
  origin : Int
  data : List (Str × Int)
  standardCode : Int
  deriving DecidableEq, Repr

/-- `listed[0] = 0; listed[-1] = 0` (`mahjong/record/utils/value/gametype.py:31-33`). -/
def zeroEnds (l : List Int) : List Int :=
  match l with
  | [] => []
  | _ :: r => 0 :: (match r with | [] => [] | _ => r.dropLast ++ [0])

/-- `GameType.__init__` (`mahjong/record/utils/value/gametype.py:28-34`). -/
def GameType.make (typeData : Int) : Except PyErr GameType := do
  let data ← unpackWith gameTypeDesc typeData
  pure ⟨typeData, data, repackTo gameTypeDesc (zeroEnds (data.map (fun e => e.2)))⟩

/-- a bit of `data`, as a boolean (`mahjong/record/utils/value/gametype.py:36-69`) -/
def GameType.bit (g : GameType) (name : String) : Except PyErr Bool := do
  pure (decide ((← field g.data name.toList) ≠ 0))

/-- `player_count` (`mahjong/record/utils/value/gametype.py:36-37`). -/
def GameType.playerCount (g : GameType) : Except PyErr Int := do
  pure (if ← g.bit "three_players" then 3 else 4)
/-- `has_aka_dora` (`:39-40`) (`mahjong/record/utils/value/gametype.py:39-40`). -/
def GameType.hasAkaDora (g : GameType) : Except PyErr Bool := do pure (!(← g.bit "no_aka_dora"))
/-- `play_level` (`:42-43`): `(high << 1) | low` of two bits (`mahjong/record/utils/value/gametype.py:42-43`). -/
def GameType.playLevel (g : GameType) : Except PyErr Int := do
  let h ← field g.data "play_level_high_bit".toList
  let l ← field g.data "play_level_low_bit".toList
  pure (h * 2 + l)
/-- `allow_tanyao_open` (`:48-49`) (`mahjong/record/utils/value/gametype.py:48-49`). -/
def GameType.allowTanyaoOpen (g : GameType) : Except PyErr Bool := do pure (!(← g.bit "no_tanyao_open_hand"))
/-- `play_wind_count` (`:51-52`) (`mahjong/record/utils/value/gametype.py:51-52`). -/
def GameType.playWindCount (g : GameType) : Except PyErr Int := do
  pure (if ← g.bit "east_and_south_round" then 2 else 1)
/-- `main_game_count` (`:54-55`) (`mahjong/record/utils/value/gametype.py:54-55`). -/
def GameType.mainGameCount (g : GameType) : Except PyErr Int := do
  pure ((← g.playWindCount) * (← g.playerCount))
/-- `tips_count` (`:60-66`) (`mahjong/record/utils/value/gametype.py:60-66`). -/
def GameType.tipsCount (g : GameType) : Except PyErr Int := do
  if ← g.bit "with_tips" then
    if ← g.bit "is_5tips" then pure 5 else pure 2
  else pure 0

/-- `__eq__` (`mahjong/record/utils/value/gametype.py:71-72`). -/
def GameType.eq (a b : GameType) : Bool := decide (a.standardCode = b.standardCode)

/-- `if_value` (`mahjong/record/utils/value/gametype.py:23-24`). -/
def ifValue (c : Bool) (a : Str) (b : Str := []) : Str := if c then a else b

/-- `__str__` (`mahjong/record/utils/value/gametype.py:74-84`). -/
def GameType.str (g : GameType) : Except PyErr Str := do
  let tips ← g.bit "with_tips"
  let a ← pyIdx "零一二三四".toList (← g.playerCount)
  let b ← pyIdx (ifValue tips "若銀琥孔".toList "般上特鳳".toList) (← g.playLevel)
  let c ← pyIdx "_東南西北".toList (← g.playWindCount)
  pure ([a, b, c] ++ ifValue (← g.allowTanyaoOpen) "喰".toList ++ ifValue (← g.hasAkaDora) "赤".toList ++
    ifValue (← g.bit "speed_up") "速".toList ++ ifValue (← g.bit "show_discard_shadow") "暗".toList ++
    ifValue tips ("祝".toList ++ pyStrInt (← g.tipsCount)))

end Verif.Model
