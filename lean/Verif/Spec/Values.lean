import Verif.Spec.Effects

/-!
What single events say about players and rounds.
-/
namespace Verif.Spec
open Verif.Py Verif.Model

/-- the element names player `p` in its attribute `who` -/
def Who (p : Nat) (e : Event) : Prop := ∃ w, e.get "who".toList = .ok w ∧ pyInt w = .ok (p : Int)

/-- player `p` declares riichi (the first of the two elements of a riichi) -/
def Declares (p : Nat) (e : Event) : Prop :=
  e.tag = "REACH".toList ∧ Who p e ∧ e.get "step".toList = .ok "1".toList

/-- player `p` loses the connection -/
def Leaves (p : Nat) (e : Event) : Prop := e.tag = "BYE".toList ∧ Who p e

/-- player `p` enters the record, or comes back: an element `UN` with a name for `p` that is not blank -/
def Enters (p : Nat) (e : Event) : Prop :=
  e.tag = "UN".toList ∧ ∃ name, e.attrib.lookup ("n".toList ++ natDigits p) = some name ∧ name.all isSpace = false

/-- property `name` of the game, and of the record -/
def ofGame (name : String) : Sub × View := (.all, Verif.Model.view .game name)
def ofRecord (name : String) : Sub × View := (.all, Verif.Model.view .record name)

/-- the table a game type is for, by bits 9 (with tips), 5 and 7 -/
def levelName (tips high low : Bool) : Char :=
  match tips, high, low with
  | false, false, false => '般' | false, false, true => '上' | false, true, false => '特' | false, true, true => '鳳'
  | true, false, false => '若' | true, false, true => '銀' | true, true, false => '琥' | true, true, true => '孔'

/-- the indicator an element `DORA` turns over -/
def turnedOver (e : Event) : List Int :=
  if e.tag = "DORA".toList then
    match e.get "hai".toList with
    | .ok s => match pyInt s with
      | .ok d => [d]
      | .error _ => []
    | .error _ => []
  else []

/-- the title of rank `d` (0 to 20) -/
def rankTitle (d : Nat) : Str :=
  if d = 0 then "新人".toList
  else if d ≤ 9 then natDigits (10 - d) ++ "級".toList
  else if d = 10 then "初段".toList
  else if d ≤ 19 then ["二三四五六七八九十".toList.getD (d - 11) ' ', '段']
  else "天鳳位".toList

/-- the reasons for a drawn round other than an exhausted wall: four winds discarded, nine kinds of terminals and honours,
    three wins on one tile, four riichi, four kans, and a win by terminal and honour discards only -/
def drawnReasons : List (String × String) :=
  [("kaze4", "四風連打"), ("yao9", "九種九牌"), ("ron3", "三家和了"), ("reach4", "四家立直"), ("kan4", "四槓散了"),
   ("nm", "流局滿貫")]

/-- the yaku by their numbers in a record -/
def yakuNames : List String :=
  ["門前清自摸和", "立直", "一発", "槍槓", "嶺上開花", "海底摸月", "河底撈魚", "平和", "断幺九", "一盃口",
   "自風 東", "自風 南", "自風 西", "自風 北", "場風 東", "場風 南", "場風 西", "場風 北", "役牌 白", "役牌 發", "役牌 中",
   "両立直", "七対子", "混全帯幺九", "一気通貫", "三色同順", "三色同刻", "三槓子", "対々和", "三暗刻", "小三元", "混老頭",
   "二盃口", "純全帯幺九", "混一色", "清一色", "人和",
   "天和", "地和", "大三元", "四暗刻", "四暗刻単騎", "字一色", "緑一色", "清老頭", "九蓮宝燈", "純正九蓮宝燈", "国士無双",
   "国士無双１３面", "大四喜", "小四喜", "四槓子", "ドラ", "裏ドラ", "赤ドラ"]

end Verif.Spec
