import Verif.Py.Html
import Verif.Model.Frontend
import Verif.Py.Float

/-!
The page of the record checker: the texts `str(player)` (`mahjong/record/player.py:20-30`) and `str(record)`
(`mahjong/record/reader.py:162-173`), and the template `mahjong/templates/record_checker_template.html` as jinja2
renders it with the settings of `template_env` (`mahjong/tenhou_record_check.py:137-149`).

The template is a text with holes.  The text between holes is written here as it is in the file, cut into pieces where
tags begin and end; `-%}` and `{%-` remove the white space next to them.  As the file is called `.html`, whatever is put
into a hole is escaped, except the result of a macro, which is markup already, and what the filter `safe` marks.
`float` is `str` of a Python float.
-/
namespace Verif.Model
open Verif.Py

/-- the last `d` digits of a number, with zeros in front
    (`%.2f` in `mahjong/record/player.py`, `%.1f` in `mahjong/record/reader.py:168`) -/
def lastDigits : Nat → Nat → Str
  | 0, _ => []
  | d + 1, n => lastDigits d (n / 10) ++ [Char.ofNat (48 + n % 10)]

/-- the value of a number as a float: the float nearest to the decimal read (`float(x)`; a whole number is converted by `%f`)
    (`mahjong/record/utils/value/general.py:4`, `mahjong/record/reader.py:168`) -/
def Num.float (n : Num) : Rat := roundDouble ((n.num : Rat) / ((10 ^ n.scale : Nat) : Rat))

/-- `"%.df" % n`, for `d` at least one: the value of the float rounded to `d` decimals, halves to the even neighbour.
    (A number from `number_list` is never the float `-0.0`.)
    (`mahjong/record/player.py`, `mahjong/record/reader.py:168`) -/
def fixedText (d : Nat) (n : Num) : Str :=
  let m := roundHalfEven (n.float.num.natAbs * 10 ^ d) n.float.den
  (if n.num < 0 then ['-'] else []) ++ natDigits (m / 10 ^ d) ++ '.' :: lastDigits d m

/-- `str(player)` (`mahjong/record/player.py:20-30`). -/
def TPlayer.text (name : TPlayer → Str) (p : TPlayer) : Except PyErr Str := do
  let level ← pyIdx RANKS (← p.level.toInt)
  pure (name p ++ ' ' :: level.toList ++ " R".toList ++ fixedText 2 p.rate)

/-- one player in `str(record)` (`mahjong/record/reader.py:168-170`) -/
def standingText (name : TPlayer → Str) (e : Nat × TPlayer × Num) : Str :=
  natDigits e.1 ++ "位:".toList ++ name e.2.1 ++ '(' :: fixedText 1 e.2.2 ++ ")".toList

/-- `str(record)` (`mahjong/record/reader.py:162-173`). -/
def TRecord.text (name : TPlayer → Str) (r : TRecord) : Except PyErr Str := do
  let type ← r.gameType.str
  pure (type ++ ' ' :: joinWith ',' (r.strParts.2.map (standingText name)))

/-- the macro `tile` (`mahjong/templates/record_checker_template.html:80-84`) -/
def tileMacro (size : String) (tiles : List Str) : Str :=
  tiles.flatMap (fun t =>
    "<div class=\"pic".toList ++ escape t ++ " ".toList ++ escape size.toList ++ "\">".toList ++ "</div>".toList)

/-- one item of the macro `reasoning_display` (`mahjong/templates/record_checker_template.html:87-98`) -/
def itemHtml (x : NItem) : Str :=
  "\n        ".toList ++ "<div class=\"reasoning-tile\">".toList ++
  "\n            ".toList ++ "<div>".toList ++ "Discard".toList ++ "&nbsp;".toList ++ tileMacro "small" x.discard ++
  "\n                ".toList ++ "<div class=\"blackbox\">".toList ++
  "\n                    Steps ".toList ++ escape (pyStrInt x.step) ++
  "\n                    Tiles ".toList ++ escape (pyStrInt x.count) ++
  "\n                ".toList ++ "</div>".toList ++
  "\n            ".toList ++ "</div>".toList ++
  "\n            ".toList ++ "<div>".toList ++ "Expect ".toList ++ tileMacro "small" x.useful ++
  "\n            ".toList ++ "</div>".toList ++
  "\n        ".toList ++ "</div>".toList ++ "\n    ".toList

/-- the macro `reasoning_display` (`mahjong/templates/record_checker_template.html:86-99`) -/
def itemsHtml (l : List NItem) : Str := l.flatMap itemHtml

/-- the melds of a row (`mahjong/templates/record_checker_template.html:139`) -/
def meldsHtml (melds : List (List Str)) : Str :=
  melds.flatMap (fun m => tileMacro "big" m ++ "&nbsp;".toList)

/-- the expected choices of a row (`mahjong/templates/record_checker_template.html:144-145`) -/
def expectedHtml (l : List NItem) : Str :=
  l.flatMap (fun x => "\n                                ".toList ++ tileMacro "big" x.discard)

/-- the lists `round.normal_reasonings` and `round.seven_pair_reasonings`; iterating over an attribute that is not
    there does nothing in a template
    (`mahjong/tenhou_record_check.py:230,285-288`, `mahjong/templates/record_checker_template.html`) -/
def RoundReasoning.table (r : RoundReasoning) (name : String) : List NItem := (r.tables.lookup name.toList).getD []

/-- the colour of a row, up to the last number (`mahjong/templates/record_checker_template.html:136`) -/
def rowColour (r : RoundReasoning) : Str :=
  if r.somebodyRichii then " rgba(0, 0, 255, ".toList else " rgba(255, 0, 0, ".toList

/-- the steps and the number of tiles in the small table of a row, which goes on with `s`
    (`mahjong/templates/record_checker_template.html:153-154,158-159`) -/
def stepsHtml (x : NItem) : Str :=
  "Steps ".toList ++ escape (pyStrInt x.step) ++
  "\n                                                Tiles ".toList ++ escape (pyStrInt x.count)

/-- a row of a game, number `index` (`mahjong/templates/record_checker_template.html:136-178`); `best` is
    `round.expected_reasonings[0]`. -/
def rowHtml (float : Rat → Str) (index : Nat) (r : RoundReasoning) (best : NItem) : Str :=
  "\n                    ".toList ++ "<tr style=\"background-color: ".toList ++ rowColour r ++ escape (float r.wrongRate) ++
    ");\">".toList ++
  "\n                        ".toList ++ "<td>".toList ++ escape (natDigits index) ++ "</td>".toList ++
  "\n                        ".toList ++ "<td>".toList ++
  "\n                            ".toList ++ meldsHtml r.melds ++
  "\n                            ".toList ++ tileMacro "big" r.hand ++
  "\n                        ".toList ++ "</td>".toList ++
  "\n                        ".toList ++ "<td class=\"tile\">".toList ++ tileMacro "big" r.yourChoice.discard ++ "</td>".toList ++
  "\n                        ".toList ++ "<td class=\"tile\">".toList ++
  "\n                            ".toList ++ expectedHtml r.expected ++
  "\n                        ".toList ++ "</td>".toList ++
  "\n                        ".toList ++ "<td>".toList ++
  "\n                            ".toList ++ "<details>".toList ++
  "\n                                ".toList ++ "<summary>".toList ++
  "\n                                    ".toList ++ "<table class=\"description-table\">".toList ++
  "\n                                        ".toList ++ "<tr>".toList ++
  "\n                                            ".toList ++ "<td>".toList ++ "Expected".toList ++ "</td>".toList ++
  "\n                                            ".toList ++ "<td>".toList ++ stepsHtml best ++ "</td>".toList ++
  "\n                                        ".toList ++ "</tr>".toList ++
  "\n                                        ".toList ++ "<tr>".toList ++
  "\n                                            ".toList ++ "<td>".toList ++ "Actual".toList ++ "</td>".toList ++
  "\n                                            ".toList ++ "<td>".toList ++ stepsHtml r.yourChoice ++ "</td>".toList ++
  "\n                                        ".toList ++ "</tr>".toList ++
  "\n                                    ".toList ++ "</table>".toList ++
  "\n                                ".toList ++ "</summary>".toList ++
  "\n                                ".toList ++ itemsHtml r.merged ++
  "\n                                ".toList ++ "<details>".toList ++
  "\n                                    ".toList ++ "<summary>".toList ++
  "\n                                        Normal-Type Reasoning\n                                    ".toList ++
    "</summary>".toList ++
  "\n                                    ".toList ++ itemsHtml (r.table "normal_reasonings") ++
  "\n                                ".toList ++ "</details>".toList ++
  "\n                                ".toList ++ "<details>".toList ++
  "\n                                    ".toList ++ "<summary>".toList ++
  "\n                                        Seven-Pair Reasoning\n                                    ".toList ++
    "</summary>".toList ++
  "\n                                    ".toList ++ itemsHtml (r.table "seven_pair_reasonings") ++
  "\n                                ".toList ++ "</details>".toList ++
  "\n                            ".toList ++ "</details>".toList ++
  "\n                        ".toList ++ "</td>".toList ++
  "\n                    ".toList ++ "</tr>".toList ++ "\n                ".toList

/-- the rows of a game, from number `index` on (`mahjong/templates/record_checker_template.html:135-179`); without an
    expected choice, `round.expected_reasonings[0].waiting_step` raises jinja2's `UndefinedError` (a kind of
    exception of its own, `runtimeError` here). -/
def rowsHtml (float : Rat → Str) (index : Nat) : List RoundReasoning → Except PyErr Str
  | [] => .ok []
  | r :: rs =>
    match r.expected with
    | [] => .error .runtimeError
    | best :: _ => do
      let more ← rowsHtml float (index + 1) rs
      pure (rowHtml float index r best ++ more)

/-- a game (`mahjong/templates/record_checker_template.html:124-182`) -/
def gameHtml (title rows : Str) : Str :=
  "\n    ".toList ++ "<div>".toList ++
  "\n        ".toList ++ "<details open>".toList ++
  "\n            ".toList ++ "<summary>".toList ++ "<span class=\"game-caption\">".toList ++ escape title ++
    "</span>".toList ++ "</summary>".toList ++
  "\n            ".toList ++ "<table>".toList ++
  "\n                ".toList ++ "<tr>".toList ++
  "\n                    ".toList ++ "<th>".toList ++ "Round ".toList ++ "<br>".toList ++ "(巡目)".toList ++ "</th>".toList ++
  "\n                    ".toList ++ "<th>".toList ++ "Hand ".toList ++ "<br>".toList ++ "(手牌)".toList ++ "</th>".toList ++
  "\n                    ".toList ++ "<th>".toList ++ "Your Choice ".toList ++ "<br>".toList ++ "(你的选择)".toList ++ "</th>".toList ++
  "\n                    ".toList ++ "<th>".toList ++ "Expected Choice ".toList ++ "<br>".toList ++ "(期望选择)".toList ++ "</th>".toList ++
  "\n                    ".toList ++ "<th>".toList ++ "Reasoning ".toList ++ "<br>".toList ++ "(牌理)".toList ++ "</th>".toList ++
  "\n                ".toList ++ "</tr>".toList ++
  "\n                ".toList ++ rows ++
  "\n            ".toList ++ "</table>".toList ++
  "\n        ".toList ++ "</details>".toList ++
  "\n    ".toList ++ "</div>".toList ++ "\n".toList

/-- the games (`mahjong/templates/record_checker_template.html:123-183`) -/
def gamesHtml (float : Rat → Str) : List (Str × List RoundReasoning) → Except PyErr Str
  | [] => .ok []
  | g :: gs => do
    let rows ← rowsHtml float 1 g.2
    let more ← gamesHtml float gs
    pure (gameHtml g.1 rows ++ more)

/-- the style of a tile (`mahjong/templates/record_checker_template.html:14-16`); `bytes` is the file
    `mahjong/templates/mjpic/<tile>.png` (`load_raw`, `mahjong/tenhou_record_check.py:126-134`). -/
def styleHtml (tile : Str) (bytes : List Nat) : Str :=
  "\n            .pic".toList ++ escape tile ++ " {\n                background-image: url(\"data:image/png;base64,".toList ++
    b64encode bytes ++ "\");\n            }\n        ".toList

/-- the styles of the tiles (`mahjong/templates/record_checker_template.html:13-17`); `picture` reads a file, and
    raises if there is none. -/
def stylesHtml (picture : Str → Except PyErr (List Nat)) : List Str → Except PyErr Str
  | [] => .ok []
  | t :: ts => do
    let bytes ← picture (t ++ ".png".toList)
    let more ← stylesHtml picture ts
    pure (styleHtml t bytes ++ more)

/-- the styles that do not depend on anything (`mahjong/templates/record_checker_template.html:7-12`) -/
def firstStyles : Str :=
  "\n        .tile {\n            letter-spacing: -12px;\n            font-size: 36px;\n            padding-right: 12px;\n        }\n\n        ".toList

/-- the styles that do not depend on anything (`mahjong/templates/record_checker_template.html:18-72`) -/
def otherStyles : Str :=
  "\n\n        .big {\n            width: 24px;\n            height: 30px;\n            display: inline-block;\n            background-size: cover;\n        }".toList ++
  "\n\n        .small {\n            width: 16px;\n            height: 20px;\n            display: inline-block;\n            background-size: cover;\n        }".toList ++
  "\n\n        .tile-small {\n            letter-spacing: -7.5px;\n            font-size: 24px;\n            padding-right: 12px;\n        }".toList ++
  "\n\n        .game-caption {\n            font-size: 24px;\n        }".toList ++
  "\n\n        .reasoning-tile {\n            border-bottom: 1px solid grey;\n        }".toList ++
  "\n\n        table {\n            border-collapse: collapse;\n        }".toList ++
  "\n\n        table, th, td {\n            border: 1px solid black;\n        }".toList ++
  "\n\n        .hint-red {\n            background-color: red;\n        }".toList ++
  "\n\n        .hint-blue {\n            background-color: blue;\n        }".toList ++
  "\n\n        .description-table {\n            display: inline-table;\n        }".toList ++
  "\n\n        .blackbox {\n            border-color: black;\n            border-width: medium;\n            border-style: dashed;\n            display: inline-block;\n        }".toList ++
  "\n    ".toList

/-- the template (`mahjong/templates/record_checker_template.html:1-184`), given what it is filled with -/
def pageHtml (tiles : List Str) (styles player record url games : Str) : Str :=
  "<!DOCTYPE html>".toList ++ "\n".toList ++ "<html lang=\"en\">".toList ++
  "\n".toList ++ "<head>".toList ++
  "\n    ".toList ++ "<meta charset=\"UTF-8\">".toList ++
  "\n    ".toList ++ "<title>".toList ++ "Record Checker Result".toList ++ "</title>".toList ++
  "\n    ".toList ++ "<style type=\"text/css\">".toList ++ firstStyles ++ styles ++ otherStyles ++ "</style>".toList ++
  "\n".toList ++ "</head>".toList ++
  "\n".toList ++ "<body>".toList ++ "\n\n\n\n\n\n\n\n\n\n".toList ++ tileMacro "big" tiles ++
  "\n\n".toList ++ "<hr>".toList ++ "\n\n".toList ++ tileMacro "small" tiles ++ "\n\n".toList ++
  "<p>".toList ++ " Player: ".toList ++ escape player ++ " ".toList ++ "</p>".toList ++ "\n".toList ++
  "<p>".toList ++ escape record ++ " ".toList ++ "<a href=\"".toList ++ escape url ++ "\">".toList ++ "Link".toList ++
    "</a>".toList ++ "</p>".toList ++ "\n\n".toList ++
  "<p>".toList ++ "\n    Hint: ".toList ++ "<span class=\"hint-red\">".toList ++ "Red".toList ++ "</span>".toList ++
    " color is before richii,\n    ".toList ++ "<span class=\"hint-blue\">".toList ++ "Blue".toList ++ "</span>".toList ++
    " Color is after richii, which could be accepted(may go to defence, or could't\n    change waiting tiles.)\n\n\n".toList ++
    "</p>".toList ++ "\n".toList ++
  "<p>".toList ++ "The more it colored, the worse it has been choosen.".toList ++ "</p>".toList ++ "\n".toList ++
  "<p>".toList ++ "\n    提示：".toList ++ "<span class=\"hint-red\">".toList ++ "红色".toList ++ "</span>".toList ++
    "为立直前，".toList ++ "<span class=\"hint-blue\">".toList ++ "蓝色".toList ++ "</span>".toList ++
    "为立直后，可以接受（可能进入防守，或者无法切换听牌。）\n".toList ++ "</p>".toList ++ "\n\n".toList ++
  games ++ "\n".toList ++ "</body>".toList ++ "\n".toList ++ "</html>".toList

/-- `template.render(player=str(player), record=str(record), log_url=log_url, games=games, all_tiles=all_tiles)`
    (`mahjong/tenhou_record_check.py:193-194`); `None` is shown as `None`. -/
def Page.html (picture : Str → Except PyErr (List Nat)) (float : Rat → Str) (name : TPlayer → Str) (p : Page) : Except PyErr Str := do
  let player ← p.player.text name
  let record ← p.record.text name
  let styles ← stylesHtml picture p.tiles
  let games ← gamesHtml float p.games
  pure (pageHtml p.tiles styles player record (p.logUrl.getD "None".toList) games)

end Verif.Model
