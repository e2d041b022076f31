import Verif.Proofs.Html
import Verif.Model.PageText

/-! The page as it is read: the tags of the template. -/
namespace Verif.Proofs
open Verif.Py Verif.Model Verif.Spec.Html

theorem parsed_lit0 (s : Str) : parsed ("<!DOCTYPE html>".toList ++ s) = put (.tag "!DOCTYPE html".toList) (parsed s) :=
  parsed_lit "<!DOCTYPE html>" "!DOCTYPE html" (by decide) s
theorem parsed_lit1 (s : Str) : parsed ("<html lang=\"en\">".toList ++ s) = put (.tag "html lang=\"en\"".toList) (parsed s) :=
  parsed_lit "<html lang=\"en\">" "html lang=\"en\"" (by decide) s
theorem parsed_lit2 (s : Str) : parsed ("<head>".toList ++ s) = put (.tag "head".toList) (parsed s) :=
  parsed_lit "<head>" "head" (by decide) s
theorem parsed_lit3 (s : Str) : parsed ("<meta charset=\"UTF-8\">".toList ++ s) = put (.tag "meta charset=\"UTF-8\"".toList) (parsed s) :=
  parsed_lit "<meta charset=\"UTF-8\">" "meta charset=\"UTF-8\"" (by decide) s
theorem parsed_lit4 (s : Str) : parsed ("<title>".toList ++ s) = put (.tag "title".toList) (parsed s) :=
  parsed_lit "<title>" "title" (by decide) s
theorem parsed_lit5 (s : Str) : parsed ("</title>".toList ++ s) = put (.tag "/title".toList) (parsed s) :=
  parsed_lit "</title>" "/title" (by decide) s
theorem parsed_lit6 (s : Str) : parsed ("<style type=\"text/css\">".toList ++ s) = put (.tag "style type=\"text/css\"".toList) (parsed s) :=
  parsed_lit "<style type=\"text/css\">" "style type=\"text/css\"" (by decide) s
theorem parsed_lit7 (s : Str) : parsed ("</style>".toList ++ s) = put (.tag "/style".toList) (parsed s) :=
  parsed_lit "</style>" "/style" (by decide) s
theorem parsed_lit8 (s : Str) : parsed ("</head>".toList ++ s) = put (.tag "/head".toList) (parsed s) :=
  parsed_lit "</head>" "/head" (by decide) s
theorem parsed_lit9 (s : Str) : parsed ("<body>".toList ++ s) = put (.tag "body".toList) (parsed s) :=
  parsed_lit "<body>" "body" (by decide) s
theorem parsed_lit10 (s : Str) : parsed ("<hr>".toList ++ s) = put (.tag "hr".toList) (parsed s) :=
  parsed_lit "<hr>" "hr" (by decide) s
theorem parsed_lit11 (s : Str) : parsed ("<p>".toList ++ s) = put (.tag "p".toList) (parsed s) :=
  parsed_lit "<p>" "p" (by decide) s
theorem parsed_lit12 (s : Str) : parsed ("</p>".toList ++ s) = put (.tag "/p".toList) (parsed s) :=
  parsed_lit "</p>" "/p" (by decide) s
theorem parsed_lit13 (s : Str) : parsed ("</a>".toList ++ s) = put (.tag "/a".toList) (parsed s) :=
  parsed_lit "</a>" "/a" (by decide) s
theorem parsed_lit14 (s : Str) : parsed ("<span class=\"hint-red\">".toList ++ s) = put (.tag "span class=\"hint-red\"".toList) (parsed s) :=
  parsed_lit "<span class=\"hint-red\">" "span class=\"hint-red\"" (by decide) s
theorem parsed_lit15 (s : Str) : parsed ("<span class=\"hint-blue\">".toList ++ s) = put (.tag "span class=\"hint-blue\"".toList) (parsed s) :=
  parsed_lit "<span class=\"hint-blue\">" "span class=\"hint-blue\"" (by decide) s
theorem parsed_lit16 (s : Str) : parsed ("</span>".toList ++ s) = put (.tag "/span".toList) (parsed s) :=
  parsed_lit "</span>" "/span" (by decide) s
theorem parsed_lit17 (s : Str) : parsed ("</body>".toList ++ s) = put (.tag "/body".toList) (parsed s) :=
  parsed_lit "</body>" "/body" (by decide) s
theorem parsed_lit18 (s : Str) : parsed ("</html>".toList ++ s) = put (.tag "/html".toList) (parsed s) :=
  parsed_lit "</html>" "/html" (by decide) s
theorem parsed_lit19 (s : Str) : parsed ("<div>".toList ++ s) = put (.tag "div".toList) (parsed s) :=
  parsed_lit "<div>" "div" (by decide) s
theorem parsed_lit20 (s : Str) : parsed ("</div>".toList ++ s) = put (.tag "/div".toList) (parsed s) :=
  parsed_lit "</div>" "/div" (by decide) s
theorem parsed_lit21 (s : Str) : parsed ("<details open>".toList ++ s) = put (.tag "details open".toList) (parsed s) :=
  parsed_lit "<details open>" "details open" (by decide) s
theorem parsed_lit22 (s : Str) : parsed ("</details>".toList ++ s) = put (.tag "/details".toList) (parsed s) :=
  parsed_lit "</details>" "/details" (by decide) s
theorem parsed_lit23 (s : Str) : parsed ("<summary>".toList ++ s) = put (.tag "summary".toList) (parsed s) :=
  parsed_lit "<summary>" "summary" (by decide) s
theorem parsed_lit24 (s : Str) : parsed ("</summary>".toList ++ s) = put (.tag "/summary".toList) (parsed s) :=
  parsed_lit "</summary>" "/summary" (by decide) s
theorem parsed_lit25 (s : Str) : parsed ("<span class=\"game-caption\">".toList ++ s) = put (.tag "span class=\"game-caption\"".toList) (parsed s) :=
  parsed_lit "<span class=\"game-caption\">" "span class=\"game-caption\"" (by decide) s
theorem parsed_lit26 (s : Str) : parsed ("<table>".toList ++ s) = put (.tag "table".toList) (parsed s) :=
  parsed_lit "<table>" "table" (by decide) s
theorem parsed_lit27 (s : Str) : parsed ("</table>".toList ++ s) = put (.tag "/table".toList) (parsed s) :=
  parsed_lit "</table>" "/table" (by decide) s
theorem parsed_lit28 (s : Str) : parsed ("<tr>".toList ++ s) = put (.tag "tr".toList) (parsed s) :=
  parsed_lit "<tr>" "tr" (by decide) s
theorem parsed_lit29 (s : Str) : parsed ("</tr>".toList ++ s) = put (.tag "/tr".toList) (parsed s) :=
  parsed_lit "</tr>" "/tr" (by decide) s
theorem parsed_lit30 (s : Str) : parsed ("<th>".toList ++ s) = put (.tag "th".toList) (parsed s) :=
  parsed_lit "<th>" "th" (by decide) s
theorem parsed_lit31 (s : Str) : parsed ("</th>".toList ++ s) = put (.tag "/th".toList) (parsed s) :=
  parsed_lit "</th>" "/th" (by decide) s
theorem parsed_lit32 (s : Str) : parsed ("<br>".toList ++ s) = put (.tag "br".toList) (parsed s) :=
  parsed_lit "<br>" "br" (by decide) s
theorem parsed_lit33 (s : Str) : parsed ("<td>".toList ++ s) = put (.tag "td".toList) (parsed s) :=
  parsed_lit "<td>" "td" (by decide) s
theorem parsed_lit34 (s : Str) : parsed ("</td>".toList ++ s) = put (.tag "/td".toList) (parsed s) :=
  parsed_lit "</td>" "/td" (by decide) s
theorem parsed_lit35 (s : Str) : parsed ("<td class=\"tile\">".toList ++ s) = put (.tag "td class=\"tile\"".toList) (parsed s) :=
  parsed_lit "<td class=\"tile\">" "td class=\"tile\"" (by decide) s
theorem parsed_lit36 (s : Str) : parsed ("<details>".toList ++ s) = put (.tag "details".toList) (parsed s) :=
  parsed_lit "<details>" "details" (by decide) s
theorem parsed_lit37 (s : Str) : parsed ("<table class=\"description-table\">".toList ++ s) = put (.tag "table class=\"description-table\"".toList) (parsed s) :=
  parsed_lit "<table class=\"description-table\">" "table class=\"description-table\"" (by decide) s
theorem parsed_lit38 (s : Str) : parsed ("<div class=\"reasoning-tile\">".toList ++ s) = put (.tag "div class=\"reasoning-tile\"".toList) (parsed s) :=
  parsed_lit "<div class=\"reasoning-tile\">" "div class=\"reasoning-tile\"" (by decide) s
theorem parsed_lit39 (s : Str) : parsed ("<div class=\"blackbox\">".toList ++ s) = put (.tag "div class=\"blackbox\"".toList) (parsed s) :=
  parsed_lit "<div class=\"blackbox\">" "div class=\"blackbox\"" (by decide) s
theorem put_lit0 (stack : List (Str × Forest)) (f : Forest) :
    put (.tag "!DOCTYPE html".toList) (some (stack, f)) = some (stack, .el "!DOCTYPE html".toList .nil f) := rfl
theorem put_lit1 (stack : List (Str × Forest)) (f after : Forest) :
    put (.tag "html lang=\"en\"".toList) (some (("html".toList, after) :: stack, f)) = some (stack, .el "html lang=\"en\"".toList f after) := rfl
theorem put_lit2 (stack : List (Str × Forest)) (f after : Forest) :
    put (.tag "head".toList) (some (("head".toList, after) :: stack, f)) = some (stack, .el "head".toList f after) := rfl
theorem put_lit3 (stack : List (Str × Forest)) (f : Forest) :
    put (.tag "meta charset=\"UTF-8\"".toList) (some (stack, f)) = some (stack, .el "meta charset=\"UTF-8\"".toList .nil f) := rfl
theorem put_lit4 (stack : List (Str × Forest)) (f after : Forest) :
    put (.tag "title".toList) (some (("title".toList, after) :: stack, f)) = some (stack, .el "title".toList f after) := rfl
theorem put_lit5 (stack : List (Str × Forest)) (f : Forest) :
    put (.tag "/title".toList) (some (stack, f)) = some (("title".toList, f) :: stack, .nil) := rfl
theorem put_lit6 (stack : List (Str × Forest)) (f after : Forest) :
    put (.tag "style type=\"text/css\"".toList) (some (("style".toList, after) :: stack, f)) = some (stack, .el "style type=\"text/css\"".toList f after) := rfl
theorem put_lit7 (stack : List (Str × Forest)) (f : Forest) :
    put (.tag "/style".toList) (some (stack, f)) = some (("style".toList, f) :: stack, .nil) := rfl
theorem put_lit8 (stack : List (Str × Forest)) (f : Forest) :
    put (.tag "/head".toList) (some (stack, f)) = some (("head".toList, f) :: stack, .nil) := rfl
theorem put_lit9 (stack : List (Str × Forest)) (f after : Forest) :
    put (.tag "body".toList) (some (("body".toList, after) :: stack, f)) = some (stack, .el "body".toList f after) := rfl
theorem put_lit10 (stack : List (Str × Forest)) (f : Forest) :
    put (.tag "hr".toList) (some (stack, f)) = some (stack, .el "hr".toList .nil f) := rfl
theorem put_lit11 (stack : List (Str × Forest)) (f after : Forest) :
    put (.tag "p".toList) (some (("p".toList, after) :: stack, f)) = some (stack, .el "p".toList f after) := rfl
theorem put_lit12 (stack : List (Str × Forest)) (f : Forest) :
    put (.tag "/p".toList) (some (stack, f)) = some (("p".toList, f) :: stack, .nil) := rfl
theorem put_lit13 (stack : List (Str × Forest)) (f : Forest) :
    put (.tag "/a".toList) (some (stack, f)) = some (("a".toList, f) :: stack, .nil) := rfl
theorem put_lit14 (stack : List (Str × Forest)) (f after : Forest) :
    put (.tag "span class=\"hint-red\"".toList) (some (("span".toList, after) :: stack, f)) = some (stack, .el "span class=\"hint-red\"".toList f after) := rfl
theorem put_lit15 (stack : List (Str × Forest)) (f after : Forest) :
    put (.tag "span class=\"hint-blue\"".toList) (some (("span".toList, after) :: stack, f)) = some (stack, .el "span class=\"hint-blue\"".toList f after) := rfl
theorem put_lit16 (stack : List (Str × Forest)) (f : Forest) :
    put (.tag "/span".toList) (some (stack, f)) = some (("span".toList, f) :: stack, .nil) := rfl
theorem put_lit17 (stack : List (Str × Forest)) (f : Forest) :
    put (.tag "/body".toList) (some (stack, f)) = some (("body".toList, f) :: stack, .nil) := rfl
theorem put_lit18 (stack : List (Str × Forest)) (f : Forest) :
    put (.tag "/html".toList) (some (stack, f)) = some (("html".toList, f) :: stack, .nil) := rfl
theorem put_lit19 (stack : List (Str × Forest)) (f after : Forest) :
    put (.tag "div".toList) (some (("div".toList, after) :: stack, f)) = some (stack, .el "div".toList f after) := rfl
theorem put_lit20 (stack : List (Str × Forest)) (f : Forest) :
    put (.tag "/div".toList) (some (stack, f)) = some (("div".toList, f) :: stack, .nil) := rfl
theorem put_lit21 (stack : List (Str × Forest)) (f after : Forest) :
    put (.tag "details open".toList) (some (("details".toList, after) :: stack, f)) = some (stack, .el "details open".toList f after) := rfl
theorem put_lit22 (stack : List (Str × Forest)) (f : Forest) :
    put (.tag "/details".toList) (some (stack, f)) = some (("details".toList, f) :: stack, .nil) := rfl
theorem put_lit23 (stack : List (Str × Forest)) (f after : Forest) :
    put (.tag "summary".toList) (some (("summary".toList, after) :: stack, f)) = some (stack, .el "summary".toList f after) := rfl
theorem put_lit24 (stack : List (Str × Forest)) (f : Forest) :
    put (.tag "/summary".toList) (some (stack, f)) = some (("summary".toList, f) :: stack, .nil) := rfl
theorem put_lit25 (stack : List (Str × Forest)) (f after : Forest) :
    put (.tag "span class=\"game-caption\"".toList) (some (("span".toList, after) :: stack, f)) = some (stack, .el "span class=\"game-caption\"".toList f after) := rfl
theorem put_lit26 (stack : List (Str × Forest)) (f after : Forest) :
    put (.tag "table".toList) (some (("table".toList, after) :: stack, f)) = some (stack, .el "table".toList f after) := rfl
theorem put_lit27 (stack : List (Str × Forest)) (f : Forest) :
    put (.tag "/table".toList) (some (stack, f)) = some (("table".toList, f) :: stack, .nil) := rfl
theorem put_lit28 (stack : List (Str × Forest)) (f after : Forest) :
    put (.tag "tr".toList) (some (("tr".toList, after) :: stack, f)) = some (stack, .el "tr".toList f after) := rfl
theorem put_lit29 (stack : List (Str × Forest)) (f : Forest) :
    put (.tag "/tr".toList) (some (stack, f)) = some (("tr".toList, f) :: stack, .nil) := rfl
theorem put_lit30 (stack : List (Str × Forest)) (f after : Forest) :
    put (.tag "th".toList) (some (("th".toList, after) :: stack, f)) = some (stack, .el "th".toList f after) := rfl
theorem put_lit31 (stack : List (Str × Forest)) (f : Forest) :
    put (.tag "/th".toList) (some (stack, f)) = some (("th".toList, f) :: stack, .nil) := rfl
theorem put_lit32 (stack : List (Str × Forest)) (f : Forest) :
    put (.tag "br".toList) (some (stack, f)) = some (stack, .el "br".toList .nil f) := rfl
theorem put_lit33 (stack : List (Str × Forest)) (f after : Forest) :
    put (.tag "td".toList) (some (("td".toList, after) :: stack, f)) = some (stack, .el "td".toList f after) := rfl
theorem put_lit34 (stack : List (Str × Forest)) (f : Forest) :
    put (.tag "/td".toList) (some (stack, f)) = some (("td".toList, f) :: stack, .nil) := rfl
theorem put_lit35 (stack : List (Str × Forest)) (f after : Forest) :
    put (.tag "td class=\"tile\"".toList) (some (("td".toList, after) :: stack, f)) = some (stack, .el "td class=\"tile\"".toList f after) := rfl
theorem put_lit36 (stack : List (Str × Forest)) (f after : Forest) :
    put (.tag "details".toList) (some (("details".toList, after) :: stack, f)) = some (stack, .el "details".toList f after) := rfl
theorem put_lit37 (stack : List (Str × Forest)) (f after : Forest) :
    put (.tag "table class=\"description-table\"".toList) (some (("table".toList, after) :: stack, f)) = some (stack, .el "table class=\"description-table\"".toList f after) := rfl
theorem put_lit38 (stack : List (Str × Forest)) (f after : Forest) :
    put (.tag "div class=\"reasoning-tile\"".toList) (some (("div".toList, after) :: stack, f)) = some (stack, .el "div class=\"reasoning-tile\"".toList f after) := rfl
theorem put_lit39 (stack : List (Str × Forest)) (f after : Forest) :
    put (.tag "div class=\"blackbox\"".toList) (some (("div".toList, after) :: stack, f)) = some (stack, .el "div class=\"blackbox\"".toList f after) := rfl

/-- rewrites what is read of a page, with further lemmas -/
syntax "read_page" "[" Lean.Parser.Tactic.simpLemma,* "]" : tactic

macro_rules
  | `(tactic| read_page [$ls,*]) => `(tactic| simp (disch := decide) only [$ls,*, List.append_assoc, parsed_escape, parsed_nbsp,
  parsed_lit0, parsed_lit1, parsed_lit2, parsed_lit3, parsed_lit4, parsed_lit5, parsed_lit6, parsed_lit7, 
  parsed_lit8, parsed_lit9, parsed_lit10, parsed_lit11, parsed_lit12, parsed_lit13, parsed_lit14, parsed_lit15, 
  parsed_lit16, parsed_lit17, parsed_lit18, parsed_lit19, parsed_lit20, parsed_lit21, parsed_lit22, 
  parsed_lit23, parsed_lit24, parsed_lit25, parsed_lit26, parsed_lit27, parsed_lit28, parsed_lit29, 
  parsed_lit30, parsed_lit31, parsed_lit32, parsed_lit33, parsed_lit34, parsed_lit35, parsed_lit36, 
  parsed_lit37, parsed_lit38, parsed_lit39, parsed_plain, putText_some, put_lit0, put_lit1, put_lit2, put_lit3, 
  put_lit4, put_lit5, put_lit6, put_lit7, put_lit8, put_lit9, put_lit10, put_lit11, put_lit12, put_lit13, 
  put_lit14, put_lit15, put_lit16, put_lit17, put_lit18, put_lit19, put_lit20, put_lit21, put_lit22, put_lit23, 
  put_lit24, put_lit25, put_lit26, put_lit27, put_lit28, put_lit29, put_lit30, put_lit31, put_lit32, put_lit33, 
  put_lit34, put_lit35, put_lit36, put_lit37, put_lit38, put_lit39])

end Verif.Proofs
