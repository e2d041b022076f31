import Verif.Proofs.PageText

/-! The whole page, and what is looked up in it. -/
namespace Verif.Proofs
open Verif.Py Verif.Model Verif.Spec.Html

theorem plain_append (a b : Str) (ha : noMarkup a = true) (hb : noMarkup b = true) : noMarkup (a ++ b) = true := by
  unfold noMarkup at ha hb ⊢
  rw [List.all_append, ha, hb]
  rfl

set_option maxRecDepth 4000 in
theorem firstStyles_plain : noMarkup firstStyles = true := by decide +kernel

set_option maxRecDepth 4000 in
theorem otherStyles_plain : noMarkup otherStyles = true := by
  unfold otherStyles
  simp only [List.append_assoc]
  refine plain_append _ _ (by decide +kernel) ?_
  refine plain_append _ _ (by decide +kernel) ?_
  refine plain_append _ _ (by decide +kernel) ?_
  refine plain_append _ _ (by decide +kernel) ?_
  refine plain_append _ _ (by decide +kernel) ?_
  refine plain_append _ _ (by decide +kernel) ?_
  refine plain_append _ _ (by decide +kernel) ?_
  refine plain_append _ _ (by decide +kernel) ?_
  refine plain_append _ _ (by decide +kernel) ?_
  refine plain_append _ _ (by decide +kernel) ?_
  refine plain_append _ _ (by decide +kernel) ?_
  decide +kernel

/-- the tag of the link -/
def linkRaw (url : Str) : Str := "a href=\"".toList ++ escape url ++ ['"']

theorem linkRaw_closes (url : Str) : closes none (linkRaw url) = true :=
  quoted_closes "a href=" _ (escape_no_quote url) (by decide) (fun _ => rfl)

theorem parsed_link (url s : Str) : parsed ("<a href=\"".toList ++ (escape url ++ ("\">".toList ++ s))) =
    put (.tag (linkRaw url)) (parsed s) := by
  have e : ("<a href=\"".toList ++ (escape url ++ ("\">".toList ++ s))) = ('<' :: linkRaw url ++ ['>']) ++ s := by
    unfold linkRaw
    have e1 : "<a href=\"".toList = '<' :: "a href=\"".toList := rfl
    have e2 : "\">".toList = ['"', '>'] := rfl
    rw [e1, e2]
    simp
  rw [e, parsed_tag _ _ (linkRaw_closes url)]

theorem put_link (url : Str) (stack : List (Str × Forest)) (f after : Forest) :
    put (.tag (linkRaw url)) (some (("a".toList, after) :: stack, f)) = some (stack, .el (linkRaw url) f after) := rfl

/-- the head of the page -/
def headF (styles : Str) : Forest :=
  charsF "\n    ".toList (.el "meta charset=\"UTF-8\"".toList .nil (charsF "\n    ".toList (.el "title".toList
    (charsF "Record Checker Result".toList .nil) (charsF "\n    ".toList (.el "style type=\"text/css\"".toList
      (charsF firstStyles (charsF styles (charsF otherStyles .nil))) (charsF "\n".toList .nil))))))

/-- the paragraphs with the hints, and what follows -/
def hintsF (f : Forest) : Forest :=
  .el "p".toList (charsF "\n    Hint: ".toList (.el "span class=\"hint-red\"".toList (charsF "Red".toList .nil)
    (charsF " color is before richii,\n    ".toList (.el "span class=\"hint-blue\"".toList (charsF "Blue".toList .nil)
      (charsF " Color is after richii, which could be accepted(may go to defence, or could't\n    change waiting tiles.)\n\n\n".toList .nil)))))
  (charsF "\n".toList (.el "p".toList (charsF "The more it colored, the worse it has been choosen.".toList .nil)
  (charsF "\n".toList (.el "p".toList (charsF "\n    提示：".toList (.el "span class=\"hint-red\"".toList (charsF "红色".toList .nil)
    (charsF "为立直前，".toList (.el "span class=\"hint-blue\"".toList (charsF "蓝色".toList .nil)
      (charsF "为立直后，可以接受（可能进入防守，或者无法切换听牌。）\n".toList .nil)))))
  (charsF "\n\n".toList f)))))

/-- the body of the page -/
def bodyF (tiles : List Str) (player record url : Str) (games : Forest → Forest) : Forest :=
  charsF "\n\n\n\n\n\n\n\n\n\n".toList (tilesF "big" tiles (charsF "\n\n".toList (.el "hr".toList .nil (charsF "\n\n".toList
    (tilesF "small" tiles (charsF "\n\n".toList (.el "p".toList (charsF " Player: ".toList (charsF player (charsF " ".toList .nil)))
    (charsF "\n".toList (.el "p".toList (charsF record (charsF " ".toList (.el (linkRaw url) (charsF "Link".toList .nil) .nil)))
    (charsF "\n\n".toList (hintsF (games (charsF "\n".toList .nil)))))))))))))

/-- the trees of the page -/
def pageF (tiles : List Str) (styles player record url : Str) (games : Forest → Forest) : Forest :=
  .el "!DOCTYPE html".toList .nil (charsF "\n".toList (.el "html lang=\"en\"".toList
    (charsF "\n".toList (.el "head".toList (headF styles) (charsF "\n".toList (.el "body".toList
      (bodyF tiles player record url games) (charsF "\n".toList .nil)))))
    .nil))

theorem parsed_nil : parsed [] = some ([], .nil) := rfl

set_option maxRecDepth 10000 in
theorem parsed_page (tiles : List Str) (styles player record url games : Str) (st : Str) (gs : Forest → Forest)
    (hs : ∀ s, parsed (styles ++ s) = lift (charsF st) (parsed s)) (hg : ∀ s, parsed (games ++ s) = lift gs (parsed s)) :
    parsed (pageHtml tiles styles player record url games) = some ([], pageF tiles st player record url gs) := by
  have e := List.append_nil (pageHtml tiles styles player record url games)
  rw [← e]
  have h1 := firstStyles_plain
  have h2 := otherStyles_plain
  unfold pageHtml pageF headF
  generalize firstStyles = a at h1 ⊢
  generalize otherStyles = b at h2 ⊢
  have p1 := fun s => parsed_plain a s h1
  have p2 := fun s => parsed_plain b s h2
  read_page [parsed_tiles, hs, hg, parsed_link, parsed_nil, lift_some, put_link, p1, p2]
  unfold bodyF hintsF
  rfl

end Verif.Proofs
