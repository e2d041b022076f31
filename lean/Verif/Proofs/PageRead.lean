import Verif.Proofs.PageWhole
import Verif.Proofs.Str
import Verif.Spec.Page

/-! What is looked up in the trees of the page. -/
namespace Verif.Proofs
open Verif.Py Verif.Model Verif.Spec Verif.Spec.Html

/-! ### Tags with one attribute -/

theorem attr_quoted (key name : String) (v : Str) (hv : '"' ∉ v) (hq : '"' ∉ name.toList ++ ' ' :: key.toList ++ ['='])
    (hn : tagName (name.toList ++ ' ' :: key.toList ++ ['='] ++ '"' :: (v ++ ['"'])) = name.toList) :
    attrValue key (name.toList ++ ' ' :: key.toList ++ ['='] ++ '"' :: (v ++ ['"'])) = resolved v := by
  unfold attrValue
  rw [hn, parts_append _ _ _ hq, parts_append _ _ _ hv]
  simp [parts]

theorem outside_quoted (a v : Str) (hv : '"' ∉ v) (ha : '"' ∉ a) : outside (parts '"' (a ++ '"' :: (v ++ ['"']))) = [a, []] := by
  rw [parts_append _ _ _ ha, parts_append _ _ _ hv]
  simp [parts, outside]

theorem tile_value (size : String) (t : Str) : '"' ∉ "pic".toList ++ (escape t ++ (" ".toList ++ escape size.toList)) := by
  simp only [List.mem_append, not_or]
  exact ⟨by decide, escape_no_quote t, by decide, escape_no_quote _⟩

theorem tileRaw_class (size : String) (t : Str) : attrValue "class" (tileRaw size t) = some ("pic".toList ++ (t ++ ' ' :: size.toList)) := by
  have h := attr_quoted "class" "div" _ (tile_value size t) (by decide) rfl
  have e : tileRaw size t = "div".toList ++ ' ' :: "class".toList ++ ['='] ++
      '"' :: (("pic".toList ++ (escape t ++ (" ".toList ++ escape size.toList))) ++ ['"']) := rfl
  rw [e, h, resolved_append _ _ (by decide), resolved_escape, resolved_append _ _ (by decide)]
  have : resolved (escape size.toList) = some size.toList := by
    have := resolved_escape size.toList []
    simpa [resolved_nil] using this
  rw [this]
  rfl

theorem tileRaw_outside (size : String) (t : Str) : outside (parts '"' (tileRaw size t)) = ["div class=".toList, []] :=
  outside_quoted "div class=".toList _ (tile_value size t) (by decide)

theorem row_value (float : Rat → Str) (r : RoundReasoning) :
    '"' ∉ "background-color: ".toList ++ (rowColour r ++ (escape (float r.wrongRate) ++ ");".toList)) := by
  simp only [List.mem_append, not_or]
  exact ⟨by decide, rowColour_quote r, escape_no_quote _, by decide⟩

theorem rowRaw_style (float : Rat → Str) (r : RoundReasoning) : attrValue "style" (rowRaw float r) =
    some ("background-color: ".toList ++
    ((if r.somebodyRichii then " rgba(0, 0, 255, ".toList else " rgba(255, 0, 0, ".toList) ++ (float r.wrongRate ++ ");".toList))) := by
  have h := attr_quoted "style" "tr" _ (row_value float r) (by decide) rfl
  have e : rowRaw float r = "tr".toList ++ ' ' :: "style".toList ++ ['='] ++
      '"' :: (("background-color: ".toList ++ (rowColour r ++ (escape (float r.wrongRate) ++ ");".toList))) ++ ['"']) := rfl
  rw [e, h, resolved_append _ _ (by decide), resolved_append _ _ (by unfold rowColour; split <;> decide), resolved_escape]
  rfl

theorem rowRaw_outside (float : Rat → Str) (r : RoundReasoning) : outside (parts '"' (rowRaw float r)) = ["tr style=".toList, []] :=
  outside_quoted "tr style=".toList _ (row_value float r) (by decide)

theorem linkRaw_href (url : Str) : attrValue "href" (linkRaw url) = some url := by
  have h := attr_quoted "href" "a" _ (escape_no_quote url) (by decide) rfl
  have e : linkRaw url = "a".toList ++ ' ' :: "href".toList ++ ['='] ++ '"' :: (escape url ++ ['"']) := rfl
  rw [e, h]
  have := resolved_escape url []
  simpa [resolved_nil] using this

theorem linkRaw_outside (url : Str) : outside (parts '"' (linkRaw url)) = ["a href=".toList, []] :=
  outside_quoted "a href=".toList _ (escape_no_quote url) (by decide)

/-! ### Pictures -/

theorem children_tiles (name : String) (size : String) (l : List Str) (f : Forest) (h : name.toList ≠ "div".toList) :
    (tilesF size l f).children name = f.children name := by
  induction l with
  | nil => rfl
  | cons t l ih =>
    simp only [tilesF, List.foldr_cons, Forest.children] at ih ⊢
    rw [tileRaw_name, if_neg (fun e => h e.symm)]
    exact ih

theorem content_pics (size : String) (l : List Str) (f : Forest) : (tilesF size l f).content = f.content := by
  induction l with
  | nil => rfl
  | cons t l ih =>
    simp only [tilesF, List.foldr_cons, Forest.content, List.nil_append] at ih ⊢
    exact ih

theorem pictures_tiles (size : String) (l : List Str) (f : Forest) :
    (tilesF size l f).pictures = tilePictures size l ++ f.pictures := by
  induction l with
  | nil => rfl
  | cons t l ih =>
    simp only [tilesF, tilePictures, List.foldr_cons, Forest.pictures, List.append_nil, List.map_cons] at ih ⊢
    rw [ih, tileRaw_class]
    simp only
    rw [if_pos ⟨t ++ ' ' :: size.toList, rfl⟩]
    rfl

theorem tilePictures_append (size : String) (a b : List Str) :
    tilePictures size (a ++ b) = tilePictures size a ++ tilePictures size b := by simp [tilePictures]

theorem pictures_melds (l : List (List Str)) (f : Forest) : (meldsF l f).pictures = tilePictures "big" l.flatten ++ f.pictures := by
  induction l with
  | nil => rfl
  | cons m l ih =>
    simp only [meldsF, List.foldr_cons, List.flatten_cons] at ih ⊢
    rw [pictures_tiles, pictures_charsF, ih, tilePictures_append, List.append_assoc]

theorem pictures_expected (l : List NItem) (f : Forest) :
    (expectedF l f).pictures = tilePictures "big" (l.flatMap (fun x => x.discard)) ++ f.pictures := by
  induction l with
  | nil => rfl
  | cons m l ih =>
    simp only [expectedF, List.foldr_cons, List.flatMap_cons] at ih ⊢
    rw [pictures_charsF, pictures_tiles, ih, tilePictures_append, List.append_assoc]

/-! ### Elements -/

theorem children_el_eq (name : String) (raw : Str) (i f : Forest) (h : tagName raw = name.toList) :
    (Forest.el raw i f).children name = (raw, i) :: f.children name := by
  simp only [Forest.children]
  rw [if_pos h]

theorem children_el_ne (name : String) (raw : Str) (i f : Forest) (h : tagName raw ≠ name.toList) :
    (Forest.el raw i f).children name = f.children name := by
  simp only [Forest.children]
  rw [if_neg h]

theorem children_nil (name : String) : Forest.children name .nil = [] := rfl

theorem pictures_el (raw : Str) (i f : Forest) (h : attrValue "class" raw = none ∨ ∃ v, attrValue "class" raw = some v ∧ ¬ "pic".toList <+: v) :
    (Forest.el raw i f).pictures = i.pictures ++ f.pictures := by
  simp only [Forest.pictures]
  rcases h with h | ⟨v, h, hv⟩
  · rw [h]; rfl
  · rw [h]
    simp only
    rw [if_neg hv]
    rfl

theorem pictures_nil : Forest.pictures .nil = [] := rfl
theorem content_nil : Forest.content .nil = [] := rfl

/-! ### Words -/

theorem digit_not_blank : ∀ c, isDigit c = true → blank c = false := by
  intro c h
  unfold blank
  by_cases h1 : c = ' '
  · subst h1; revert h; decide
  by_cases h2 : c = '\n'
  · subst h2; revert h; decide
  simp [h1, h2]

theorem natDigits_word (n : Nat) : words (natDigits n) = [natDigits n] :=
  words_one _ (natDigits_ne_nil n) (fun c hc => digit_not_blank c (natDigits_all n c hc))

theorem pyStrInt_word (n : Int) : words (pyStrInt n) = [pyStrInt n] := by
  refine words_one _ ?_ ?_
  · unfold pyStrInt
    split
    · simp
    · exact natDigits_ne_nil _
  · intro c hc
    unfold pyStrInt at hc
    split at hc
    · rcases List.mem_cons.1 hc with e | e
      · subst e; decide
      · exact digit_not_blank c (natDigits_all _ c e)
    · exact digit_not_blank c (natDigits_all _ c hc)

theorem words_ends (a s : Str) (h : ∃ b c, a = b ++ [c] ∧ blank c = true) : words (a ++ s) = words a ++ words s := by
  obtain ⟨b, c, e, hc⟩ := h
  rw [e, List.append_assoc, List.singleton_append, words_blank _ _ _ hc, words_blank _ _ _ hc, words_nil, List.append_nil]

theorem words_starts (x a s : Str) (h : ∃ b c, a = c :: b ∧ blank c = true) : words (x ++ (a ++ s)) = words x ++ words (a ++ s) := by
  obtain ⟨b, c, e, hc⟩ := h
  rw [e, List.cons_append, words_blank _ _ _ hc, words_cons _ _ hc]

theorem words_steps (a b c : Str) (n m : Int) (ha : ∃ b c, a = b ++ [c] ∧ blank c = true)
    (hb : ∃ d c, b = d ++ [c] ∧ blank c = true) (hb' : ∃ d c, b = c :: d ∧ blank c = true) (hc : c = [] ∨ ∃ d x, c = x :: d ∧ blank x = true) :
    words (a ++ (pyStrInt n ++ (b ++ (pyStrInt m ++ c)))) = words a ++ (pyStrInt n :: (words b ++ (pyStrInt m :: words c))) := by
  rw [words_ends _ _ ha, words_starts _ _ _ hb', words_ends _ _ hb, pyStrInt_word]
  rcases hc with e | ⟨d, x, e, hx⟩
  · rw [e, List.append_nil, pyStrInt_word, words_nil]
    rfl
  · rw [e, words_blank _ _ _ hx, words_cons _ _ hx, pyStrInt_word]
    rfl

/-! ### Items -/

theorem item_read (x : NItem) (f : Forest) : ∃ raw i g, itemF x f = charsF "\n        ".toList (.el raw i (charsF "\n    ".toList f)) ∧
    tagName raw = "div".toList ∧ g = i ∧ readItem i = some (shownItem x) := by
  refine ⟨_, _, _, rfl, rfl, rfl, ?_⟩
  unfold readItem
  simp only [children_charsF, children_nil]
  rw [children_el_eq "div" "div".toList _ _ rfl, children_charsF, children_el_eq "div" "div".toList _ _ rfl, children_charsF, children_nil]
  simp only
  unfold shownItem
  congr 1
  simp only [pictures_charsF, pictures_tiles, content_charsF, content_pics, content_nil, pictures_nil, Forest.content]
  rw [pictures_el _ _ _ (Or.inr ⟨"blackbox".toList, by decide, by decide⟩)]
  simp only [pictures_charsF, pictures_nil, List.append_nil]
  congr 1
  unfold shownSteps
  simp only [List.append_assoc]
  have e : "Discard".toList ++ ([Char.ofNat 160] ++ ("\n                ".toList ++ ("\n                    Steps ".toList ++
      (pyStrInt x.step ++ ("\n                    Tiles ".toList ++ (pyStrInt x.count ++ ("\n                ".toList ++
        "\n            ".toList))))))) =
      ("Discard".toList ++ [Char.ofNat 160] ++ "\n                ".toList ++ "\n                    Steps ".toList) ++
      (pyStrInt x.step ++ ("\n                    Tiles ".toList ++ (pyStrInt x.count ++ ("\n                ".toList ++
        "\n            ".toList)))) := by simp only [List.append_assoc]
  rw [e, words_steps _ _ _ _ _ ⟨"Discard".toList ++ [Char.ofNat 160] ++ "\n                ".toList ++ "\n                    Steps".toList, ' ', by decide, by decide⟩
    ⟨"\n                    Tiles".toList, ' ', by decide, by decide⟩ ⟨"                    Tiles ".toList, '\n', by decide, by decide⟩
    (Or.inr ⟨"                ".toList ++ "\n            ".toList, '\n', by decide, by decide⟩)]
  have e1 : words ("Discard".toList ++ [Char.ofNat 160] ++ "\n                ".toList ++ "\n                    Steps ".toList) =
    ["Discard".toList ++ [Char.ofNat 160], "Steps".toList] := by decide
  have e2 : words "\n                    Tiles ".toList = ["Tiles".toList] := by decide
  have e3 : words ("\n                ".toList ++ "\n            ".toList) = [] := by decide
  rw [e1, e2, e3]
  rfl

theorem items_read (l : List NItem) (f : Forest) (h : f.children "div" = []) :
    readAll (fun e : Str × Forest => readItem e.2) ((itemsF l f).children "div") = some (l.map shownItem) := by
  induction l with
  | nil =>
    simp only [itemsF, List.foldr_nil, h]
    rfl
  | cons x l ih =>
    obtain ⟨raw, i, g, e1, e2, _, e3⟩ := item_read x (itemsF l f)
    have e0 : itemsF (x :: l) f = itemF x (itemsF l f) := rfl
    rw [e0, e1, children_charsF, children_el_eq _ _ _ _ e2, children_charsF]
    simp only [readAll, e3, ih]
    rfl

theorem items_other (name : String) (hn : name.toList ≠ "div".toList) (l : List NItem) (f : Forest) :
    (itemsF l f).children name = f.children name := by
  induction l with
  | nil => rfl
  | cons x l ih =>
    obtain ⟨raw, i, g, e1, e2, _, _⟩ := item_read x (itemsF l f)
    have e0 : itemsF (x :: l) f = itemF x (itemsF l f) := rfl
    rw [e0, e1, children_charsF, children_el_ne _ _ _ _ (by rw [e2]; exact fun e => hn e.symm), children_charsF, ih]

/-! ### Rows -/

theorem steps_words (x : NItem) : words (stepsF x .nil).content = shownSteps x := by
  unfold stepsF
  simp only [content_charsF, content_nil]
  rw [words_steps _ _ _ _ _ ⟨"Steps".toList, ' ', by decide, by decide⟩
    ⟨"\n                                                Tiles".toList, ' ', by decide, by decide⟩
    ⟨"                                                Tiles ".toList, '\n', by decide, by decide⟩ (Or.inl rfl)]
  have e2 : words "\n                                                Tiles ".toList = ["Tiles".toList] := by decide
  rw [e2]
  rfl

theorem summary_read (r : RoundReasoning) (best : NItem) :
    (tableCells (summaryF r best)).map (fun c => words c.content) =
      [["Expected".toList], shownSteps best, ["Actual".toList], shownSteps r.yourChoice] := by
  have e : tableCells (summaryF r best) = [charsF "Expected".toList .nil, stepsF best .nil, charsF "Actual".toList .nil, stepsF r.yourChoice .nil] := by
    unfold tableCells summaryF
    rw [children_charsF, children_el_eq _ _ _ _ rfl, children_charsF, children_nil]
    simp only [List.flatMap_cons, List.flatMap_nil, List.append_nil]
    rw [children_charsF, children_el_eq _ _ _ _ rfl, children_charsF, children_el_eq _ _ _ _ rfl, children_charsF, children_nil]
    simp only [List.flatMap_cons, List.flatMap_nil, List.append_nil]
    simp only [children_charsF]
    simp only [children_el_eq "td" "td".toList _ _ rfl, children_charsF, children_nil]
    rfl
  rw [e]
  simp only [List.map_cons, List.map_nil, steps_words, content_charsF, content_nil, List.append_nil]
  rfl

theorem more_read (title : Str) (l : List NItem) (f : Forest) : ∃ i, moreF title l f = .el "details".toList i f ∧
    readMore i = some (words title, l.map shownItem) := by
  refine ⟨_, rfl, ?_⟩
  unfold readMore
  rw [children_charsF, children_el_eq _ _ _ _ rfl, children_charsF, items_other _ (by decide), children_charsF, children_nil,
    children_charsF, children_el_ne "div" _ _ _ (by decide), children_charsF, items_read _ _ (by rw [children_charsF, children_nil])]
  simp only [content_charsF, content_nil, List.append_nil]

theorem row_read (float : Rat → Str) (index : Nat) (r : RoundReasoning) :
    readRow (rowRaw float r, rowInside index r (bestOf r)) = some (shownRow float index r) := by
  unfold readRow
  have hc : (rowInside index r (bestOf r)).children "td" =
      [("td".toList, charsF (natDigits index) .nil),
       ("td".toList, charsF "\n                            ".toList (meldsF r.melds
        (charsF "\n                            ".toList (tilesF "big" r.hand (charsF "\n                        ".toList .nil))))),
       ("td class=\"tile\"".toList, tilesF "big" r.yourChoice.discard .nil),
       ("td class=\"tile\"".toList, charsF "\n                            ".toList (expectedF r.expected (charsF "\n                        ".toList .nil))),
       ("td".toList, charsF "\n                            ".toList (.el "details".toList (detailsF r (bestOf r))
              (charsF "\n                        ".toList .nil)))] := by
    unfold rowInside
    simp only [children_charsF]
    rw [children_el_eq _ _ _ _ rfl, children_charsF, children_el_eq _ _ _ _ rfl, children_charsF, children_el_eq _ _ _ _ rfl,
      children_charsF, children_el_eq _ _ _ _ rfl, children_charsF, children_el_eq _ _ _ _ rfl, children_charsF, children_nil]
  rw [hc, rowRaw_style]
  simp only
  rw [children_charsF, children_el_eq _ _ _ _ rfl, children_charsF, children_nil]
  simp only
  unfold detailsF
  obtain ⟨i2, m2, r2⟩ := more_read "\n                                        Seven-Pair Reasoning\n                                    ".toList
    (r.table "seven_pair_reasonings") (charsF "\n                            ".toList .nil)
  rw [m2]
  obtain ⟨i1, m1, r1⟩ := more_read "\n                                        Normal-Type Reasoning\n                                    ".toList
    (r.table "normal_reasonings") (charsF "\n                                ".toList (.el "details".toList i2 (charsF "\n                            ".toList .nil)))
  rw [m1]
  have hsum : (charsF "\n                                ".toList (.el "summary".toList (summaryF r (bestOf r))
    (charsF "\n                                ".toList (itemsF r.merged
      (charsF "\n                                ".toList
        (.el "details".toList i1 (charsF "\n                                ".toList (.el "details".toList i2 (charsF "\n                            ".toList .nil))))))))).children "summary" =
      [("summary".toList, summaryF r (bestOf r))] := by
    rw [children_charsF, children_el_eq _ _ _ _ rfl, children_charsF, items_other _ (by decide), children_charsF,
      children_el_ne _ _ _ _ (by decide), children_charsF, children_el_ne _ _ _ _ (by decide), children_charsF, children_nil]
  have hdiv : readAll (fun e : Str × Forest => readItem e.2) ((charsF "\n                                ".toList (.el "summary".toList (summaryF r (bestOf r))
    (charsF "\n                                ".toList (itemsF r.merged
      (charsF "\n                                ".toList
        (.el "details".toList i1 (charsF "\n                                ".toList (.el "details".toList i2 (charsF "\n                            ".toList .nil))))))))).children "div") =
      some (r.merged.map shownItem) := by
    rw [children_charsF, children_el_ne _ _ _ _ (by decide), children_charsF, items_read]
    rw [children_charsF, children_el_ne _ _ _ _ (by decide), children_charsF, children_el_ne _ _ _ _ (by decide), children_charsF, children_nil]
  have hdet : (charsF "\n                                ".toList (.el "summary".toList (summaryF r (bestOf r))
    (charsF "\n                                ".toList (itemsF r.merged
      (charsF "\n                                ".toList
        (.el "details".toList i1 (charsF "\n                                ".toList (.el "details".toList i2 (charsF "\n                            ".toList .nil))))))))).children "details" =
      [("details".toList, i1), ("details".toList, i2)] := by
    rw [children_charsF, children_el_ne _ _ _ _ (by decide), children_charsF, items_other _ (by decide), children_charsF,
      children_el_eq _ _ _ _ rfl, children_charsF, children_el_eq _ _ _ _ rfl, children_charsF, children_nil]
  rw [hsum, hdiv, hdet]
  simp only [readAll, r1, r2, summary_read]
  unfold shownRow
  simp only [content_charsF, content_nil, pictures_charsF, pictures_melds, pictures_tiles, pictures_expected, pictures_nil, List.append_nil,
    tilePictures_append]
  have w1 : words "\n                                        Normal-Type Reasoning\n                                    ".toList = ["Normal-Type".toList, "Reasoning".toList] := by decide
  have w2 : words "\n                                        Seven-Pair Reasoning\n                                    ".toList = ["Seven-Pair".toList, "Reasoning".toList] := by decide
  rw [w1, w2]
  rfl

theorem rows_read (float : Rat → Str) (l : List RoundReasoning) : ∀ (index : Nat) (f : Forest), f.children "tr" = [] →
    readAll readRow ((rowsF float index l f).children "tr") = some ((l.zipIdx index).map (fun e => shownRow float e.2 e.1)) := by
  induction l with
  | nil =>
    intro index f h
    simp only [rowsF, h]
    rfl
  | cons r l ih =>
    intro index f h
    simp only [rowsF, rowF]
    rw [children_charsF, children_el_eq _ _ _ _ rfl, children_charsF]
    simp only [readAll, row_read, ih (index + 1) f h]
    rfl

theorem game_read (float : Rat → Str) (title : Str) (rows : List RoundReasoning) :
    readGame (gameInside float title rows) = some (title, shownRows float rows) := by
  unfold readGame gameInside
  rw [children_charsF, children_el_eq _ _ _ _ rfl, children_charsF, children_el_ne _ _ _ _ (by decide), children_charsF, children_nil,
    children_charsF, children_el_ne _ _ _ _ (by decide), children_charsF, children_el_eq _ _ _ _ rfl, children_charsF, children_nil]
  simp only
  rw [children_charsF, children_el_eq _ _ _ _ rfl, children_charsF]
  simp only
  rw [rows_read float rows 1 _ (by rw [children_charsF, children_nil])]
  simp only [Forest.content, content_charsF, content_nil, List.append_nil]
  unfold shownRows
  congr 2
  rw [List.zipIdx_eq_map_add, List.map_map]
  exact List.map_congr_left (fun e _ => by simp only [Function.comp]; congr 1; omega)

theorem games_read (float : Rat → Str) (l : List (Str × List RoundReasoning)) (f : Forest) (h : f.children "div" = []) :
    readAll (fun d : Str × Forest => readGame d.2) (((gamesF float l f).children "div").flatMap (fun d => d.2.children "details")) =
      some (l.map (fun g => (g.1, shownRows float g.2))) := by
  induction l with
  | nil =>
    simp only [gamesF, List.foldr_nil, h, List.flatMap_nil]
    rfl
  | cons g l ih =>
    have e0 : gamesF float (g :: l) f = gameF float g (gamesF float l f) := rfl
    rw [e0]
    unfold gameF
    rw [children_charsF, children_el_eq _ _ _ _ rfl, children_charsF, List.flatMap_cons]
    simp only
    rw [children_charsF, children_el_eq _ _ _ _ rfl, children_charsF, children_nil]
    simp only [List.cons_append, List.nil_append, readAll, game_read, ih]
    rfl

end Verif.Proofs
