import Verif.Proofs.PageRead

/-! What is looked up in the whole page, and all its tags. -/
namespace Verif.Proofs
open Verif.Py Verif.Model Verif.Spec Verif.Spec.Html

/-! ### The body -/

theorem details_tiles (size : String) (l : List Str) (f : Forest) :
    ((tilesF size l f).children "div").flatMap (fun d => d.2.children "details") =
      (f.children "div").flatMap (fun d => d.2.children "details") := by
  induction l with
  | nil => rfl
  | cons t l ih =>
    have e0 : tilesF size (t :: l) f = .el (tileRaw size t) .nil (tilesF size l f) := rfl
    rw [e0, children_el_eq _ _ _ _ (tileRaw_name size t), List.flatMap_cons, ih]
    rfl

theorem children_games (name : String) (hn : name.toList ≠ "div".toList) (float : Rat → Str) (l : List (Str × List RoundReasoning))
    (f : Forest) : (gamesF float l f).children name = f.children name := by
  induction l with
  | nil => rfl
  | cons g l ih =>
    have e0 : gamesF float (g :: l) f = gameF float g (gamesF float l f) := rfl
    rw [e0]
    unfold gameF
    rw [children_charsF, children_el_ne _ _ _ _ (fun e => hn e.symm), children_charsF, ih]

theorem body_games (float : Rat → Str) (tiles : List Str) (player record url : Str) (l : List (Str × List RoundReasoning)) :
    readAll (fun d : Str × Forest => readGame d.2)
      (((bodyF tiles player record url (gamesF float l)).children "div").flatMap (fun d => d.2.children "details")) =
      some (l.map (fun g => (g.1, shownRows float g.2))) := by
  unfold bodyF hintsF
  rw [children_charsF, details_tiles, children_charsF, children_el_ne _ _ _ _ (by decide), children_charsF, details_tiles,
    children_charsF, children_el_ne _ _ _ _ (by decide), children_charsF, children_el_ne _ _ _ _ (by decide),
    children_charsF, children_el_ne _ _ _ _ (by decide), children_charsF, children_el_ne _ _ _ _ (by decide),
    children_charsF, children_el_ne _ _ _ _ (by decide), children_charsF]
  exact games_read float l _ (by rw [children_charsF, children_nil])

theorem body_paragraphs (float : Rat → Str) (tiles : List Str) (player record url : Str) (l : List (Str × List RoundReasoning)) :
    ∃ h1 h2 h3, (bodyF tiles player record url (gamesF float l)).children "p" =
      [("p".toList, charsF " Player: ".toList (charsF player (charsF " ".toList .nil))),
       ("p".toList, charsF record (charsF " ".toList (.el (linkRaw url) (charsF "Link".toList .nil) .nil))),
       ("p".toList, h1), ("p".toList, h2), ("p".toList, h3)] ∧
      h1.children "a" = [] ∧ h2.children "a" = [] ∧ h3.children "a" = [] := by
  unfold bodyF hintsF
  rw [children_charsF, children_tiles _ _ _ _ (by decide), children_charsF, children_el_ne _ _ _ _ (by decide), children_charsF,
    children_tiles _ _ _ _ (by decide), children_charsF, children_el_eq _ _ _ _ rfl, children_charsF, children_el_eq _ _ _ _ rfl,
    children_charsF, children_el_eq _ _ _ _ rfl, children_charsF, children_el_eq _ _ _ _ rfl, children_charsF, children_el_eq _ _ _ _ rfl,
    children_charsF, children_games _ (by decide), children_charsF, children_nil]
  refine ⟨_, _, _, rfl, ?_, ?_, ?_⟩
  · rw [children_charsF, children_el_ne _ _ _ _ (by decide), children_charsF, children_el_ne _ _ _ _ (by decide), children_charsF, children_nil]
  · rw [children_charsF, children_nil]
  · rw [children_charsF, children_el_ne _ _ _ _ (by decide), children_charsF, children_el_ne _ _ _ _ (by decide), children_charsF, children_nil]

theorem page_html (tiles : List Str) (st player record url : Str) (gs : Forest → Forest) :
    ∃ h, (pageF tiles st player record url gs).children "html" = [("html lang=\"en\"".toList, h)] ∧
      h.children "head" = [("head".toList, headF st)] ∧
      h.children "body" = [("body".toList, bodyF tiles player record url gs)] := by
  unfold pageF
  refine ⟨charsF "\n".toList (.el "head".toList (headF st) (charsF "\n".toList (.el "body".toList
      (bodyF tiles player record url gs) (charsF "\n".toList .nil)))), ?_, ?_, ?_⟩
  · rw [children_el_ne _ _ _ _ (by decide), children_charsF, children_el_eq _ _ _ _ rfl, children_nil]
  · rw [children_charsF, children_el_eq _ _ _ _ rfl, children_charsF, children_el_ne _ _ _ _ (by decide), children_charsF, children_nil]
  · rw [children_charsF, children_el_ne _ _ _ _ (by decide), children_charsF, children_el_eq _ _ _ _ rfl, children_charsF, children_nil]

theorem readBody_page {text : Str} {tiles : List Str} {st player record url : Str} {gs : Forest → Forest}
    (h : document text = some (pageF tiles st player record url gs)) : readBody text = some (bodyF tiles player record url gs) := by
  obtain ⟨i, h1, _, h2⟩ := page_html tiles st player record url gs
  unfold readBody
  rw [h]
  simp only [h1, h2]

/-! ### The page of a `Page` -/

theorem html_ok {picture : Str → Except PyErr (List Nat)} {float : Rat → Str} {name : TPlayer → Str} {p : Page} {text : Str}
    (h : p.html picture float name = .ok text) :
    ∃ player record styles games, p.player.text name = .ok player ∧ p.record.text name = .ok record ∧
      stylesHtml picture p.tiles = .ok styles ∧ gamesHtml float p.games = .ok games ∧
      text = pageHtml p.tiles styles player record (p.logUrl.getD "None".toList) games := by
  unfold Page.html at h
  cases e1 : p.player.text name with
  | error x => rw [e1] at h; simp [bind, Except.bind] at h
  | ok player =>
    cases e2 : p.record.text name with
    | error x => rw [e1, e2] at h; simp [bind, Except.bind] at h
    | ok record =>
      cases e3 : stylesHtml picture p.tiles with
      | error x => rw [e1, e2, e3] at h; simp [bind, Except.bind] at h
      | ok styles =>
        cases e4 : gamesHtml float p.games with
        | error x => rw [e1, e2, e3, e4] at h; simp [bind, Except.bind] at h
        | ok games =>
          rw [e1, e2, e3, e4] at h
          simp only [bind, Except.bind, pure, Except.pure, Except.ok.injEq] at h
          exact ⟨player, record, styles, games, rfl, rfl, rfl, rfl, h.symm⟩

theorem html_document {picture : Str → Except PyErr (List Nat)} {float : Rat → Str} {name : TPlayer → Str} {p : Page} {text : Str}
    (h : p.html picture float name = .ok text) :
    ∃ player record, p.player.text name = .ok player ∧ p.record.text name = .ok record ∧
      (∀ x ∈ p.tiles, ∃ b, picture (x ++ ".png".toList) = .ok b) ∧
      document text = some (pageF p.tiles (stylesText picture p.tiles) player record (p.logUrl.getD "None".toList) (gamesF float p.games)) := by
  obtain ⟨player, record, styles, games, h1, h2, h3, h4, h5⟩ := html_ok h
  refine ⟨player, record, h1, h2, (parsed_styles picture p.tiles styles [] h3).1, ?_⟩
  rw [h5]
  refine document_parsed _ _ ?_
  exact parsed_page _ _ _ _ _ _ _ _ (fun s => (parsed_styles picture p.tiles styles s h3).2) (fun s => parsed_games float p.games games s h4)

/-! ### Tags -/

/-- all tags are tags of the page -/
def Tagged (f : Forest) : Prop := ∀ raw ∈ f.tags, outside (parts '"' raw) ∈ pageTags

theorem tagged_nil : Tagged .nil := by intro raw h; simp [Forest.tags] at h
theorem tagged_chars {s : Str} {f : Forest} (h : Tagged f) : Tagged (charsF s f) := by
  unfold Tagged; rw [tags_charsF]; exact h
theorem tagged_el {raw : Str} {i f : Forest} (h : outside (parts '"' raw) ∈ pageTags) (hi : Tagged i) (hf : Tagged f) :
    Tagged (.el raw i f) := by
  intro x hx
  simp only [Forest.tags, List.mem_cons, List.mem_append] at hx
  rcases hx with rfl | hx | hx
  · exact h
  · exact hi x hx
  · exact hf x hx

theorem tagged_tiles (size : String) (l : List Str) {f : Forest} (h : Tagged f) : Tagged (tilesF size l f) := by
  induction l with
  | nil => exact h
  | cons t l ih => exact tagged_el (by rw [tileRaw_outside]; decide) tagged_nil ih

theorem tagged_foldr {α : Type} (g : α → Forest → Forest) (hg : ∀ x f, Tagged f → Tagged (g x f)) (l : List α) {f : Forest} (h : Tagged f) :
    Tagged (l.foldr g f) := by
  induction l with
  | nil => exact h
  | cons x l ih => exact hg x _ ih

/-- proves that trees are tagged, going down to the parts named -/
syntax "tag_page" "[" term,* "]" : tactic
macro_rules
  | `(tactic| tag_page [$l,*]) => do
    let parts ← l.getElems.mapM (fun t => `(tactic| with_reducible apply $t))
    `(tactic| repeat' first
      | with_reducible assumption
      | with_reducible exact tagged_nil
      | with_reducible apply tagged_chars
      | with_reducible apply tagged_tiles
      | (refine tagged_el (by decide) ?_ ?_)
      | (first $[| $parts:tactic]*))

theorem tagged_items (l : List NItem) {f : Forest} (h : Tagged f) : Tagged (itemsF l f) :=
  tagged_foldr _ (fun x f hf => by unfold itemF; tag_page [tagged_tiles]) l h

theorem tagged_melds (l : List (List Str)) {f : Forest} (h : Tagged f) : Tagged (meldsF l f) :=
  tagged_foldr _ (fun x f hf => by tag_page [tagged_tiles]) l h

theorem tagged_expected (l : List NItem) {f : Forest} (h : Tagged f) : Tagged (expectedF l f) :=
  tagged_foldr _ (fun x f hf => by tag_page [tagged_tiles]) l h

theorem tagged_row (float : Rat → Str) (index : Nat) (r : RoundReasoning) (best : NItem) {f : Forest} (h : Tagged f) :
    Tagged (rowF float index r best f) := by
  unfold rowF
  refine tagged_chars (tagged_el (by rw [rowRaw_outside]; decide) ?_ (tagged_chars h))
  unfold rowInside detailsF summaryF stepsF moreF
  tag_page [tagged_items, tagged_melds, tagged_expected]

theorem tagged_rows (float : Rat → Str) (l : List RoundReasoning) : ∀ (index : Nat) {f : Forest}, Tagged f → Tagged (rowsF float index l f) := by
  induction l with
  | nil => intro index f h; exact h
  | cons r l ih => intro index f h; exact tagged_row float index r _ (ih (index + 1) h)

theorem tagged_games (float : Rat → Str) (l : List (Str × List RoundReasoning)) {f : Forest} (h : Tagged f) : Tagged (gamesF float l f) :=
  tagged_foldr _ (fun g f hf => by
    unfold gameF gameInside headingsF headingF
    tag_page [tagged_rows]) l h

theorem tagged_link (url : Str) {i f : Forest} (hi : Tagged i) (hf : Tagged f) : Tagged (.el (linkRaw url) i f) :=
  tagged_el (by rw [linkRaw_outside]; decide) hi hf

theorem tagged_page (float : Rat → Str) (tiles : List Str) (st player record url : Str) (l : List (Str × List RoundReasoning)) :
    Tagged (pageF tiles st player record url (gamesF float l)) := by
  unfold pageF headF bodyF hintsF
  generalize firstStyles = a
  generalize otherStyles = b
  tag_page [tagged_link, tagged_games]

end Verif.Proofs
