import Verif.Proofs.PageNumber
import Verif.Props.Frontend
import Verif.Props.Header

/-!
C92, C93, C94: the page the record checker writes, as a browser reads it (`Spec/Html.lean`).
-/
namespace Verif.Props
open Verif.Py Verif.Model Verif.Spec Verif.Spec.Html Verif.Proofs

/-! ### C92: nothing in a record becomes markup -/

/-- **C92.** A page is well formed, and whatever the names, titles, tiles and the url are, each of its tags is one of a fixed list
    (apart from values in quotes). -/
theorem C92_tags (picture : Str → Except PyErr (List Nat)) (float : Rat → Str) (name : TPlayer → Str) (p : Page) (text : Str)
    (h : p.html picture float name = .ok text) :
    ∃ f, document text = some f ∧ ∀ raw ∈ f.tags, outside (parts '"' raw) ∈ pageTags := by
  obtain ⟨player, record, _, _, _, hd⟩ := html_document h
  exact ⟨_, hd, tagged_page float p.tiles _ player record _ p.games⟩

/-- **C92.** The first two paragraphs show the texts of the player and of the record, character by character. -/
theorem C92_texts (picture : Str → Except PyErr (List Nat)) (float : Rat → Str) (name : TPlayer → Str) (p : Page) (text : Str)
    (h : p.html picture float name = .ok text) :
    ∃ player record hints, p.player.text name = .ok player ∧ p.record.text name = .ok record ∧
      readParagraphs text = some ((" Player: ".toList ++ player ++ " ".toList) :: (record ++ " Link".toList) :: hints) := by
  obtain ⟨player, record, h1, h2, _, hd⟩ := html_document h
  obtain ⟨a, b, c, hb, _⟩ := body_paragraphs float p.tiles player record (p.logUrl.getD "None".toList) p.games
  refine ⟨player, record, [a.content, b.content, c.content], h1, h2, ?_⟩
  unfold readParagraphs
  rw [readBody_page hd, Option.map_some, hb]
  simp only [List.map_cons, List.map_nil, Option.some.injEq, content_charsF, content_nil, Forest.content, List.append_nil, List.append_assoc]
  rfl

/-- **C92.** There is exactly one link among the paragraphs, and it leads to the url of the record; to `None` if there is none. -/
theorem C92_link (picture : Str → Except PyErr (List Nat)) (float : Rat → Str) (name : TPlayer → Str) (p : Page) (text : Str)
    (h : p.html picture float name = .ok text) :
    readLinks text = some [("Link".toList, some (match p.logUrl with | some url => url | none => "None".toList))] := by
  obtain ⟨player, record, h1, h2, _, hd⟩ := html_document h
  obtain ⟨a, b, c, hb, ha, hb', hc⟩ := body_paragraphs float p.tiles player record (p.logUrl.getD "None".toList) p.games
  unfold readLinks
  rw [readBody_page hd, Option.map_some, hb]
  have e1 : (charsF " Player: ".toList (charsF player (charsF " ".toList .nil))).children "a" = [] := by
    rw [children_charsF, children_charsF, children_charsF, children_nil]
  have e2 : ∀ url, (charsF record (charsF " ".toList (.el (linkRaw url) (charsF "Link".toList .nil) .nil))).children "a" =
      [(linkRaw url, charsF "Link".toList .nil)] := by
    intro url
    rw [children_charsF, children_charsF, children_el_eq _ _ _ _ rfl, children_nil]
  simp only [List.flatMap_cons, List.flatMap_nil, e1, e2, ha, hb', hc, List.map_cons, List.map_nil, List.append_nil, List.nil_append,
    linkRaw_href, content_charsF, content_nil]
  cases p.logUrl <;> rfl

/-! ### C93: the page shows the reports -/

/-- **C93.** What the page shows is, for every game in order, its title, and a row for every report in order, counted from 1: the melds
    and the hand, the choice, the expected choices, steps and numbers of tiles, and all choices (`shownRow`). -/
theorem C93_games (picture : Str → Except PyErr (List Nat)) (float : Rat → Str) (name : TPlayer → Str) (p : Page) (text : Str)
    (h : p.html picture float name = .ok text) :
    readGames text = some (p.games.map (fun g => (g.1, shownRows float g.2))) := by
  obtain ⟨player, record, _, _, _, hd⟩ := html_document h
  unfold readGames
  rw [readBody_page hd]
  exact body_games float p.tiles player record _ p.games

theorem rows_html (float : Rat → Str) (l : List RoundReasoning) : ∀ index : Nat,
    (∃ t, rowsHtml float index l = .ok t) ↔ ∀ r ∈ l, r.expected ≠ [] := by
  induction l with
  | nil => intro index; simp [rowsHtml]
  | cons r l ih =>
    intro index
    constructor
    · rintro ⟨t, h⟩
      obtain ⟨h1, more, h2, _⟩ := rowsHtml_cons h
      intro x hx
      rcases List.mem_cons.1 hx with rfl | hx
      · exact h1
      · exact (ih (index + 1)).1 ⟨more, h2⟩ x hx
    · intro h
      obtain ⟨t, ht⟩ := (ih (index + 1)).2 (fun x hx => h x (List.mem_cons_of_mem _ hx))
      have hr := h r List.mem_cons_self
      unfold rowsHtml
      cases e : r.expected with
      | nil => exact absurd e hr
      | cons b more => simp only [ht, bind, Except.bind, pure, Except.pure, Except.ok.injEq, exists_eq']

theorem games_html (float : Rat → Str) (l : List (Str × List RoundReasoning)) :
    (∃ t, gamesHtml float l = .ok t) ↔ ∀ g ∈ l, ∀ r ∈ g.2, r.expected ≠ [] := by
  induction l with
  | nil => simp [gamesHtml]
  | cons g l ih =>
    constructor
    · rintro ⟨t, h⟩
      obtain ⟨rows, more, h1, h2, _⟩ := gamesHtml_cons h
      intro x hx
      rcases List.mem_cons.1 hx with rfl | hx
      · exact (rows_html float _ 1).1 ⟨rows, h1⟩
      · exact ih.1 ⟨more, h2⟩ x hx
    · intro h
      obtain ⟨more, hm⟩ := ih.2 (fun x hx => h x (List.mem_cons_of_mem _ hx))
      obtain ⟨rows, hr⟩ := (rows_html float g.2 1).2 (h g List.mem_cons_self)
      unfold gamesHtml
      simp only [hr, hm, bind, Except.bind, pure, Except.pure, Except.ok.injEq, exists_eq']

theorem styles_html (picture : Str → Except PyErr (List Nat)) (l : List Str) :
    (∃ t, stylesHtml picture l = .ok t) ↔ ∀ x ∈ l, ∃ b, picture (x ++ ".png".toList) = .ok b := by
  constructor
  · rintro ⟨t, h⟩
    exact (parsed_styles picture l t [] h).1
  · induction l with
    | nil => intro _; exact ⟨[], rfl⟩
    | cons x l ih =>
      intro h
      obtain ⟨t, ht⟩ := ih (fun y hy => h y (List.mem_cons_of_mem _ hy))
      obtain ⟨b, hb⟩ := h x List.mem_cons_self
      unfold stylesHtml
      simp only [hb, ht, bind, Except.bind, pure, Except.pure, Except.ok.injEq, exists_eq']

/-- **C93.** A page is made exactly if the texts of player and record exist, the pictures can be read, and every report has an
    expected choice. -/
theorem C93_made (picture : Str → Except PyErr (List Nat)) (float : Rat → Str) (name : TPlayer → Str) (p : Page) :
    (∃ text, p.html picture float name = .ok text) ↔
      (∃ s, p.player.text name = .ok s) ∧ (∃ s, p.record.text name = .ok s) ∧
      (∀ t ∈ p.tiles, ∃ bytes, picture (t ++ ".png".toList) = .ok bytes) ∧
      ∀ g ∈ p.games, ∀ r ∈ g.2, r.expected ≠ [] := by
  rw [← styles_html, ← games_html float]
  constructor
  · rintro ⟨text, h⟩
    obtain ⟨player, record, styles, games, h1, h2, h3, h4, _⟩ := html_ok h
    exact ⟨⟨_, h1⟩, ⟨_, h2⟩, ⟨_, h3⟩, ⟨_, h4⟩⟩
  · rintro ⟨⟨a, h1⟩, ⟨b, h2⟩, ⟨c, h3⟩, ⟨d, h4⟩⟩
    unfold Page.html
    simp only [h1, h2, h3, h4, bind, Except.bind, pure, Except.pure, Except.ok.injEq, exists_eq']

theorem gameLoop_reports {iter : List Int → List Int} {player : Fin 4} {rounds : List (Option Nat × List Event)} :
    ∀ {richii : Bool} {s : CheckStates} {l : List RoundReasoning}, gameLoop iter player richii s rounds = .ok l →
      ∀ r ∈ l, r.expected ≠ [] ∧ r.tables = [] := by
  induction rounds with
  | nil =>
    intro richii s l h
    simp only [gameLoop, Except.ok.injEq] at h
    subst h
    simp
  | cons x rounds ih =>
    obtain ⟨discarded, round⟩ := x
    intro richii s l h
    unfold gameLoop at h
    intro r hr
    cases discarded with
    | none =>
      simp only [bind_ok, pure_ok] at h
      obtain ⟨out, rfl, s', _, more, hm, rfl⟩ := h
      exact ih hm r hr
    | some _ =>
      simp only [bind_ok, pure_ok] at h
      obtain ⟨first, _, r', h2, out, rfl, s', _, more, hm, rfl⟩ := h
      rcases List.mem_append.1 hr with hr | hr
      · simp only [List.mem_cons, List.not_mem_nil, or_false] at hr
        subst hr
        cases hd : discardReasoning iter player first (handValue s.hand) (invisibleValue s.invisible) (meldsValue s.melds) with
        | error y => rw [hd] at h2; cases y <;> simp [inGenerator] at h2
        | ok r'' =>
          rw [hd] at h2
          simp only [inGenerator, Except.ok.injEq] at h2
          subst h2
          obtain ⟨a, best, more, n, tile, items, your, rate, strs, _, _, _, _, _, _, _, _, rfl⟩ := discardReasoning_inv hd
          exact ⟨by simp, rfl⟩
      · exact ih hm r hr

/-- **C93.** Every report the checker gives has an expected choice, so showing it never fails. -/
theorem C93_expected (iter : List Int → List Int) (player : Fin 4) (four : Bool) (events : List Event) (l : List RoundReasoning)
    (h : gameReasonList iter player four events = .ok l) : ∀ r ∈ l, r.expected ≠ [] :=
  fun r hr => (gameLoop_reports h r hr).1

theorem shownRows_more (float : Rat → Str) (l : List RoundReasoning) (h : ∀ r ∈ l, r.tables = []) :
    ∀ row ∈ shownRows float l, row.more = [(["Normal-Type".toList, "Reasoning".toList], []),
      (["Seven-Pair".toList, "Reasoning".toList], [])] := by
  intro row hrow
  unfold shownRows at hrow
  obtain ⟨⟨r, i⟩, hr, e⟩ := List.mem_map.1 hrow
  obtain ⟨_, _, e2⟩ := List.mem_zipIdx hr
  have hmem : r ∈ l := by rw [e2]; exact List.getElem_mem _
  have e3 : row.more = (shownRow float (i + 1) r).more := congrArg ShownRow.more e.symm
  rw [e3]
  unfold shownRow
  rw [h r hmem]
  generalize "Normal-Type".toList = a
  generalize "Seven-Pair".toList = b
  generalize "Reasoning".toList = c
  rfl

/-- **C93.** The page of a player shows, for every game of the record, its title and the reports of that player's discards.
    The two lists that open separately are always empty. -/
theorem C93_page (iter : List Int → List Int) (decode : Str → Str) (semi : Bool) (name : TPlayer → Str) (player : TPlayer)
    (record : TRecord) (logUrl logId : Option Str) (generate : Bool) (file : Option Str) (page : Page)
    (hp : renderTemplate iter decode semi name player record logUrl logId generate = .ok (file, page))
    (picture : Str → Except PyErr (List Nat)) (float : Rat → Str) (text : Str) (h : page.html picture float name = .ok text) :
    ∃ shown, readGames text = some shown ∧ shown.length = record.games.length ∧
      ∀ (k : Nat) g, record.games[k]? = some g → ∃ title rounds, shown[k]? = some (title, shownRows float rounds) ∧
        g.title name record.gameType record.players = .ok title ∧
        (∃ hp : player.index < 4, gameReasonList iter ⟨player.index, hp⟩ (decide (record.players.length = 4))
          (g.events.map TEvent.ev) = .ok rounds) ∧
        ∀ row ∈ shownRows float rounds, row.more = [(["Normal-Type".toList, "Reasoning".toList], []),
          (["Seven-Pair".toList, "Reasoning".toList], [])] := by
  obtain ⟨_, _, hl, hg⟩ := C73_page iter decode semi name player record logUrl logId generate file page hp
  refine ⟨page.games.map (fun g => (g.1, shownRows float g.2)), C93_games picture float name page text h, ?_, ?_⟩
  · rw [List.length_map, hl]
  intro k g hk
  obtain ⟨title, rounds, h1, h2, hp, h3⟩ := hg k g hk
  have h4 : (page.games.map (fun g => (g.1, shownRows float g.2)))[k]? = some (title, shownRows float rounds) := by
    rw [List.getElem?_map, h1, Option.map_some]
  refine ⟨title, rounds, h4, h2, ⟨hp, h3⟩, ?_⟩
  exact shownRows_more float rounds (fun r hr => (gameLoop_reports h3 r hr).2)

/-! ### C94: the texts of players and records, and the pictures -/

/-- **C94.** A number with a fixed number of decimals is a decimal text with that many digits after the point; its value is at most
    half a unit of the last place off the float nearest to the number, and exact if the number has no more decimals and is
    below `2 ^ 52` units of the last place. -/
theorem C94_number (d : Nat) (n : Num) :
    ∃ a b q f, fixedText d n = a ++ '.' :: b ∧ b.length = d ∧ WritesNum (fixedText d n) q ∧
      NearestDouble (worth n) f ∧ |q - f| ≤ 1 / (2 * 10 ^ d) ∧
      ∀ m : ℤ, worth n = m / 10 ^ d → |m| < 2 ^ 52 → q = worth n := by
  obtain ⟨a, b, h1, h2, _⟩ := fixedText_shape d n
  obtain ⟨q, h3, h4, h5⟩ := fixedText_near d n
  exact ⟨a, b, q, n.float, h1, h2, h3, by rw [float_eq]; exact roundDouble_nearest _, h4, h5⟩

example : fixedText 2 (.dec 150012 2) = "1500.12".toList ∧ fixedText 1 (.int (-8)) = "-8.0".toList ∧
    fixedText 1 (.dec 125 2) = "1.2".toList ∧ fixedText 1 (.dec (-1251) 3) = "-1.3".toList ∧
    fixedText 2 (.dec 2675 3) = "2.67".toList := by decide +kernel

theorem shown_error {n : Num} {f q e : ℚ} (h : NearestDouble (worth n) f) (hq : |q - f| ≤ e) : |q - worth n| ≤ e + |worth n| / 2 ^ 53 := by
  have h1 := h.2 _ (isDouble_round (worth n))
  have h2 := roundDouble_error (worth n)
  have := abs_sub_le q f (worth n)
  linarith

/-- **C94.** The text of a player: name, title of the rank, a rank below zero counting from the last title, and rating with two
    decimals. -/
theorem C94_player (name : TPlayer → Str) (p : TPlayer) (d : Int) (h0 : -21 ≤ d) (hd : d ≤ 20) (hl : p.level = .int d) :
    ∃ rating q, p.text name = .ok (name p ++ " ".toList ++ rankTitle (if 0 ≤ d then d else d + 21).toNat ++ " R".toList ++ rating) ∧
      WritesNum rating q ∧ |q - worth p.rate| ≤ 1 / 200 + |worth p.rate| / 2 ^ 53 ∧
      ∀ m : ℤ, worth p.rate = m / 100 → |m| < 2 ^ 52 → q = worth p.rate := by
  obtain ⟨_, _, q, f, _, _, h1, hf, h2, h3⟩ := C94_number 2 p.rate
  have h2 := shown_error hf h2
  refine ⟨fixedText 2 p.rate, q, ?_, h1, ?_, ?_⟩
  · have hr := rank_table ⟨(if 0 ≤ d then d else d + 21).toNat, by split <;> omega⟩
    simp only at hr
    have hi : ∃ s, pyIdx RANKS d = .ok s ∧ s.toList = rankTitle (if 0 ≤ d then d else d + 21).toNat := by
      cases e : RANKS[(if 0 ≤ d then d else d + 21).toNat]? with
      | none => rw [e] at hr; cases hr
      | some s =>
        rw [e, Option.map_some, Option.some.injEq] at hr
        refine ⟨s, ?_, hr⟩
        have len : (RANKS.length : Int) = 21 := rfl
        unfold pyIdx
        by_cases hn : 0 ≤ d
        · rw [if_pos hn] at e ⊢
          simp only [e]
        · rw [if_neg hn] at e ⊢
          rw [len, if_pos h0]
          simp only [e]
    obtain ⟨s, e1, e2⟩ := hi
    unfold TPlayer.text
    rw [hl]
    simp only [Num.toInt, bind, Except.bind, pure, Except.pure, e1, e2]
    simp only [List.append_assoc, List.cons_append, List.nil_append, Except.ok.injEq]
    rfl
  · rw [show (1 : ℚ) / (2 * 10 ^ 2) = 1 / 200 by norm_num] at h2
    exact h2
  · intro m hm
    exact h3 m (by rw [hm]; norm_num)

/-- **C94.** Other ranks: above 20 and below -21 there is no text; a rank that is not whole is a type error. -/
theorem C94_no_rank (name : TPlayer → Str) (p : TPlayer) :
    (∀ d : Int, p.level = .int d → (20 < d ∨ d < -21) → p.text name = .error .indexError) ∧
    (∀ m k, p.level = .dec m k → p.text name = .error .typeError) := by
  have len : RANKS.length = 21 := rfl
  refine ⟨fun d hl hd => ?_, fun m k hl => ?_⟩
  · have : pyIdx RANKS d = .error .indexError := by
      unfold pyIdx
      by_cases h0 : 0 ≤ d
      · rw [if_pos h0]
        have : RANKS[d.toNat]? = none := by rw [List.getElem?_eq_none_iff]; omega
        simp only [this]
      · rw [if_neg h0, if_neg (by omega)]
    unfold TPlayer.text
    rw [hl]
    simp only [Num.toInt, bind, Except.bind, this]
  · unfold TPlayer.text
    rw [hl]
    rfl

theorem joinWith_eq (l : List Str) : joinWith ',' l = List.intercalate [','] l := by
  induction l with
  | nil => rfl
  | cons a l ih =>
    cases l with
    | nil => simp [joinWith, List.intercalate]
    | cons b l =>
      simp only [joinWith, ih]
      simp [List.intercalate, List.intersperse]

/-- **C94.** The text of a record: the game type, and for every player, in the order of their places, place, name and points with
    one decimal. -/
theorem C94_record (name : TPlayer → Str) (r : TRecord) (v : Int) (h0 : 0 ≤ v) (h1 : v ≤ 65535) (hv : GameType.make v = .ok r.gameType)
    (n : Nat) (hp : r.players.length = n) (hs : n ≤ r.endScore.length) (he : n ≤ r.endPoint.length) :
    ∃ pieces, r.text name = .ok (gameTypeText v ++ " ".toList ++ List.intercalate [','] pieces) ∧ pieces.length = n ∧
      ∀ p, p < n → ∃ pl pt points q, r.players[p]? = some pl ∧ r.endPoint[p]? = some pt ∧
        pieces[place r.endScore n p - 1]? = some (natDigits (place r.endScore n p) ++ "位:".toList ++ name pl ++ "(".toList ++ points ++ ")".toList) ∧
        WritesNum points q ∧ |q - worth pt| ≤ 1 / 20 + |worth pt| / 2 ^ 53 ∧
        ∀ m : ℤ, worth pt = m / 10 → |m| < 2 ^ 52 → q = worth pt := by
  obtain ⟨g, hg, _, _, _, _, _, _, _, hstr⟩ := C29_accessors v h0 h1
  rw [hg, Except.ok.injEq] at hv
  rw [hv] at hstr
  refine ⟨r.strParts.2.map (standingText name), ?_, ?_, ?_⟩
  · unfold TRecord.text
    simp only [hstr, bind, Except.bind, pure, Except.pure, joinWith_eq, Except.ok.injEq]
    simp
  · have : r.standing.length = n := by
      unfold TRecord.standing
      rw [(pySorted_perm _).length_eq]
      simp only [List.length_zip]
      omega
    simp [TRecord.strParts, this]
  · intro p hpn
    obtain ⟨pl, pt, e1, e2, e3⟩ := C38_printed r n hp hs he p hpn
    obtain ⟨_, _, q, f, _, _, w1, wf, w2, w3⟩ := C94_number 1 pt
    have w2 := shown_error wf w2
    refine ⟨pl, pt, fixedText 1 pt, q, e1, e2, ?_, w1, ?_, ?_⟩
    · rw [List.getElem?_map, e3, Option.map_some]
      unfold standingText
      simp
    · rw [show (1 : ℚ) / (2 * 10 ^ 1) = 1 / 20 by norm_num] at w2
      exact w2
    · intro m hm
      exact w3 m (by rw [hm]; norm_num)

/-- **C94.** For every tile of the page the style sheet has a rule whose picture is the file of that tile, byte by byte. -/
theorem C94_pictures (picture : Str → Except PyErr (List Nat)) (hb : ∀ f l, picture f = .ok l → ∀ b ∈ l, b < 256) (float : Rat → Str)
    (name : TPlayer → Str) (p : Page) (text : Str) (h : p.html picture float name = .ok text) (tile : Str) (ht : tile ∈ p.tiles) :
    ∃ style before code after bytes, readStyle text = some style ∧
      style = before ++ (".pic".toList ++ tile ++ " {\n                background-image: url(\"data:image/png;base64,".toList ++ code ++
        "\");\n            }".toList) ++ after ∧
      base64Bytes code = some bytes ∧ picture (tile ++ ".png".toList) = .ok bytes := by
  obtain ⟨player, record, _, _, hpic, hd⟩ := html_document h
  obtain ⟨bytes, hbytes⟩ := hpic tile ht
  obtain ⟨a, b, e⟩ := styles_rule picture p.tiles tile ht
  have hs := readStyle_page hd
  rw [hbytes] at e
  simp only [Except.toOption, Option.getD_some] at e
  unfold styleText at e
  generalize firstStyles = x at hs
  generalize otherStyles = y at hs
  refine ⟨_, x ++ (a ++ "\n            ".toList), b64encode bytes, "\n        ".toList ++ (b ++ y), bytes, hs, ?_,
    base64_back bytes (hb _ _ hbytes), hbytes⟩
  rw [e]
  have e1 : "\n            .pic".toList = "\n            ".toList ++ ".pic".toList := rfl
  have e2 : "\");\n            }\n        ".toList = "\");\n            }".toList ++ "\n        ".toList := rfl
  rw [e1, e2]
  simp only [List.append_assoc]

/-! ### A page

A player called `<script>"&` and a record with a report, whose title is not harmless either. -/

def sampleItem : NItem := ⟨["1z".toList], 2, ["3m".toList, "0p".toList], 7⟩

def sampleReport : RoundReasoning :=
  ⟨["1m".toList, "1z".toList], [["2s".toList, "2s".toList, "2s".toList]], sampleItem, [sampleItem], [sampleItem], 1 / 4, true, []⟩

def samplePage : Except PyErr Page := do
  let r ← TRecord.make sampleRecord
  let player ← pyIdx r.players 0
  pure ⟨{ player with nameEncoded := "%3cscript%3E%22&".toList }, r, some "http://tenhou.net/0/?log=a&tw=0".toList,
    [("東1局0本 </summary><b>".toList, [sampleReport])], ["1z".toList]⟩

theorem sample_text : (samplePage.bind (fun p => p.player.text TPlayer.name)) = .ok "<script>\"& 初段 R1500.00".toList ∧
    (samplePage.bind (fun p => p.record.text TPlayer.name)) = .ok "四般東喰赤 1位:b(40.0),2位:c(10.0),3位:d(-30.0),4位:a(-20.0)".toList := by
  decide +kernel

/-- the page is made, all of it is read, and the link and the paragraphs show what was put in -/
example : ∃ p text, samplePage = .ok p ∧ p.html (fun _ => .ok [1, 2, 255]) (fun _ => "0.25".toList) TPlayer.name = .ok text ∧
    readLinks text = some [("Link".toList, some "http://tenhou.net/0/?log=a&tw=0".toList)] ∧
    (∃ more, readParagraphs text = some (" Player: <script>\"& 初段 R1500.00 ".toList :: more)) ∧
    (readGames text).map (fun l => l.map (fun g => (g.1, g.2.map (fun r => (r.number, r.hand, r.summary))))) =
      some [("東1局0本 </summary><b>".toList, [("1".toList, ["pic2s big", "pic2s big", "pic2s big", "pic1m big", "pic1z big"].map String.toList,
        [["Expected"], ["Steps", "2", "Tiles", "7"], ["Actual"], ["Steps", "2", "Tiles", "7"]].map (fun l => l.map String.toList))])] := by
  cases hp : samplePage with
  | error x => have := sample_text.1; rw [hp] at this; cases this
  | ok p =>
    obtain ⟨t1, t2⟩ := sample_text
    rw [hp] at t1 t2
    have t1 : p.player.text TPlayer.name = _ := t1
    have t2 : p.record.text TPlayer.name = _ := t2
    have e : p.logUrl = some "http://tenhou.net/0/?log=a&tw=0".toList ∧ p.games = [("東1局0本 </summary><b>".toList, [sampleReport])] := by
      unfold samplePage at hp
      cases hr : TRecord.make sampleRecord with
      | error x => rw [hr] at hp; cases hp
      | ok r =>
        rw [hr] at hp
        simp only [bind_ok, pure_ok, Except.ok.injEq, exists_eq_left'] at hp
        obtain ⟨pl, _, rfl⟩ := hp
        exact ⟨rfl, rfl⟩
    obtain ⟨text, ht⟩ := (C93_made (fun _ => .ok [1, 2, 255]) (fun _ => "0.25".toList) TPlayer.name p).2
      ⟨⟨_, t1⟩, ⟨_, t2⟩, fun _ _ => ⟨_, rfl⟩, by rw [e.2]; simp [sampleReport]⟩
    refine ⟨p, text, rfl, ht, ?_, ?_, ?_⟩
    · rw [C92_link _ _ _ p text ht, e.1]
    · obtain ⟨player, record, hints, h1, _, h3⟩ := C92_texts _ _ _ p text ht
      rw [t1, Except.ok.injEq] at h1
      subst h1
      exact ⟨_, h3⟩
    · rw [C93_games _ _ _ p text ht, e.2]
      rfl

/-- markup that is not escaped is read as markup, and what is not well formed is not read -/
example : (document "<p>a&lt;b</p>".toList).map (fun f => (f.content, f.tags)) = some ("a<b".toList, ["p".toList]) ∧
    (document "<p>a<b></b></p>".toList).map (fun f => (f.content, f.tags)) = some ("a".toList, ["p".toList, "b".toList]) ∧
    (document "<p>a<script></p>".toList).isNone = true ∧ "script" ∉ pageTags.flatMap (fun l => l.map String.ofList) := by decide +kernel

end Verif.Props
