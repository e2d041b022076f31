import Verif.Proofs.Pages
import Verif.Props.Regular

/-!
C104: from the text of a complete record to the page of one of its players.
-/
namespace Verif.Props
open Verif.Py Verif.Model Verif.Spec Verif.Spec.Html Verif.Proofs

theorem render_eq {iter : List Int → List Int} {decode : Str → Str} {semi : Bool} {name : TPlayer → Str} {player : TPlayer}
    {record : TRecord} {logUrl logId : Option Str} {generate : Bool} (hs : SourceKnown decode semi logUrl logId generate)
    (hp : player.index < 4) (ht : ∀ g ∈ record.games, ∃ title, g.title name record.gameType record.players = .ok title) :
    (∃ file page, renderTemplate iter decode semi name player record logUrl logId generate = .ok (file, page) ∧ page.tiles = shownTiles) ∨
    ∃ g ∈ record.games, ∃ x, gameReasonList iter ⟨player.index, hp⟩ (decide (record.players.length = 4)) (g.events.map TEvent.ev) = .error x ∧
      renderTemplate iter decode semi name player record logUrl logId generate = .error x := by
  unfold renderTemplate
  rcases mapM_outcome (fun g : TGame => do
    let title ← g.title name record.gameType record.players
    let rounds ← playerReports iter record player g
    pure (title, rounds)) record.games with ⟨games, h1, _⟩ | ⟨g, hg, x, h1, h2⟩
  · left
    rw [h1]
    simp only [bind, Except.bind]
    obtain ⟨s1, s2⟩ := hs
    cases logUrl with
    | some u =>
      obtain ⟨id, hid⟩ := s1 u rfl
      simp only [hid]
      cases generate <;> exact ⟨_, _, rfl, rfl⟩
    | none =>
      cases logId with
      | some i => cases generate <;> exact ⟨_, _, rfl, rfl⟩
      | none =>
        cases generate with
        | false => exact ⟨_, _, rfl, rfl⟩
        | true => rcases s2 rfl with h | h <;> exact absurd rfl h
  · right
    refine ⟨g, hg, x, ?_, by rw [h2]; rfl⟩
    obtain ⟨title, htt⟩ := ht g hg
    simp only [htt, bind, Except.bind] at h1
    cases hpr : playerReports iter record player g with
    | ok l => rw [hpr] at h1; cases h1
    | error y =>
      rw [hpr] at h1
      injection h1 with h1
      unfold playerReports at hpr
      rw [dif_pos hp] at hpr
      rw [hpr, h1]

theorem allCompared_compared {p : Fin 4} {game : List Move} (h : AllCompared p game) : Compared p game :=
  h.imp id (fun h => ⟨h.1, h.2.1⟩)

/-- how the reports of a fair round fail -/
theorem round_fails {iter : List Int → List Int} (hi : ∀ l, (iter l).Perm l) {p : Fin 4} {four : Bool} {seed : List Int}
    {hands : Fin 4 → List Int} {more : List (Str × Str)} {ms : List Move} (h : FairGame p seed hands more ms) {x : PyErr}
    (hx : gameReasonList iter p four ((Move.deal seed hands more :: ms).map Move.event) = .error x) :
    ∃ pre t post, ms = pre ++ .discard p t :: post ∧
      ((x = .runtimeError ∧ AlreadyWon p (Move.deal seed hands more :: pre)) ∨
       (x = .zeroDivision ∧ ¬ AlreadyWon p (Move.deal seed hands more :: pre) ∧
        (NoRedUseful p (Move.deal seed hands more :: pre) → AllCompared p (Move.deal seed hands more :: pre) →
          NothingLeft p four (Move.deal seed hands more :: pre)))) := by
  rw [C58_reports iter p four seed hands more ms (fair_legalFor h) h.oneDeal] at hx
  rcases mapM_outcome (reportAt iter p four) (discardPoints p (Move.deal seed hands more :: ms)) with ⟨l, h1, _⟩ | ⟨y, hy, z, h1, h2⟩
  · rw [h1] at hx; cases hx
  · rw [h2] at hx
    injection hx with hx
    subst hx
    obtain ⟨pre, post, e1, e2⟩ := discardPoints_mem rfl hy
    obtain ⟨o1, o2⟩ := C76_outcome iter hi p four seed hands more ms h pre y.2 post e2
    rw [← e1, show (y.1, y.2) = y from rfl, h1] at o1 o2
    refine ⟨pre, y.2, post, e2, ?_⟩
    by_cases hw : AlreadyWon p y.1
    · injection o1 hw with o1
      exact .inl ⟨o1, e1 ▸ hw⟩
    · right
      rcases o2 hw with ⟨r, hr, _⟩ | hr
      · cases hr
      · injection hr with hr
        refine ⟨hr, e1 ▸ hw, ?_⟩
        intro hnr hopen
        apply Classical.byContradiction
        intro hno
        obtain ⟨r, hr'⟩ := (division_iff (iter := iter) hi h e2 hnr (allCompared_compared hopen) (e1 ▸ hw)).2 hopen hno
        rw [← e1, show (y.1, y.2) = y from rfl, h1] at hr'
        cases hr'

/-- **C104.** From the text of a document with the elements of a complete record in which the player followed the rules, to the
    page of that player.  The record is read, and the player is there.  Then one of three things happens.
    * The page is made.  It has a section for every round, in order, with a row for every discard of the player, and every row is
      right.
    * The program stops with `RuntimeError`, and the player made a discard from a hand that had already won.
    * The program stops with `ZeroDivisionError`, and the player made a discard from a hand that had not; if no five of which
      the red one is held was useful to that hand, and it was open, or concealed with all its discards compared, then no discard that keeps the waiting step would have left
      an unseen useful tile. -/
theorem C104_page (iter : List Int → List Int) (hi : ∀ l, (iter l).Perm l) (decode : Str → Str) (semi : Bool) (name : TPlayer → Str)
    (picture : Str → Except PyErr (List Nat)) (hpic : ∀ t ∈ shownTiles, ∃ bytes, picture (t ++ ".png".toList) = .ok bytes)
    (float : Rat → Str) (text tag : Str) (attrib : List (Str × Str)) (kids : List Elem) (hdoc : DocText (.mk tag attrib kids) text)
    (before : List Event) (go : Event) (header : List Event) (plays : List Play) (v : Nat)
    (hc : CompleteAs (kids.map (fun k => (⟨k.tag, k.attrib⟩ : Event))) before go header (plays.map Play.events) v)
    (hwin : ∀ g ∈ plays, ∀ e ∈ g.events, WinShown (playersOf v) e) (p : Fin 4) (hp : p.val < playersOf v)
    (hfair : ∀ g ∈ plays, g.Fair p) (logUrl logId : Option Str) (generate : Bool) (hs : SourceKnown decode semi logUrl logId generate) :
    ∃ record player, recordOfText text = some (.ok record) ∧ record.players[p.val]? = some player ∧ player.index = p ∧
      record.players.length = playersOf v ∧
      ((∃ file page html shown, renderTemplate iter decode semi name player record logUrl logId generate = .ok (file, page) ∧
          page.html picture float name = .ok html ∧ readGames html = some shown ∧
          PageRight float p (decide (playersOf v = 4)) plays shown) ∨
       ∃ g ∈ plays, ∃ pre t post, g.moves = pre ++ .discard p t :: post ∧
          ((renderTemplate iter decode semi name player record logUrl logId generate = .error .runtimeError ∧ AlreadyWon p (g.deal :: pre)) ∨
           (renderTemplate iter decode semi name player record logUrl logId generate = .error .zeroDivision ∧ ¬ AlreadyWon p (g.deal :: pre) ∧
            (NoRedUseful p (g.deal :: pre) → AllCompared p (g.deal :: pre) →
              NothingLeft p (decide (playersOf v = 4)) (g.deal :: pre))))) := by
  obtain ⟨r, hr, hg, ht⟩ := complete_ok hc
  obtain ⟨hlen, hplayers⟩ := complete_players hc hr ht
  obtain ⟨player, hpl⟩ : ∃ player, r.players[p.val]? = some player := ⟨r.players[p.val]'(by omega), by simp⟩
  obtain ⟨hidx, d, hd, hlev⟩ := hplayers _ _ hpl
  have htitle := complete_title hc (by
    intro r hr
    obtain ⟨g, hg, rfl⟩ := List.mem_map.1 hr
    exact hwin g hg) hr ht hg name
  refine ⟨r, player, by rw [(C99_record text).1 tag attrib kids hdoc, hr], hpl, hidx, hlen, ?_⟩
  have hlt : player.index < 4 := by rw [hidx]; exact p.isLt
  have hpp : (⟨player.index, hlt⟩ : Fin 4) = p := Fin.ext hidx
  rcases render_eq (iter := iter) hs hlt htitle with ⟨file, page, hrender, htiles⟩ | ⟨g, hgm, x, hx, hrender⟩
  · left
    obtain ⟨p1, p2, p3, p4⟩ := C73_page iter decode semi name player r logUrl logId generate file page hrender
    obtain ⟨html, hhtml⟩ := (C93_made picture float name page).2 (by
      refine ⟨?_, ?_, by rw [htiles]; exact hpic, ?_⟩
      · obtain ⟨_, _, hs', _⟩ := C94_player name player d (by omega) (by omega) hlev
        exact ⟨_, by rw [p1]; exact hs'⟩
      · obtain ⟨gt, q1, _, _, _, _, _, _, _, q2⟩ := C29_accessors v (by omega) (by have := hc.parts.go.2.1; omega)
        rw [ht, Except.ok.injEq] at q1
        rw [p2]
        unfold TRecord.text
        rw [q1, q2]
        exact ⟨_, rfl⟩
      · intro g hgm
        obtain ⟨k, hk, rfl⟩ := List.mem_iff_getElem.1 hgm
        obtain ⟨title, rs, e1, _, _, e3⟩ := p4 k r.games[k] (by simp)
        have e1' : page.games[k]? = some page.games[k] := by simp
        rw [e1', Option.some.injEq] at e1
        rw [e1]
        exact C93_expected iter _ _ _ rs e3)
    obtain ⟨shown, s1, s2, _⟩ := C93_page iter decode semi name player r logUrl logId generate file page hrender picture float html hhtml
    refine ⟨file, page, html, shown, hrender, hhtml, s1, ?_⟩
    have hl : r.games.length = plays.length := by
      have := congrArg List.length hg
      rwa [List.length_map, List.length_map] at this
    refine List.forall₂_iff_get.2 ⟨by rw [s2, hl], ?_⟩
    intro k hk1 hk2
    have hkg : k < r.games.length := by omega
    have hev : r.games[k].events.map TEvent.ev = plays[k].events := by
      have h1 : (r.games.map (fun g => g.events.map TEvent.ev))[k]? = (plays.map Play.events)[k]? := by rw [hg]
      rw [List.getElem?_map, List.getElem?_map, List.getElem?_eq_getElem hkg, List.getElem?_eq_getElem hk1] at h1
      exact Option.some.inj h1
    obtain ⟨shown', title, rows, w1, w2, w3, w4⟩ := C96_row iter hi decode semi name player r logUrl logId generate file page hrender
      picture float html hhtml p hidx k r.games[k] (List.getElem?_eq_getElem hkg) _ _ _ _ hev (hfair _ (List.getElem_mem hk1))
    rw [s1, Option.some.injEq] at w1
    subst w1
    rw [List.getElem?_eq_getElem hk2, Option.some.injEq] at w2
    rw [hlen] at w4
    show RowsRight _ _ _ plays[k] shown[k].2
    rw [w2]
    exact ⟨w3, fun pre t post e => by
      obtain ⟨row, x1, x2, x3⟩ := w4 pre t post e
      exact ⟨row, x1, x2, x3⟩⟩
  · right
    have hmem : g.events.map TEvent.ev ∈ plays.map Play.events := by rw [← hg]; exact List.mem_map_of_mem (f := fun g : TGame => g.events.map TEvent.ev) hgm
    obtain ⟨y, hy, hye⟩ := List.mem_map.1 hmem
    rw [hpp, ← hye, hlen] at hx
    obtain ⟨pre, t, post, e, hcase⟩ := round_fails hi (hfair y hy) hx
    refine ⟨y, hy, pre, t, post, e, ?_⟩
    rcases hcase with ⟨rfl, hw⟩ | ⟨rfl, hw, hno⟩
    · exact .inl ⟨hrender, hw⟩
    · exact .inr ⟨hrender, hw, hno⟩

/-- **C104.** So the page is made, and right, if the player discards only from hands that have not won, are open, or concealed and compared
    in full, and to which no five is useful of which the red one is held, as long as some discard that keeps the waiting step leaves an unseen useful tile. -/
theorem C104_made (iter : List Int → List Int) (hi : ∀ l, (iter l).Perm l) (decode : Str → Str) (semi : Bool) (name : TPlayer → Str)
    (picture : Str → Except PyErr (List Nat)) (hpic : ∀ t ∈ shownTiles, ∃ bytes, picture (t ++ ".png".toList) = .ok bytes)
    (float : Rat → Str) (text tag : Str) (attrib : List (Str × Str)) (kids : List Elem) (hdoc : DocText (.mk tag attrib kids) text)
    (before : List Event) (go : Event) (header : List Event) (plays : List Play) (v : Nat)
    (hc : CompleteAs (kids.map (fun k => (⟨k.tag, k.attrib⟩ : Event))) before go header (plays.map Play.events) v)
    (hwin : ∀ g ∈ plays, ∀ e ∈ g.events, WinShown (playersOf v) e) (p : Fin 4) (hp : p.val < playersOf v)
    (hfair : ∀ g ∈ plays, g.Fair p)
    (hopen : ∀ g ∈ plays, ∀ pre t post, g.moves = pre ++ .discard p t :: post →
      AllCompared p (g.deal :: pre) ∧ NoRedUseful p (g.deal :: pre) ∧ ¬ AlreadyWon p (g.deal :: pre) ∧
      ¬ NothingLeft p (decide (playersOf v = 4)) (g.deal :: pre))
    (logUrl logId : Option Str) (generate : Bool) (hs : SourceKnown decode semi logUrl logId generate) :
    ∃ record player file page html shown, recordOfText text = some (.ok record) ∧ record.players[p.val]? = some player ∧
      renderTemplate iter decode semi name player record logUrl logId generate = .ok (file, page) ∧
      page.html picture float name = .ok html ∧ readGames html = some shown ∧ PageRight float p (decide (playersOf v = 4)) plays shown := by
  obtain ⟨record, player, h1, h2, _, _, h5⟩ := C104_page iter hi decode semi name picture hpic float text tag attrib kids hdoc before go header
    plays v hc hwin p hp hfair logUrl logId generate hs
  rcases h5 with ⟨file, page, html, shown, h5⟩ | ⟨g, hg, pre, t, post, e, h5⟩
  · exact ⟨record, player, file, page, html, shown, h1, h2, h5⟩
  · obtain ⟨o1, o2, o3, o4⟩ := hopen g hg pre t post e
    rcases h5 with ⟨_, hw⟩ | ⟨_, _, hno⟩
    · exact absurd hw o3
    · exact absurd (hno o2 o1) o4

/-- **C104.** In particular it is made, and right, if the player discards only from open hands without red fives that have not won, as
    long as some discard that keeps the waiting step leaves an unseen useful tile. -/
theorem C104_open (iter : List Int → List Int) (hi : ∀ l, (iter l).Perm l) (decode : Str → Str) (semi : Bool) (name : TPlayer → Str)
    (picture : Str → Except PyErr (List Nat)) (hpic : ∀ t ∈ shownTiles, ∃ bytes, picture (t ++ ".png".toList) = .ok bytes)
    (float : Rat → Str) (text tag : Str) (attrib : List (Str × Str)) (kids : List Elem) (hdoc : DocText (.mk tag attrib kids) text)
    (before : List Event) (go : Event) (header : List Event) (plays : List Play) (v : Nat)
    (hc : CompleteAs (kids.map (fun k => (⟨k.tag, k.attrib⟩ : Event))) before go header (plays.map Play.events) v)
    (hwin : ∀ g ∈ plays, ∀ e ∈ g.events, WinShown (playersOf v) e) (p : Fin 4) (hp : p.val < playersOf v)
    (hfair : ∀ g ∈ plays, g.Fair p)
    (hopen : ∀ g ∈ plays, ∀ pre t post, g.moves = pre ++ .discard p t :: post →
      1 ≤ meldCount (finalMelds (meldsOf p pre)) ∧ NoRedHeld p (g.deal :: pre) ∧ ¬ AlreadyWon p (g.deal :: pre) ∧
      ¬ NothingLeft p (decide (playersOf v = 4)) (g.deal :: pre))
    (logUrl logId : Option Str) (generate : Bool) (hs : SourceKnown decode semi logUrl logId generate) :
    ∃ record player file page html shown, recordOfText text = some (.ok record) ∧ record.players[p.val]? = some player ∧
      renderTemplate iter decode semi name player record logUrl logId generate = .ok (file, page) ∧
      page.html picture float name = .ok html ∧ readGames html = some shown ∧ PageRight float p (decide (playersOf v = 4)) plays shown := by
  refine C104_made iter hi decode semi name picture hpic float text tag attrib kids hdoc before go header plays v hc hwin p hp hfair ?_
    logUrl logId generate hs
  intro g hg pre t post e
  obtain ⟨o1, o2⟩ := hopen g hg pre t post e
  exact ⟨.inl o1, noRedUseful o2.1, o2.2⟩

/-- **C104.** And it is not made if the player discards from a hand that has already won, or from a hand, open or nearer to
    four melds and a pair than to seven pairs, to which no five is useful of which the red one is held, when no discard that keeps the waiting step leaves an unseen useful tile. -/
theorem C104_stops (iter : List Int → List Int) (hi : ∀ l, (iter l).Perm l) (decode : Str → Str) (semi : Bool) (name : TPlayer → Str)
    (text tag : Str) (attrib : List (Str × Str)) (kids : List Elem) (hdoc : DocText (.mk tag attrib kids) text)
    (before : List Event) (go : Event) (header : List Event) (plays : List Play) (v : Nat)
    (hc : CompleteAs (kids.map (fun k => (⟨k.tag, k.attrib⟩ : Event))) before go header (plays.map Play.events) v)
    (p : Fin 4) (hfair : ∀ g ∈ plays, g.Fair p) (g : Play) (hg : g ∈ plays) (pre : List Move) (t : Nat) (post : List Move)
    (e : g.moves = pre ++ .discard p t :: post)
    (hbad : AlreadyWon p (g.deal :: pre) ∨ (Compared p (g.deal :: pre) ∧ NoRedUseful p (g.deal :: pre) ∧
      NothingLeft p (decide (playersOf v = 4)) (g.deal :: pre)))
    (logUrl logId : Option Str) (generate : Bool) (record : TRecord) (hrec : recordOfText text = some (.ok record)) (player : TPlayer)
    (hpl : record.players[p.val]? = some player) :
    ∃ x, renderTemplate iter decode semi name player record logUrl logId generate = .error x := by
  obtain ⟨r, hr, hgs, ht⟩ := complete_ok hc
  obtain ⟨hlen, hplayers⟩ := complete_players hc hr ht
  rw [(C99_record text).1 tag attrib kids hdoc, hr, Option.some.injEq, Except.ok.injEq] at hrec
  subst hrec
  cases hrender : renderTemplate iter decode semi name player r logUrl logId generate with
  | error x => exact ⟨x, rfl⟩
  | ok fp =>
    exfalso
    obtain ⟨file, page⟩ := fp
    obtain ⟨_, _, _, p4⟩ := C73_page iter decode semi name player r logUrl logId generate file page hrender
    have hmem : g.events ∈ r.games.map (fun g => g.events.map TEvent.ev) := by rw [hgs]; exact List.mem_map_of_mem hg
    obtain ⟨y, hy, hye⟩ := List.mem_map.1 hmem
    obtain ⟨k, hk, rfl⟩ := List.mem_iff_getElem.1 hy
    obtain ⟨_, rs, _, _, hlt, e3⟩ := p4 k r.games[k] (by simp)
    have hpp : (⟨player.index, hlt⟩ : Fin 4) = p := Fin.ext (hplayers _ _ hpl).1
    rw [hpp, hye, hlen] at e3
    have hf := hfair g hg
    have e3 : gameReasonList iter p (decide (playersOf v = 4)) ((Move.deal g.seed g.hands g.more :: g.moves).map Move.event) = .ok rs := e3
    rw [C58_reports iter p _ g.seed g.hands g.more g.moves (fair_legalFor hf) hf.oneDeal] at e3
    rcases mapM_outcome (reportAt iter p (decide (playersOf v = 4))) (discardPoints p (Move.deal g.seed g.hands g.more :: g.moves)) with
      ⟨l, h1, h2⟩ | ⟨y, hy, z, h1, h2⟩
    · obtain ⟨b, hb⟩ := h2 _ (mem_discardPoints (deal := Move.deal g.seed g.hands g.more) e)
      have hout := (C76_outcome iter hi p (decide (playersOf v = 4)) g.seed g.hands g.more g.moves hf pre t post e).1
      by_cases hw : AlreadyWon p (g.deal :: pre)
      · rw [hout hw] at hb
        cases hb
      · rcases hbad with h | ⟨o1, o2, o3⟩
        · exact hw h
        · rw [(division_iff (iter := iter) hi hf e o2 o1 hw).1 o3] at hb
          cases hb
    · rw [h2] at e3
      cases e3

/-! ### An instance: four kans of player 1, and then the discard of a 5p that keeps a 6p -/

def pageHands : Fin 4 → List Int
  | 0 => [0, 1, 24, 25, 28, 29, 32, 33, 36, 37, 40, 41, 44]
  | 1 => [4, 5, 6, 7, 8, 9, 10, 11, 12, 13, 14, 15, 20]
  | 2 => [2, 3, 26, 27, 30, 31, 34, 35, 38, 39, 42, 43, 45]
  | 3 => [72, 73, 76, 77, 80, 81, 84, 85, 89, 90, 92, 93, 96]

def pageMoves : List Move :=
  [.draw 1 21, .meld 1 1024, .dora 108, .draw 1 22, .meld 1 2048, .draw 1 23, .meld 1 3072, .draw 1 53, .meld 1 5120, .draw 1 57, .discard 1 53,
   .draw 2 60, .discard 2 60]

def pagePlay : Play :=
  ⟨[0, 0, 0, 2, 3, 132], pageHands, [("oya".toList, "1".toList), ("ten".toList, "250,250,250,250".toList)], pageMoves ++ [.other wholeEnd]⟩

def pageEvents : List Event := sampleRecord.take 2 ++ pagePlay.events

theorem page_consistent (p : Fin 4) : Consistent p (pagePlay.deal :: pagePlay.moves) := by
  apply consistent_of_check
  revert p
  decide +kernel

theorem page_among : ∀ m ∈ pageMoves, MoveAmong 4 m := by
  have kan : ∀ c ∈ [1024, 2048, 3072, 5120], ∃ m, meldOf (1 : Fin 4).val c = .ok m ∧ (∀ t ∈ m.selfTiles, IsTile t) ∧ ∀ t ∈ m.borrowedTiles, IsTile t := by
    have key : ∀ c ∈ [1024, 2048, 3072, 5120], (meldOf (1 : Fin 4).val c).toOption.any
        (fun m => decide ((∀ t ∈ m.selfTiles, 0 ≤ t ∧ t < 136) ∧ ∀ t ∈ m.borrowedTiles, 0 ≤ t ∧ t < 136)) = true := by decide +kernel
    intro c hc
    have := key c hc
    cases hm : meldOf (1 : Fin 4).val c with
    | error x => rw [hm] at this; cases this
    | ok m =>
      rw [hm] at this
      have := of_decide_eq_true (show decide _ = true from this)
      exact ⟨m, rfl, this⟩
  intro m hm
  simp only [pageMoves, List.mem_cons, List.not_mem_nil, or_false] at hm
  rcases hm with rfl | rfl | rfl | rfl | rfl | rfl | rfl | rfl | rfl | rfl | rfl | rfl | rfl <;>
    first | exact ⟨by decide, kan _ (by decide)⟩ | exact ⟨by decide, by decide⟩ | exact (show _ < 136 by decide)

theorem end_quiet : Quiet wholeEnd := by
  refine ⟨by decide, by decide, by decide, ?_⟩
  intro c d r e hc
  have e' : 'R' :: 'Y' :: "UUKYOKU".toList = c :: d :: r := e
  injection e' with e1 e2
  rw [← e1] at hc
  exact absurd hc (by decide)

theorem page_fair : pagePlay.Fair 1 := by
  refine ⟨?_, ?_, ?_, ?_, page_consistent 1, ?_⟩
  · intro m hm
    rcases List.mem_cons.1 hm with rfl | hm
    · show _ ≠ []
      simp [pagePlay]
    · rcases List.mem_append.1 hm with hm | hm
      · have := page_among m hm
        cases m with
        | deal => exact absurd this id
        | meld q c => obtain ⟨_, m, hm, _⟩ := this; exact ⟨m, hm⟩
        | other e => exact this.1
        | _ => trivial
      · rw [List.mem_singleton.1 hm]
        exact end_quiet
  · intro m hm
    rcases List.mem_append.1 hm with hm | hm
    · have := page_among m hm
      cases m with
      | deal => exact absurd this id
      | _ => rfl
    · rw [List.mem_singleton.1 hm]; rfl
  · refine ⟨by decide, by decide, ?_⟩
    unfold IsTileNumber
    decide
  · intro n hn
    rcases List.mem_append.1 hn with hn | hn
    · exact (page_among _ hn).2
    · simp at hn
  · apply inTurn_of_check
    decide +kernel

theorem page_complete : CompleteAs pageEvents [] sampleRecord[0] [sampleRecord[1]] [pagePlay.events] 1 := by
  have hseat : ∀ e ∈ pageEvents, Seated e := by
    have h : ∀ e ∈ pageEvents, seatedB e = true := by decide +kernel
    exact fun e he => seated_of_B (h e he)
  have final : ∀ k, k ≤ 8 → ListsNumbers k "100,-20.0,300,40.0,300,10.0,300,-30.0".toList := fun k hk =>
    lists_of (["100", "-20.0", "300", "40.0", "300", "10.0", "300", "-30.0"].map String.toList) (by simp) (by decide +kernel) k hk
  refine ⟨⟨rfl, hseat, by simp, ⟨rfl, by decide, by decide +kernel⟩, ?_, ?_⟩, ?_, ?_, ?_⟩
  · intro e he
    rw [List.mem_singleton.1 he]
    refine .harmless _ (.players _ rfl ?_ ?_ ?_)
    · intro s hs
      exact ⟨[10, 11, 12, 13], by decide, by decide, by rw [← Option.some.inj hs]; decide +kernel⟩
    · intro s hs
      rw [← Option.some.inj hs]
      exact lists_of (["1500.00", "1600.00", "1700.00", "1800.50"].map String.toList) (by simp) (by decide +kernel) 4 (by decide)
    · intro s hs
      rw [← Option.some.inj hs]
      decide +kernel
  · intro r hr
    rw [List.mem_singleton.1 hr]
    have hnd : ∀ p, (pageHands p).Nodup := by decide +kernel
    have hT : ∀ p, ∀ t ∈ pageHands p, IsTile t := by unfold IsTile; decide +kernel
    have hne : ∀ p, pageHands p ≠ [] := by decide +kernel
    have hcons : ∀ p, Consistent p (pagePlay.deal :: pageMoves) := by
      intro p
      apply consistent_of_check
      revert p
      decide +kernel
    refine .mk pagePlay.seed pageHands pagePlay.more pageMoves [wholeEnd] 0 [0, 0, 2, 3] 132 rfl (by decide) (by decide)
      (by unfold IsTile; decide) 1 (by decide +kernel) _ rfl ?_ (fun p _ => ⟨hne p, hnd p, hT p, hcons p⟩) page_among ?_
    · exact lists_of (List.replicate 4 "250".toList) (by simp) (by decide +kernel) 4 (by decide)
    · intro e he
      rw [List.mem_singleton.1 he]
      refine .inl (.drawn _ rfl ?_ ?_ ?_)
      · intro s hs; exact absurd hs (by rw [show wholeEnd.attrib.lookup "type".toList = none by decide +kernel]; simp)
      · intro s hs; exact absurd hs (by rw [show wholeEnd.attrib.lookup "sc".toList = none by decide +kernel]; simp)
      · intro s hs
        rw [show wholeEnd.attrib.lookup "owari".toList = some "100,-20.0,300,40.0,300,10.0,300,-30.0".toList by decide +kernel,
          Option.some.injEq] at hs
        rw [← hs]
        exact final 8 (by decide)
  · refine ⟨[], _, [], rfl, by simp, rfl, ?_, ?_⟩
    · intro name hn
      simp only [List.mem_cons, List.not_mem_nil, or_false] at hn
      rcases hn with rfl | rfl | rfl | rfl | rfl <;> exact ⟨_, rfl⟩
    · intro name hn
      simp only [List.mem_cons, List.not_mem_nil, or_false] at hn
      rcases hn with rfl | rfl <;> exact ⟨_, rfl⟩
  · intro r hr
    rw [List.mem_singleton.1 hr]
    exact ⟨wholeEnd, List.mem_map.2 ⟨.other wholeEnd, by simp [pagePlay], rfl⟩, .inr rfl⟩
  · exact ⟨sampleRecord.take 2 ++ (pagePlay.deal :: pageMoves).map Move.event, wholeEnd, _, rfl, by decide +kernel, final 1 (by decide)⟩

theorem page_open : ∀ pre t post, pagePlay.moves = pre ++ .discard 1 t :: post →
    1 ≤ meldCount (finalMelds (meldsOf 1 pre)) ∧ NoRedHeld 1 (pagePlay.deal :: pre) ∧ ¬ AlreadyWon 1 (pagePlay.deal :: pre) ∧
    ¬ NothingLeft 1 true (pagePlay.deal :: pre) := by
  intro pre t post e
  have hpt : pre = pageMoves.take 10 ∧ t = 53 := by
    have hi : pagePlay.moves[pre.length]? = some (.discard 1 t) := by rw [e]; simp
    have hpre : pre = pagePlay.moves.take pre.length := by rw [e]; simp
    generalize pre.length = i at hi hpre
    rcases i with _|_|_|_|_|_|_|_|_|_|_|_|_|_|i <;> simp [pagePlay, pageMoves] at hi
    exact ⟨hpre, hi.symm⟩
  obtain ⟨rfl, rfl⟩ := hpt
  have hopen : 1 ≤ meldCount (finalMelds (meldsOf 1 (pageMoves.take 10))) := by decide +kernel
  have hred : NoRedHeld 1 (pagePlay.deal :: pageMoves.take 10) := by
    obtain ⟨l, l1, l2, l3⟩ := C32_after_deal 1 [] List.nodup_nil pagePlay.seed pageHands pagePlay.more (pageMoves.take 10)
      (fun m hm => fair_legalFor page_fair m (by
        rcases List.mem_cons.1 hm with h | h
        · rw [h]; exact List.mem_cons_self ..
        · exact List.mem_cons_of_mem _ (List.mem_append_left _ (List.mem_of_mem_take h))))
    have hv : ((GState.hand 1 []).passedEvents ((pagePlay.deal :: pageMoves.take 10).map Move.event)).toOption.map handValue = some [53, 57] := by
      decide +kernel
    rw [show (GState.hand 1 []).passedEvents ((pagePlay.deal :: pageMoves.take 10).map Move.event) = _ from l1] at hv
    simp only [Except.toOption, Option.map_some, handValue, Option.some.injEq] at hv
    subst hv
    intro n hn
    have := (l3 n).2 hn
    simp only [List.mem_cons, List.not_mem_nil, or_false] at this
    omega
  have hok : (reportAt id 1 true (pagePlay.deal :: pageMoves.take 10, 53)).toOption.isSome = true := by decide +kernel
  have hw : ¬ AlreadyWon 1 (pagePlay.deal :: pageMoves.take 10) := by
    intro hw
    rw [show reportAt id 1 true (pagePlay.deal :: pageMoves.take 10, 53) = _ from
      (C76_outcome id (fun l => List.Perm.refl l) 1 true _ _ _ _ page_fair _ _ _ e).1 hw] at hok
    cases hok
  refine ⟨hopen, hred, hw, fun hno => ?_⟩
  rw [show reportAt id 1 true (pagePlay.deal :: pageMoves.take 10, 53) = _ from
    (division_iff (iter := id) (fun l => List.Perm.refl l) page_fair e (noRedUseful hred) (.inl hopen) hw).1 hno] at hok
  cases hok

theorem page_writable : Writable pageEvents := by
  have h : ∀ e ∈ pageEvents, writableB e = true := by decide +kernel
  exact writable_of_B h

/-- the page of player 1 of this record is made, whatever order sets are gone through in, with one row -/
example (iter : List Int → List Int) (hi : ∀ l, (iter l).Perm l) : ∃ record player file page html title row,
    recordOfText (siteText "mjloggm".toList pageEvents) = some (.ok record) ∧ record.players[1]? = some player ∧
    renderTemplate iter id true TPlayer.name player record none none false = .ok (file, page) ∧
    page.html (fun _ => .ok [1]) (fun _ => "0.5".toList) TPlayer.name = .ok html ∧ readGames html = some [(title, [row])] ∧
    RowRight (fun _ => "0.5".toList) 1 true (pagePlay.deal :: pageMoves.take 10) 53 0 row := by
  have hkids : (pageEvents.map (fun e => Elem.mk e.tag e.attrib [])).map (fun k => (⟨k.tag, k.attrib⟩ : Event)) = pageEvents := by
    rw [List.map_map]
    exact List.map_id' _
  obtain ⟨record, player, file, page, html, shown, h1, h2, h3, h4, h5, h6⟩ := C104_open iter hi id true TPlayer.name (fun _ => .ok [1])
    (fun _ _ => ⟨_, rfl⟩) (fun _ => "0.5".toList) _ _ _ _ (site_document "mjloggm".toList (isName_iff.2 ⟨_, _, rfl, by decide, by decide⟩) pageEvents page_writable)
    [] _ _ [pagePlay] 1 (by rw [hkids]; exact page_complete) (by
      intro g hg e he ht
      rw [List.mem_singleton.1 hg] at he
      have : ∀ e ∈ pagePlay.events, e.tag ≠ "AGARI".toList := by decide +kernel
      exact absurd ht (this e he)) 1 (by decide) (by
      intro g hg; rw [List.mem_singleton.1 hg]; exact page_fair) (by
      intro g hg; rw [List.mem_singleton.1 hg]; exact page_open) none none false ⟨fun _ hu => absurd hu (by simp), fun hg => absurd hg (by simp)⟩
  cases h6 with
  | cons a b =>
    cases b
    rename_i s
    obtain ⟨title, rows⟩ := s
    obtain ⟨r1, r2⟩ := a
    obtain ⟨row, q1, q2⟩ := r2 (pageMoves.take 10) 53 (pagePlay.moves.drop 11) rfl
    match rows, r1 with
    | [x], _ =>
      have : x = row := by
        have q1 : [x][0]? = some row := q1
        simpa using q1
      subst this
      exact ⟨record, player, file, page, html, title, x, h1, h2, h3, h4, h5, q2⟩

/-- a concealed hand as in `C104_made`: the one of `C96_row` -/
example : AllCompared 1 (nearDeal :: nearPlay.take 1) ∧ NoRedHeld 1 (nearDeal :: nearPlay.take 1) ∧
    ¬ AlreadyWon 1 (nearDeal :: nearPlay.take 1) ∧ ¬ NothingLeft 1 true (nearDeal :: nearPlay.take 1) := by
  have hall : AllCompared 1 (nearDeal :: nearPlay.take 1) := .inr ⟨by decide +kernel, near_nearer, near_few⟩
  have hok : (reportAt id 1 true (nearDeal :: nearPlay.take 1, 104)).toOption.isSome = true := by decide +kernel
  have hw : ¬ AlreadyWon 1 (nearDeal :: nearPlay.take 1) := by
    intro hw
    rw [show reportAt id 1 true (nearDeal :: nearPlay.take 1, 104) = _ from
      (C76_outcome id (fun l => List.Perm.refl l) 1 true _ _ _ _ near_fair _ _ (nearPlay.drop 2) rfl).1 hw] at hok
    cases hok
  refine ⟨hall, near_noRed, hw, fun hno => ?_⟩
  rw [show reportAt id 1 true (nearDeal :: nearPlay.take 1, 104) = _ from
    (division_iff (iter := id) (fun l => List.Perm.refl l) near_fair (post := nearPlay.drop 2) rfl (noRedUseful near_noRed) (allCompared_compared hall) hw).1 hno] at hok
  cases hok

end Verif.Props
