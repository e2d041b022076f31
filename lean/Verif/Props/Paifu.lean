import Verif.Proofs.Paifu
import Verif.Props.Translate

/-!
C67 (the table of a game) and C68 (codes and titles of rounds).
-/
namespace Verif.Props
open Verif.Py Verif.Model Verif.Spec Verif.Proofs

/-! ### C67 -/

/-- **C67.** A draw gives one row with the player and the name of the tile seen, a discard one with the name of the
    tile shown. -/
theorem C67_draw_discard (iter : List Int → List Int) (q : Fin 4) (t : Nat) (ht : t < 136) :
    eventRows iter (Move.draw q t).event =
      .ok [tableRow [("event_type", "DRAW".toList), ("player", natDigits q.val), ("player_see", tileName t)]] ∧
    eventRows iter (Move.discard q t).event =
      .ok [tableRow [("event_type", "DISCARD".toList), ("player", natDigits q.val), ("player_show", tileName t)]] :=
  ⟨draw_rows iter q t ht, discard_rows iter q t ht⟩

/-- **C67.** A deal gives one row per player, three or four, with the names of the dealt tiles in order of their
    numbers and the score (the record has hundreds), then the row of the dora indicator and the one of the sticks. -/
theorem C67_deal (iter : List Int → List Int) (seed : List Int) (hands : Fin 4 → List Int) (more : List (Str × Str))
    (scores : List Int) (hten : more.lookup "ten".toList = some (commaList scores))
    (hh : ∀ q : Fin 4, q ≠ 3 → hands q ≠ []) (hT : ∀ q, ∀ t ∈ hands q, IsTile t)
    (hsc : (if hands 3 = [] then 3 else 4) ≤ scores.length) (hs : 3 ≤ seed.length) (hd : IsTile (seed.getLastD 0)) :
    ∃ sorted : Fin 4 → List Int, (∀ q, (sorted q).Perm (hands q) ∧ (sorted q).Pairwise (fun a b => a ≤ b)) ∧
    eventRows iter (Move.deal seed hands more).event = .ok (
      ((if hands 3 = [] then [0, 1, 2] else [0, 1, 2, 3]).map (fun q : Fin 4 =>
        tableRow [("event_type", "INIT".toList ++ natDigits (q.val + 1)), ("player", natDigits q.val),
          ("player_see", joined (sorted q)), ("score", pyStrInt (scores.getD q.val 0) ++ "00".toList)])) ++
      [tableRow [("event_type", "DORA".toList), ("player", "0".toList), ("player_see", tileName (seed.getLastD 0)),
        ("player_show", tileName (seed.getLastD 0))],
       tableRow [("event_type", "ROUND".toList), ("score", pyStrInt (seed.getD 2 0) ++ "000".toList)]]) :=
  ⟨fun q => inOrderI (hands q), fun q => inOrderI_spec (hands q),
    deal_rows iter seed hands more scores hten hh hT hsc hs hd⟩

/-- **C67.** Every decodable meld of real tiles gives one row, named after its kind, with the own tiles shown, the
    borrowed ones in front of them in the open ones, and where it came from (except for kita), whatever order
    Python goes through a set in. -/
theorem C67_meld (iter : List Int → List Int) (hi : Reorders iter) (q : Fin 4) (c : Nat) (x : Meld)
    (hx : meldOf q.val c = .ok x) (ht : ∀ t ∈ x.selfTiles ++ x.borrowedTiles, IsTile t) :
    ∃ own borrowed : List Int, own.Perm x.selfTiles ∧ borrowed.Perm x.borrowedTiles ∧
    eventRows iter (Move.meld q c).event = .ok [tableRow ([("event_type", (meldName x).toList),
      ("player", natDigits q.val), ("player_show", joined own), ("player_open", joined borrowed ++ joined own)] ++
      (if x.cls = .kita then [] else [("origin", pyStrInt x.fromWho)]))] :=
  ⟨_, _, hi _, hi _, meld_rows iter hi q c x hx ht⟩

/-- **C67.** Calling riichi gives one row, the accepted riichi one more and the 1000 points it costs. -/
theorem C67_richii (iter : List Int → List Int) (who : Str) (more : List (Str × Str)) :
    eventRows iter ⟨"REACH".toList, [("who".toList, who), ("step".toList, "1".toList)] ++ more⟩ =
      .ok [tableRow [("event_type", "CALLRICHI".toList), ("player", who)]] ∧
    eventRows iter ⟨"REACH".toList, [("who".toList, who), ("step".toList, "2".toList)] ++ more⟩ =
      .ok [tableRow [("event_type", "RICHI".toList), ("player", who)],
        tableRow [("event_type", "SCORE".toList), ("player", who), ("score", "-1000".toList)]] :=
  ⟨rfl, rfl⟩

/-- **C67.** A win names winner and loser, a drawn game its reason; a win whose points are not a list of at least
    two numbers, and an unknown reason, raise. -/
theorem C67_end (iter : List Int → List Int) (e : Event) :
    (e.tag = "AGARI".toList → ∀ (a b : Str) (points : List Int), e.get "who".toList = .ok a → e.get "fromWho".toList = .ok b →
      e.get "ten".toList = .ok (commaList points) →
      eventRows iter e = if 2 ≤ points.length then
          .ok [tableRow [("event_type", "WIN".toList), ("player", a), ("origin", b)]]
        else if points = [] then .error .valueError else .error .indexError) ∧
    (e.tag = "RYUUKYOKU".toList →
      eventRows iter e = match e.attrib.lookup "type".toList with
        | none => .ok [tableRow [("event_type", "EVEN".toList), ("origin", [])]]
        | some t => match drawnReasons.find? (fun d => decide (d.1.toList = t)) with
          | some d => .ok [tableRow [("event_type", "EVEN".toList), ("origin", d.2.toList)]]
          | none => .error .keyError) := by
  constructor
  · intro ht a b points h1 h2 h3
    have hq : Quiet e := by
      refine ⟨by rw [ht]; decide, by rw [ht]; decide, by rw [ht]; decide, ?_⟩
      intro c d r h hc
      rw [ht] at h
      have : "AGARI".toList = ['A', 'G', 'A', 'R', 'I'] := rfl
      rw [this] at h
      simp only [List.cons.injEq] at h
      obtain ⟨rfl, _⟩ := h
      exact absurd hc (by decide)
    have r1 : isRichii e = false := decide_eq_false (by rw [ht]; decide)
    have r2 : isDora e = false := decide_eq_false (by rw [ht]; decide)
    have r3 : isSomebodyWin e = true := decide_eq_true ht
    rw [eventRows_quiet iter hq, r1]
    unfold lateRows
    rw [r2, r3]
    simp only [h1, h2, h3, bind, Except.bind, pure, Except.pure, Bool.false_eq_true, if_false, if_true]
    by_cases hp : points = []
    · subst hp
      rw [show numberList (commaList []) = .error .valueError from rfl]
      rfl
    · rw [numberList_comma points hp]
      simp only
      by_cases h2 : 2 ≤ points.length
      · rw [if_pos h2]
        have := pyIdx_at (points.map Num.int) 1 (.int points[1]) (by simp)
        rw [show ((1 : Nat) : Int) = 1 from rfl] at this
        rw [this]
        rfl
      · rw [if_neg h2, if_neg hp]
        have : (points.map Num.int)[1]? = none := by simp; omega
        unfold pyIdx
        simp [this]
  · intro ht
    have hq : Quiet e := by
      refine ⟨by rw [ht]; decide, by rw [ht]; decide, by rw [ht]; decide, ?_⟩
      intro c d r h hc
      rw [ht] at h
      have : "RYUUKYOKU".toList = ['R', 'Y', 'U', 'U', 'K', 'Y', 'O', 'K', 'U'] := rfl
      rw [this] at h
      simp only [List.cons.injEq] at h
      obtain ⟨rfl, _⟩ := h
      exact absurd hc (by decide)
    have r1 : isRichii e = false := decide_eq_false (by rw [ht]; decide)
    have r2 : isDora e = false := decide_eq_false (by rw [ht]; decide)
    have r3 : isSomebodyWin e = false := decide_eq_false (by rw [ht]; decide)
    have r4 : isNobodyWin e = true := decide_eq_true ht
    rw [eventRows_quiet iter hq, r1]
    unfold lateRows
    rw [r2, r3, r4]
    simp only [Bool.false_eq_true, if_false, if_true]
    unfold drawnText
    cases e.attrib.lookup "type".toList with
    | none => rfl
    | some t =>
      simp only [← show DRAWN_TYPES = drawnReasons from rfl]
      cases DRAWN_TYPES.find? (fun d => decide (d.1.toList = t)) <;> rfl

/-- **C67.** The rows of a game are those of its events, in order, each with the code of the round added; if
    one event raises there is no table. -/
theorem C67_game (iter : List Int → List Int) (g : TGame) (type : GameType) (rows : List Row) :
    g.rows iter type = .ok rows ↔ ∃ (code : Str) (parts : List (List Row)), g.gameStr type = .ok code ∧
      parts.length = g.events.length ∧
      (∀ i (h : i < g.events.length) (h' : i < parts.length), eventRows iter g.events[i].ev = .ok parts[i]) ∧
      rows = parts.flatten.map (fun r => r ++ [("game_str".toList, PVal.str code)]) := by
  have key : ∀ (l : List TEvent) (parts : List (List Row)), l.mapM (fun e => eventRows iter e.ev) = .ok parts ↔
      parts.length = l.length ∧
      ∀ i (h : i < l.length) (h' : i < parts.length), eventRows iter l[i].ev = .ok parts[i] := by
    intro l
    induction l with
    | nil =>
      intro parts
      constructor
      · intro h; cases h; simp
      · rintro ⟨h, _⟩; rw [List.length_eq_zero_iff.1 h]; rfl
    | cons e l ih =>
      intro parts
      rw [List.mapM_cons, bind_ok]
      constructor
      · rintro ⟨y, h1, h⟩
        rw [bind_ok] at h
        obtain ⟨ys, h2, h⟩ := h
        cases h
        obtain ⟨k1, k2⟩ := (ih ys).1 h2
        refine ⟨by simp [k1], ?_⟩
        intro i h h'
        cases i with
        | zero => exact h1
        | succ i => exact k2 i (by simpa using h) (by simpa using h')
      · rintro ⟨h1, h2⟩
        cases parts with
        | nil => simp at h1
        | cons y ys =>
          refine ⟨y, h2 0 (by simp) (by simp), ?_⟩
          rw [bind_ok]
          refine ⟨ys, (ih ys).2 ⟨by simpa using h1, ?_⟩, rfl⟩
          intro i h h'
          exact h2 (i + 1) (by simpa using h) (by simpa using h')
  unfold TGame.rows
  simp only [bind_ok, pure_ok, key]
  constructor
  · rintro ⟨s, h1, parts, ⟨h2, h3⟩, rfl⟩
    exact ⟨s, parts, h1, h2, h3, rfl⟩
  · rintro ⟨s, parts, h1, h2, h3, rfl⟩
    exact ⟨s, h1, parts, ⟨h2, h3⟩, rfl⟩

/-- **C67.** The table is enough to follow the hands: whoever adds what a player is dealt and draws and takes away
    what the player discards and shows in melds has, at the end of any consistent game (or of its first events), the
    names of exactly the tiles in the hand the state tracking gives. -/
theorem C67_hand (iter : List Int → List Int) (hi : Reorders iter) (p : Fin 4) (l0 : List Int) (seed : List Int)
    (hands : Fin 4 → List Int) (more : List (Str × Str)) (scores : List Int)
    (hten : more.lookup "ten".toList = some (commaList scores)) (hh : ∀ q : Fin 4, q ≠ 3 → hands q ≠ []) (hT : ∀ q, ∀ t ∈ hands q, IsTile t)
    (hsc : (if hands 3 = [] then 3 else 4) ≤ scores.length) (hs : 3 ≤ seed.length) (hd : IsTile (seed.getLastD 0))
    (hnd : (hands p).Nodup) (ms : List Move) (hm : ∀ m ∈ Move.deal seed hands more :: ms, LegalFor p m)
    (hdl : ∀ m ∈ ms, m.isDeal = false) (hmt : ∀ m ∈ ms, MoveTiles m)
    (hc : Consistent p (Move.deal seed hands more :: ms)) (g : TGame) (type : GameType)
    (hg : Records g.events (Move.deal seed hands more :: ms)) (rows : List Row) (h : g.rows iter type = .ok rows) :
    ∃ l', (GState.hand p l0).passedEvents ((Move.deal seed hands more :: ms).map Move.event) = .ok (.hand p l') ∧
      l'.Nodup ∧ (readHand p rows).Perm (l'.map tileName) := by
  unfold TGame.rows at h
  simp only [bind_ok, pure_ok] at h
  obtain ⟨s, _, rs, h2, rfl⟩ := h
  have e : g.events.mapM (fun e => eventRows iter e.ev) =
      ((Move.deal seed hands more :: ms).map Move.event).mapM (eventRows iter) := by
    rw [← hg, List.mapM_map]
    rfl
  rw [e] at h2
  obtain ⟨l', a, b, _, d⟩ := rows_hand iter hi p l0 seed hands more scores hten hh hT hsc hs hd hnd ms
    hm hdl hmt hc rs h2
  refine ⟨l', by rw [passedEvents_eq]; exact a, b, ?_⟩
  unfold readHand
  rw [readRows_append]
  exact d

/-- **C67.** The table of a record is that of its games, in order, and a last row per player, three or four, with
    the final score (the record has hundreds). -/
theorem C67_record (iter : List Int → List Int) (r : TRecord) (scores : List Int) (hs : r.endScore = scores.map Num.int)
    (hl : (if r.players.length = 4 then 4 else 3) ≤ scores.length) (games : List (List Row))
    (hg : r.games.mapM (fun g => g.rows iter r.gameType) = .ok games) :
    r.rows iter = .ok (games.flatten ++ (if r.players.length = 4 then [0, 1, 2, 3] else [0, 1, 2]).map (fun i : Nat =>
      tableRow [("event_type", "FIN".toList ++ natDigits (i + 1)), ("player", natDigits i),
        ("score", pyStrInt (scores.getD i 0 * 100))])) := by
  have hf : ∀ (kind player : String) (i : Nat), i < scores.length → finRow r kind player (i : Int) =
      .ok (tableRow [("event_type", kind.toList), ("player", player.toList), ("score", pyStrInt (scores.getD i 0 * 100))]) := by
    intro kind player i hi
    unfold finRow
    rw [hs, pyIdx_at (scores.map Num.int) i (.int (scores.getD i 0)) (by simp [hi])]
    rfl
  have h3 : 3 ≤ scores.length := by split at hl <;> omega
  have f1 : finRow r "FIN1" "0" 0 = _ := hf "FIN1" "0" 0 (by omega)
  have f2 : finRow r "FIN2" "1" 1 = _ := hf "FIN2" "1" 1 (by omega)
  have f3 : finRow r "FIN3" "2" 2 = _ := hf "FIN3" "2" 2 (by omega)
  have n0 : "FIN1".toList = "FIN".toList ++ natDigits 1 ∧ "FIN2".toList = "FIN".toList ++ natDigits 2 ∧
      "FIN3".toList = "FIN".toList ++ natDigits 3 ∧ "FIN4".toList = "FIN".toList ++ natDigits 4 ∧
      "0".toList = natDigits 0 ∧ "1".toList = natDigits 1 ∧ "2".toList = natDigits 2 ∧ "3".toList = natDigits 3 := by
    decide +kernel
  unfold TRecord.rows
  rw [hg]
  simp only [bind, Except.bind, f1, f2, f3]
  by_cases h4 : r.players.length = 4
  · rw [if_pos h4] at hl
    have f4 : finRow r "FIN4" "3" 3 = _ := hf "FIN4" "3" 3 (by omega)
    rw [if_pos h4, if_pos h4, f4]
    simp only [n0.1, n0.2.1, n0.2.2.1, n0.2.2.2.1, n0.2.2.2.2.1, n0.2.2.2.2.2.1, n0.2.2.2.2.2.2.1, n0.2.2.2.2.2.2.2]
    rfl
  · rw [if_neg h4, if_neg h4]
    simp only [n0.1, n0.2.1, n0.2.2.1, n0.2.2.2.2.1, n0.2.2.2.2.2.1, n0.2.2.2.2.2.2.1]
    rfl

/-- the sample game of `Props/Translate.lean` as a game object -/
def sampleGame : TGame :=
  ⟨sampleEvents (sampleDeal :: samplePlay), sampleEvents samplePlay, [], [.int 5, .int 2, .int 1, .int 0, .int 0, .int 40], 1⟩
def sampleType : GameType := match GameType.make 0xa9 with | .ok g => g | .error _ => ⟨0, [], 0⟩

/-- the sample meets the hypotheses of `C67_hand` for every player, and has a table; what player 1, who calls a pon
    and makes it a kan, holds at the end is read from it -/
example : (∀ p, Consistent p (sampleDeal :: samplePlay)) ∧ Records sampleGame.events (sampleDeal :: samplePlay) ∧
    (sampleGame.rows id sampleType).toOption.map (fun rows => (rows.length, readHand 1 rows)) =
      some (22, ["1z".toList]) := by
  refine ⟨sample_consistent, sampleEvents_records _, ?_⟩
  decide +kernel

/-- all hypotheses of `C67_hand` are met by the sample and player 1 -/
example : ∃ rows, sampleGame.rows id sampleType = .ok rows ∧ ∃ l',
    (GState.hand 1 []).passedEvents ((sampleDeal :: samplePlay).map Move.event) = .ok (.hand 1 l') ∧
      l'.Nodup ∧ (readHand 1 rows).Perm (l'.map tileName) := by
  have hok : (sampleGame.rows id sampleType).toOption.isSome = true := by decide +kernel
  cases h : sampleGame.rows id sampleType with
  | error e => rw [h] at hok; cases hok
  | ok rows =>
    refine ⟨rows, rfl, C67_hand id (fun l => List.Perm.refl l) 1 [] _ sampleHands sampleMore [250, 250, 260, 240]
      (by decide +kernel) (fun q _ => sampleHands_dealt q) ?_ (by decide) (by decide) (by simp [IsTile]) (by decide) samplePlay
      (legalFor_deal sampleDeal_legal (sampleHands_dealt 1) (fun m hm => (samplePlay_ok m hm).1) (fun m hm => (samplePlay_ok m hm).2.1))
      (fun m hm => (samplePlay_ok m hm).2.1) (fun m hm => (samplePlay_ok m hm).2.2) (sample_consistent 1) sampleGame sampleType
      (sampleEvents_records _) rows h⟩
    · intro q
      match q with
      | 0 => simp [sampleHands, IsTile]
      | 1 => simp [sampleHands, IsTile]
      | 2 => simp [sampleHands, IsTile]
      | 3 => simp [sampleHands, IsTile]

/-! ### C68 -/

/-- **C68.** In a game of type `v` (one wind, or two with bit 3) the round number `4 * w + k` is round `k + 1` of the
    wind `w`, where one wind more than the type says may be played; the code of the round is the letter of the wind, that
    number and the count of repeats.  A later wind raises. -/
theorem C68_code (v : Int) (h0 : 0 ≤ v) (h1 : v ≤ 65535) (type : GameType) (ht : GameType.make v = .ok type) (g : TGame)
    (w k : Nat) (honba : Int) (rest : List Num) (hk : k < 4)
    (hs : g.seeds = .int (4 * w + k) :: .int honba :: rest) :
    g.gameStr type = if w ≤ (if bitSet v 3 then 2 else 1) then .ok (roundCode w k honba) else .error .assertionError :=
  gameStr_eq v h0 h1 type ht g w k honba rest hk hs

/-- **C68.** The title of a game is the same in characters, followed by how it ended, separated by commas. -/
theorem C68_title (v : Int) (h0 : 0 ≤ v) (h1 : v ≤ 65535) (type : GameType) (ht : GameType.make v = .ok type) (g : TGame)
    (w k : Nat) (honba : Int) (rest : List Num) (hk : k < 4)
    (hs : g.seeds = .int (4 * w + k) :: .int honba :: rest) (name : TPlayer → Str) (players : List TPlayer)
    (ends : List Str) (he : g.endEvents.mapM (fun e => endText name players e.ev) = .ok ends) :
    g.title name type players =
      if w ≤ (if bitSet v 3 then 2 else 1) then .ok (roundTitle w k honba ++ joinWith ',' ends)
      else .error .assertionError :=
  title_eq v h0 h1 type ht g w k honba rest hk hs name players ends he

/-- **C68.** Different rounds have different codes and different titles. -/
theorem C68_distinct (w k w' k' : Nat) (honba honba' : Nat) (hw : w < 4) (hw' : w' < 4) :
    (roundCode w k honba = roundCode w' k' honba' → (w, k, honba) = (w', k', honba')) ∧
    (roundTitle w k honba = roundTitle w' k' honba' → (w, k, honba) = (w', k', honba')) :=
  ⟨roundCode_inj w k w' k' honba honba' hw hw', roundTitle_inj w k w' k' honba honba' hw hw'⟩

/-- **C68.** How a game ended: by a self draw (the winner, ツモ and the points), by a win from another player (winner,
    loser, ロン and the points), or drawn, with the reason if there is one. -/
theorem C68_ends (name : TPlayer → Str) (players : List TPlayer) (e : Event) :
    (e.tag = "AGARI".toList → ∀ (a b : Nat) (pa pb : TPlayer) (points : List Int) (n : Int),
      e.get "who".toList = .ok (natDigits a) → e.get "fromWho".toList = .ok (natDigits b) →
      players[a]? = some pa → players[b]? = some pb →
      e.get "ten".toList = .ok (commaList points) → points[1]? = some n →
      endText name players e = .ok (
        if a = b then name pa ++ ":ツモ(".toList ++ pyStrInt n ++ ")".toList
        else name pa ++ "<-".toList ++ name pb ++ ":ロン(".toList ++ pyStrInt n ++ ")".toList)) ∧
    (e.tag = "RYUUKYOKU".toList → e.attrib.lookup "type".toList = none →
      endText name players e = .ok "流局 ".toList) ∧
    (e.tag = "RYUUKYOKU".toList → ∀ d ∈ drawnReasons, e.attrib.lookup "type".toList = some d.1.toList →
      endText name players e = .ok ("流局 ".toList ++ d.2.toList)) :=
  ⟨endText_win name players e, endText_plain name players e, fun ht d hd => endText_reason name players e ht d (show d ∈ DRAWN_TYPES from hd)⟩

/-- the second game of the south wind, with two repeats -/
example : sampleGame.seeds = .int (4 * (1 : Nat) + (1 : Nat)) :: .int 2 :: [.int 1, .int 0, .int 0, .int 40] ∧
    sampleGame.gameStr sampleType = .ok "S-2-2".toList := by
  refine ⟨rfl, ?_⟩
  decide +kernel

/-- a game of one wind has no west rounds -/
example : ∃ type, GameType.make 1 = .ok type ∧
    (TGame.gameStr { sampleGame with seeds := [.int 8, .int 0, .int 0] } type) = .error .assertionError := by
  refine ⟨_, make_gameType 1 (by decide) (by decide), ?_⟩
  decide +kernel

/-- a win of player 1 from player 0, read as a title -/
example : (TGame.title (fun p => p.nameEncoded)
      { sampleGame with endEvents := [⟨0, ⟨"AGARI".toList, [("ten".toList, "30,8000,1".toList), ("who".toList, "1".toList),
        ("fromWho".toList, "0".toList)]⟩⟩] } sampleType
      [⟨0, "A".toList, .int 1, .int 1500, "M".toList⟩, ⟨1, "B".toList, .int 1, .int 1500, "M".toList⟩]) =
    .ok "南2局2本 B<-A:ロン(8000)".toList := by
  decide +kernel

end Verif.Props
