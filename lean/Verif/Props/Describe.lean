import Verif.Model.Describe
import Verif.Proofs.Paifu
import Verif.Proofs.Tags
import Verif.Proofs.CheckerAnalysis
import Verif.Props.Notation
import Verif.Spec.Values

/-! Property C77: the descriptions of events. -/
namespace Verif.Props
open Verif.Py Verif.Model Verif.Spec Verif.Proofs

/-- **C77.** A draw and a discard are described by the player and the name of the tile, a new dora indicator by the
    name of the tile. -/
theorem C77_tiles (iter : List Int → List Int) (q : Fin 4) (t : Nat) (ht : t < 136) :
    baseText iter (Move.draw q t).event = .ok ("player ".toList ++ natDigits q.val ++ " draw ".toList ++ tileName t) ∧
    baseText iter (Move.discard q t).event =
      .ok ("player ".toList ++ natDigits q.val ++ " discard ".toList ++ tileName t) ∧
    baseText iter (Move.dora t).event = .ok ("new dora indicator ".toList ++ tileName t) := by
  refine ⟨?_, ?_, ?_⟩
  · have h0 : (Move.draw q t).event.tag = drawLetter q :: natDigits t := rfl
    obtain ⟨x, h1, h2⟩ := (rowTileChange_number DRAW_INDICATOR _ t ht).2 (draw_seat q).1
    unfold baseText
    rw [h0]
    simp only [h1, bind, Except.bind, pure, Except.pure, (draw_seat q).2, h2]
  · have h0 : (Move.discard q t).event.tag = discardLetter q :: natDigits t := rfl
    obtain ⟨x, h1, h2⟩ := (rowTileChange_number DISCARD_INDICATOR _ t ht).2 (discard_seat q).2.1
    have h3 := (rowTileChange_number DRAW_INDICATOR _ t ht).1 (discard_seat q).1
    unfold baseText
    rw [h0]
    simp only [h1, h3, bind, Except.bind, pure, Except.pure, (discard_seat q).2.2, h2]
  · have h1 : rowTileChange DRAW_INDICATOR (Move.dora t).event.tag = .ok none := rowTileChange_quiet rfl
    have h2 : rowTileChange DISCARD_INDICATOR (Move.dora t).event.tag = .ok none := rowTileChange_quiet rfl
    have h3 : Event.get (Move.dora t).event "hai".toList = .ok (natDigits t) := rfl
    obtain ⟨x, h4, h5⟩ := tile_str_ok (t := (t : Int)) (by unfold IsTile; omega)
    have g1 : isOpenHand (Move.dora t).event = false := rfl
    have g2 : isRichii (Move.dora t).event = false := rfl
    have g3 : isDora (Move.dora t).event = true := rfl
    unfold baseText otherText
    rw [h1, h2, g1, g2, g3, h3]
    simp only [bind, Except.bind, pure, Except.pure, pyInt_natDigits, h4, h5, Bool.false_eq_true, if_false, if_true]

/-- What a reader of the notation sees in the text of a set of tile numbers: as many tiles of every kind as there are
    numbers of it. -/
def Shows (text : Str) (numbers : List Int) : Prop :=
  ∀ k, ((written text).map Tile.view).count k = (numbers.filter (fun n => decide (CopyOf n k))).length

theorem count_views {l : List Int} (h : ∀ n ∈ l, 0 ≤ n ∧ n < 136) (k : Kind) :
    ((l.map tileOf).map Tile.view).count k = (l.filter (fun n => decide (CopyOf n k))).length := by
  induction l with
  | nil => rfl
  | cons n l ih =>
    have h1 := (tileOf_spec (h n (by simp))).2.2.1 k
    have h2 := ih (fun m hm => h m (by simp [hm]))
    simp only [List.map_cons, List.filter_cons, List.count_cons]
    rw [h2]
    by_cases hc : CopyOf n k
    · simp [h1.2 hc, hc]
    · have : ¬ (tileOf n).view = k := fun e => hc (h1.1 e)
      simp [this, hc]

theorem numbersText_ok {l : List Int} (h : ∀ n ∈ l, IsTile n) : ∃ s, numbersText l = .ok s ∧ Shows s l := by
  have h' : ∀ n ∈ l, 0 ≤ n ∧ n < 136 := h
  have hm : l.mapM tileFromTenhou = .ok (l.map tileOf) := mapM_ok _ _ _ (fun n hn => (tileOf_spec (h' n hn)).1)
  refine ⟨_, by unfold numbersText; rw [hm]; rfl, ?_⟩
  have hreal : ∀ t ∈ l.map tileOf, RealTile t := by
    intro t ht
    obtain ⟨n, hn, rfl⟩ := List.mem_map.1 ht
    exact (tileOf_spec (h' n hn)).2.1
  have hok : HandOK (Counter.ofIter (l.map tileOf) : TileSet) := HandOK_ofIter hreal
  have hpos : ∀ e ∈ (Counter.ofIter (l.map tileOf) : TileSet), 0 < e.2 := by
    intro e he
    rw [← Counter.get_of_mem hok.1 he]
    obtain ⟨a, ha, hv⟩ := Counter.mem_keys_ofIter.1 (Counter.mem_keys.2 ⟨e, he, rfl⟩)
    show 0 < Counter.get (Counter.ofIter (l.map tileOf) : TileSet) (Tile.view e.1)
    rw [get_ofIter', show Tile.view e.1 = Tile.view a from hv]
    have := List.count_pos_iff.2 (List.mem_map_of_mem (f := Tile.view) ha)
    omega
  intro k
  have hk := (C06_roundtrip_eq (Counter.ofIter (l.map tileOf)) hok.1 hok.2.1 hpos).2 k
  rw [← count_views h' k]
  unfold tileSetFromString content at hk
  rw [tilesFromString_eq, get_reSort (Counter.WF_ofIter _), get_ofIter', get_ofIter'] at hk
  exact_mod_cast hk

theorem shows_perm {s : Str} {l l' : List Int} (hp : l.Perm l') (h : Shows s l) : Shows s l' := fun k => by
  rw [h k]; exact (hp.filter _).length_eq

/-- **C77.** Every decodable meld of real tiles is described by the player, the kind of the meld, the own tiles and the
    borrowed ones in tile notation, with as many tiles of every kind as the meld has, and the player it came from,
    whatever order Python goes through a set in. -/
theorem C77_meld (iter : List Int → List Int) (hi : Reorders iter) (q : Fin 4) (c : Nat) (x : Meld)
    (hx : meldOf q.val c = .ok x) (ht : ∀ t ∈ x.selfTiles ++ x.borrowedTiles, IsTile t) :
    ∃ own borrowed : Str, Shows own x.selfTiles ∧ Shows borrowed x.borrowedTiles ∧
    baseText iter (Move.meld q c).event = .ok ("player ".toList ++ natDigits q.val ++ " claimed '".toList ++
      (match x.cls with
        | .flush => "Flush" | .triplet => "Triplet" | .addedKan => "TenhouAddedKan" | .kita => "Kita"
        | .kan => "TenhouKan" | .kanFromTriplet => "KanFromTriplet").toList ++
      "' using '".toList ++ own ++ "' to get '".toList ++ borrowed ++ "' from player ".toList ++ pyStrInt x.fromWho) := by
  obtain ⟨own, o1, o2⟩ := numbersText_ok (l := iter x.selfTiles)
    (fun t h => ht t (by simp [(hi _).mem_iff.1 h]))
  obtain ⟨borrowed, b1, b2⟩ := numbersText_ok (l := iter x.borrowedTiles)
    (fun t h => ht t (by simp [(hi _).mem_iff.1 h]))
  refine ⟨own, borrowed, shows_perm (hi _) o2, shows_perm (hi _) b2, ?_⟩
  have h1 : rowTileChange DRAW_INDICATOR (Move.meld q c).event.tag = .ok none := rowTileChange_quiet rfl
  have h2 : rowTileChange DISCARD_INDICATOR (Move.meld q c).event.tag = .ok none := rowTileChange_quiet rfl
  have h3 : isOpenHand (Move.meld q c).event = true := rfl
  have h4 : Event.get (Move.meld q c).event "who".toList = .ok (natDigits q.val) := rfl
  unfold baseText otherText
  rw [h1, h2, h3, h4, meldFrom_move, hx]
  simp only [bind, Except.bind, pure, Except.pure, Meld.text, o1, b1, if_true]
  congr 1
  cases x.cls <;> simp [MeldClass.name]

/-- **C77.** A riichi names the player, a win the winner, the points (the second number of the list) and the loser, a drawn
    game its reason, if it has one; a win with fewer than two numbers, and an unknown reason, raise. -/
theorem C77_ends (iter : List Int → List Int) (e : Event) :
    (e.tag = "REACH".toList → ∀ a : Str, e.get "who".toList = .ok a →
      baseText iter e = .ok ("player ".toList ++ a ++ " richii".toList)) ∧
    (e.tag = "AGARI".toList → ∀ (a b : Str) (points : List Int), e.get "who".toList = .ok a →
      e.get "fromWho".toList = .ok b → e.get "ten".toList = .ok (commaList points) →
      (∀ n, points[1]? = some n → baseText iter e =
        .ok ("player ".toList ++ a ++ " win ".toList ++ pyStrInt n ++ " from player ".toList ++ b)) ∧
      (points.length < 2 → ∃ x, baseText iter e = .error x)) ∧
    (e.tag = "RYUUKYOKU".toList →
      baseText iter e = match e.attrib.lookup "type".toList with
        | none => .ok "no body win ".toList
        | some t => match drawnReasons.find? (fun d => decide (d.1.toList = t)) with
          | some d => .ok ("no body win ".toList ++ d.2.toList)
          | none => .error .keyError) := by
  have key : ∀ tag : Str, e.tag = tag → wholeNumber DRAW_INDICATOR tag = none → wholeNumber DISCARD_INDICATOR tag = none →
      baseText iter e = otherText iter e := by
    intro tag h h1 h2
    unfold baseText
    rw [h, rowTileChange_quiet h1, rowTileChange_quiet h2]
    rfl
  refine ⟨?_, ?_, ?_⟩
  · intro ht a ha
    rw [key _ ht rfl rfl]
    unfold otherText
    rw [show isOpenHand e = false from decide_eq_false (by rw [ht]; decide), show isRichii e = true from decide_eq_true ht, ha]
    rfl
  · intro ht a b points h1 h2 h3
    rw [key _ ht rfl rfl]
    unfold otherText
    rw [show isOpenHand e = false from decide_eq_false (by rw [ht]; decide),
      show isRichii e = false from decide_eq_false (by rw [ht]; decide),
      show isDora e = false from decide_eq_false (by rw [ht]; decide),
      show isSomebodyWin e = true from decide_eq_true ht, h1, h2, h3]
    simp only [bind, Except.bind, pure, Except.pure, Bool.false_eq_true, if_false, if_true]
    by_cases hp : points = []
    · subst hp
      rw [show numberList (commaList []) = .error .valueError from rfl]
      exact ⟨by simp, fun _ => ⟨_, rfl⟩⟩
    · rw [numberList_comma points hp]
      simp only
      constructor
      · intro n hn
        have := pyIdx_at (points.map Num.int) 1 (.int n) (by simp [hn])
        rw [show ((1 : Nat) : Int) = 1 from rfl] at this
        rw [this]
        rfl
      · intro hl
        have : (points.map Num.int)[1]? = none := by simp; omega
        refine ⟨.indexError, ?_⟩
        unfold pyIdx
        simp [this]
  · intro ht
    rw [key _ ht rfl rfl]
    unfold otherText
    rw [show isOpenHand e = false from decide_eq_false (by rw [ht]; decide),
      show isRichii e = false from decide_eq_false (by rw [ht]; decide),
      show isDora e = false from decide_eq_false (by rw [ht]; decide),
      show isSomebodyWin e = false from decide_eq_false (by rw [ht]; decide),
      show isNobodyWin e = true from decide_eq_true ht]
    simp only [bind, Except.bind, pure, Except.pure, Bool.false_eq_true, if_false, if_true]
    unfold drawnText
    cases e.attrib.lookup "type".toList with
    | none => rfl
    | some t =>
      simp only [← show DRAWN_TYPES = drawnReasons from rfl]
      cases DRAWN_TYPES.find? (fun d => decide (d.1.toList = t)) <;> rfl

/-- **C77.** Every other event, in particular a deal, is `UNPARSED`, never an exception. -/
theorem C77_unparsed (iter : List Int → List Int) (e : Event) (h1 : ∀ c n, ¬ Numbered "TUVW" e.tag c n)
    (h2 : ∀ c n, ¬ Numbered "DEFG" e.tag c n)
    (h3 : e.tag ∉ ["N".toList, "REACH".toList, "DORA".toList, "AGARI".toList, "RYUUKYOKU".toList]) :
    baseText iter e = .ok "UNPARSED".toList := by
  simp only [List.mem_cons, List.not_mem_nil, or_false, not_or] at h3
  unfold baseText otherText
  rw [rowTileChange_quiet (cs := DRAW_INDICATOR) (wholeNumber_none (letters := "TUVW") h1),
    rowTileChange_quiet (cs := DISCARD_INDICATOR) (wholeNumber_none (letters := "DEFG") h2), show isOpenHand e = false from decide_eq_false h3.1,
    show isRichii e = false from decide_eq_false h3.2.1, show isDora e = false from decide_eq_false h3.2.2.1,
    show isSomebodyWin e = false from decide_eq_false h3.2.2.2.1, show isNobodyWin e = false from decide_eq_false h3.2.2.2.2]
  rfl

/-- **C77.** The description of a draw or a discard tells them apart and gives the player and the name of the tile. -/
theorem C77_tells (iter : List Int → List Int) (q q' : Fin 4) (t t' : Nat) (ht : t < 136) (ht' : t' < 136) :
    (baseText iter (Move.draw q t).event = baseText iter (Move.draw q' t').event → q = q' ∧ tileName t = tileName t') ∧
    (baseText iter (Move.discard q t).event = baseText iter (Move.discard q' t').event →
      q = q' ∧ tileName t = tileName t') ∧
    baseText iter (Move.draw q t).event ≠ baseText iter (Move.discard q' t').event := by
  obtain ⟨a1, a2, _⟩ := C77_tiles iter q t ht
  obtain ⟨b1, b2, _⟩ := C77_tiles iter q' t' ht'
  rw [a1, a2, b1, b2]
  have hd : ∀ q : Fin 4, ∃ c, natDigits q.val = [c] := by
    intro q
    have : ∀ q : Fin 4, (natDigits q.val).length = 1 := by decide +kernel
    exact List.length_eq_one_iff.1 (this q)
  have hi : ∀ q q' : Fin 4, natDigits q.val = natDigits q'.val → q = q' := by decide +kernel
  obtain ⟨c, hc⟩ := hd q
  obtain ⟨c', hc'⟩ := hd q'
  have hqq := hi q q'
  rw [hc, hc'] at hqq ⊢
  refine ⟨?_, ?_, ?_⟩
  · intro h
    simp at h
    exact ⟨hqq (by rw [h.1]), h.2⟩
  · intro h
    simp at h
    exact ⟨hqq (by rw [h.1]), h.2⟩
  · intro h
    simp at h

/-- **C77.** `repr` of an event always raises: its format asks for two values and is given one. -/
theorem C77_repr (iter : List Int → List Int) (e : Event) : ∃ x, reprEvent iter e = .error x := by
  unfold reprEvent
  cases baseText iter e <;> exact ⟨_, rfl⟩

/-- instances: a chi of 4p with 2p and 3p, and a win -/
example : baseText id (Move.meld 1 27031).event =
    .ok (("player 1 claimed " ++ "'Flush' using '23p' to get '4p' from player 0").toList) := by
  decide +kernel
example : baseText id ⟨"AGARI".toList, [("who".toList, "0".toList), ("fromWho".toList, "2".toList), ("ten".toList, "30,1300,0".toList)]⟩ =
    .ok "player 0 win 1300 from player 2".toList := by decide +kernel

end Verif.Props
