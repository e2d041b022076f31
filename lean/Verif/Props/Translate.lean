import Verif.Proofs.Process
import Verif.Proofs.Builder
import Verif.Proofs.Consistent
import Verif.Props.State
import Verif.Spec.Values

/-!
Properties C47 to C53: translating records into commands.
-/
namespace Verif.Props
open Verif.Py Verif.Model Verif.Spec Verif.Proofs

/-! A sample record of a four player game, used to show that the hypotheses can be met. -/

def sampleGo : TEvent := ⟨0, ⟨"GO".toList, [("type".toList, "169".toList), ("lobby".toList, "0".toList)]⟩⟩

def sampleHands : Fin 4 → List Int
  | 0 => [0, 4, 16, 108] | 1 => [20, 22, 40, 44] | 2 => [52, 60, 61, 62] | 3 => [88, 100, 104, 130]

def sampleMore : List (Str × Str) :=
  [("ten".toList, commaList [250, 250, 260, 240]), ("oya".toList, "0".toList)]

def sampleDeal : Move := .deal [0, 0, 0, 2, 3, 132] sampleHands sampleMore

/-- draw and discard of the drawn tile, draw and discard from the hand, a pon, a discard without a draw, a reach, an
    added kan -/
def samplePlay : List Move :=
  [.draw 0 33, .discard 0 33, .draw 1 111, .discard 1 44, .dora 80, .draw 0 21, .discard 0 21,
   .meld 1 (ponCode 3 5 3 1 0 0).toNat, .discard 1 40,
   .other ⟨"REACH".toList, [("who".toList, "2".toList), ("step".toList, "1".toList)]⟩, .draw 2 12, .discard 2 12,
   .other ⟨"REACH".toList, [("who".toList, "2".toList), ("ten".toList, commaList [250, 250, 250, 240]),
     ("step".toList, "2".toList)]⟩,
   .draw 1 23, .meld 1 (addedKanCode 3 5 3 1 0).toNat]

def sampleAgari : TEvent := ⟨20, ⟨"AGARI".toList, [("who".toList, "2".toList), ("fromWho".toList, "0".toList),
  ("hai".toList, commaList [52, 60, 61, 62, 53]), ("machi".toList, "53".toList), ("yaku".toList, commaList [1, 1, 8, 1]),
  ("sc".toList, commaList [250, -26, 250, 0, 250, 36, 240, 0])]⟩⟩

def sampleEvents (ms : List Move) : List TEvent := ms.map (fun m => ⟨1, m.event⟩)

theorem sampleEvents_records (ms : List Move) : Records (sampleEvents ms) ms := by
  simp [Records, sampleEvents]

/-- the context after the `GO` of the sample -/
def sampleCtx : Ctx := match callTranslator true {} sampleGo with | .ok r => r.1 | .error _ => {}

theorem sampleCtx_count : sampleCtx.playerCount = .ok 4 := by decide +kernel

theorem quiet_reach (a : List (Str × Str)) : Quiet ⟨"REACH".toList, a⟩ := by
  refine ⟨show "REACH".toList ≠ "INIT".toList by decide +kernel, show "REACH".toList ≠ "N".toList by decide +kernel,
    show "REACH".toList ≠ "DORA".toList by decide +kernel, ?_⟩
  intro c d r h
  have h' : "REACH".toList = c :: d :: r := h
  rw [show "REACH".toList = ['R', 'E', 'A', 'C', 'H'] by decide +kernel] at h'
  simp only [List.cons.injEq] at h'
  obtain ⟨rfl, rfl, _⟩ := h'
  intro hc
  exact absurd hc (by decide +kernel)

theorem samplePlay_ok : PlayOk samplePlay := by
  intro m hm
  simp only [samplePlay, List.mem_cons, List.not_mem_nil, or_false] at hm
  rcases hm with rfl | rfl | rfl | rfl | rfl | rfl | rfl | rfl | rfl | rfl | rfl | rfl | rfl | rfl | rfl
  case inr.inr.inr.inr.inr.inr.inr.inl =>
    exact ⟨⟨⟨.triplet, [20, 22], [21], 0⟩, by decide +kernel⟩, rfl, trivial⟩
  case inr.inr.inr.inr.inr.inr.inr.inr.inr.inr.inr.inr.inr.inr =>
    exact ⟨⟨⟨.addedKan, [23], [], 0⟩, by decide +kernel⟩, rfl, trivial⟩
  all_goals first
    | exact ⟨trivial, rfl, by simp [MoveTiles]⟩
    | exact ⟨quiet_reach _, rfl, trivial⟩

theorem sampleDeal_legal : LegalMove sampleDeal := by
  show _ ≠ []
  simp

theorem sampleHands_dealt (q : Fin 4) : sampleHands q ≠ [] := by
  match q with
  | 0 => simp [sampleHands]
  | 1 => simp [sampleHands]
  | 2 => simp [sampleHands]
  | 3 => simp [sampleHands]

theorem sample_consistent (p : Fin 4) : Consistent p (sampleDeal :: samplePlay) := by
  apply consistent_of_check
  revert p
  decide +kernel

/-- the sample translates -/
theorem sample_translates : ∃ c o, translateAll true sampleCtx (sampleEvents (sampleDeal :: samplePlay)) = .ok (c, o) := by
  have h : (translateAll true sampleCtx (sampleEvents (sampleDeal :: samplePlay))).isOk = true := by decide +kernel
  cases hx : translateAll true sampleCtx (sampleEvents (sampleDeal :: samplePlay)) with
  | ok r => exact ⟨r.1, r.2, rfl⟩
  | error e => rw [hx] at h; cases h

/-! ### C47 -/

/-- **C47.** `to_commands` gives the same commands, or the same exception, whatever the process did before: any number
    of translations, finished, failed or abandoned half-way, any iterators, and whatever context failed calls left. -/
theorem C47_to_commands (left : Ctx → TEvent → Ctx) (history : List ProcOp) (strict : Bool) (events : List TEvent) :
    (toCommands left strict (Proc.run left {} history).ctx events).2 = (toCommands left strict {} events).2 := rfl

/-- a program run step by step, with what every step gave -/
def runOuts (left : Ctx → TEvent → Ctx) (p : Proc) (ops : List ProcOp) : List (Option Out) :=
  (ops.foldl (fun (s : Proc × List (Option Out)) o => ((s.1.step left o).1, s.2 ++ [(s.1.step left o).2])) (p, [])).2

/-- **C47.** A new iterator of `to_command_records`, made after any history and consumed without using another one in
    between, hands out exactly the commands `to_commands` returns and then stops; where `to_commands` raises, it raises
    the same exception after some commands. -/
theorem C47_iterator (left : Ctx → TEvent → Ctx) (history : List ProcOp) (strict : Bool) (events : List TEvent) :
    let p := Proc.run left {} (history ++ [.newIter strict events])
    let i := p.iters.length - 1
    (∀ cs, (toCommands left strict {} events).2 = .ok cs →
      runOuts left p (List.replicate (cs.length + 1) (.next i)) = cs.map (fun c => some (.cmd c)) ++ [some .stop]) ∧
    (∀ x, (toCommands left strict {} events).2 = .error x → ∃ cs : List Cmd,
      runOuts left p (List.replicate (cs.length + 1) (.next i)) = cs.map (fun c => some (.cmd c)) ++ [some (.error x)]) := by
  intro p i
  have hp : p = ⟨(Proc.run left {} history).ctx, (Proc.run left {} history).iters ++ [.fresh strict events]⟩ := by
    show Proc.run left {} (history ++ _) = _
    unfold Proc.run
    rw [List.foldl_append]
    rfl
  have hi : p.iters[i]? = some (.fresh strict events) := by
    show p.iters[p.iters.length - 1]? = _
    rw [hp]; simp
  have step : ∀ k, runOuts left p (List.replicate k (.next i)) = (drain left k p.ctx (.fresh strict events)).map some :=
    fun k => drain_proc left i k p _ hi _ rfl
  have key := drain_resume left strict events {}
  have unfold1 : ∀ k, drain left (k + 1) p.ctx (.fresh strict events) = drain left (k + 1) {} (.fresh strict events) :=
    fun k => rfl
  refine ⟨?_, ?_⟩
  · intro cs hcs
    have := key.1 cs (listAll left strict {} events).1 (by
      show listAll left strict {} events = _
      rw [← hcs]; rfl) (.fresh strict events) rfl
    rw [step, unfold1, this]
    simp
  · intro x hx
    obtain ⟨r, hr⟩ := key.2 x (listAll left strict {} events).1 (by
      show listAll left strict {} events = _
      rw [← hx]; rfl)
    refine ⟨r, ?_⟩
    rw [step, unfold1, hr _ rfl]
    simp

/-- `<TAIKYOKU oya="1">` and `<SHUFFLE seed="x">` -/
def sampleTaikyoku : TEvent := ⟨1, ⟨"TAIKYOKU".toList, [("oya".toList, "1".toList)]⟩⟩
def sampleShuffle : TEvent := ⟨0, ⟨"SHUFFLE".toList, [("seed".toList, "x".toList)]⟩⟩

/-- **C47.** Interleaved iterators disturb each other: alone, the iterator gives eleven commands (seven of `<GO>`, four of
    `<TAIKYOKU>`); with another one started after the seventh, the eighth `next` raises `KeyError`. -/
theorem C47_interleaving_breaks :
    (∃ cs, (toCommands (fun c _ => c) true {} [sampleGo, sampleTaikyoku]).2 = .ok cs ∧ cs.length = 11) ∧
    (runOuts (fun c _ => c) {} ([.newIter true [sampleGo, sampleTaikyoku], .newIter true [sampleShuffle]] ++
      List.replicate 7 (.next 0) ++ [.next 1, .next 0])).getLast? = some (some (.error .keyError)) := by
  refine ⟨?_, by decide +kernel⟩
  have h : ((toCommands (fun c _ => c) true {} [sampleGo, sampleTaikyoku]).2.map List.length) = .ok 11 := by decide +kernel
  cases hx : (toCommands (fun c _ => c) true {} [sampleGo, sampleTaikyoku]).2 with
  | ok r => rw [hx] at h; exact ⟨r, rfl, Except.ok.inj h⟩
  | error e => rw [hx] at h; cases h

/-! ### C48 -/

/-- **C48.** In any context with `n` players (whatever was translated before), translate a deal and the moves after it, up
    to anywhere before the game's end.  If the moves are consistent for player `p`, the hand stored with the last command
    about it consists of the names of the tiles `PlayerHand` holds after the same events, each equally often. -/
theorem C48_hand (strict : Bool) (ctx ctx' : Ctx) (n : Nat) (hn : ctx.playerCount = .ok n) (p : Fin 4) (hp : p.val < n)
    (seed : List Int) (hands : Fin 4 → List Int) (more : List (Str × Str)) (ms : List Move)
    (hdl : seed ≠ []) (hdp : hands p ≠ []) (hnd : (hands p).Nodup) (hT : ∀ t ∈ hands p, IsTile t)
    (hok : PlayOk ms) (hend : NoEnd ms) (hc : Consistent p (.deal seed hands more :: ms))
    (ts : List TEvent) (hts : Records ts (.deal seed hands more :: ms)) (out : List Cmd)
    (h : translateAll strict ctx ts = .ok (ctx', out)) (before : List Int) :
    ∃ held names earlier c,
      (GState.hand p before).passedEvents (ts.map TEvent.ev) = .ok (.hand p held) ∧
      about (ofPlayer p.val "hand") out = earlier ++ [c] ∧ c.state = strs names ∧ names.Perm (held.map tileName) := by
  obtain ⟨l', h1, ⟨_, _, names, h2, h3⟩, h4⟩ := hands_sim before hn hp hnd hT
    (legalFor_deal hdl hdp (fun m hm => (hok m hm).1) (fun m hm => (hok m hm).2.1))
    (fun m hm => (hok m hm).2.1) (fun m hm => (hok m hm).2.2) (fun e he => (hend e he).1) hc hts h
  rcases last_state (ofPlayer p.val "hand") h with ⟨a, _⟩ | ⟨a, c, h5, h6⟩
  · exact absurd a h4
  · refine ⟨l', names, a, c, ?_, h5, by rw [h6, h2], h3⟩
    rw [passedEvents_eq, show ts.map TEvent.ev = _ from hts]
    exact h1

/-- all hypotheses hold for the sample and every player -/
example (p : Fin 4) : ∃ held names earlier c out,
    (GState.hand p []).passedEvents ((sampleEvents (sampleDeal :: samplePlay)).map TEvent.ev) = .ok (.hand p held) ∧
    about (ofPlayer p.val "hand") out = earlier ++ [c] ∧ c.state = strs names ∧ names.Perm (held.map tileName) := by
  obtain ⟨c, o, h⟩ := sample_translates
  have hnd : ∀ p, (sampleHands p).Nodup := by decide +kernel
  have hT : ∀ p, ∀ t ∈ sampleHands p, IsTile t := by unfold IsTile; decide +kernel
  have hend : NoEnd samplePlay := by
    intro e he
    simp [samplePlay] at he
    rcases he with rfl | rfl <;> decide +kernel
  obtain ⟨held, names, earlier, c, h⟩ := C48_hand true sampleCtx c 4 sampleCtx_count p p.isLt _ _ _ samplePlay
    sampleDeal_legal (sampleHands_dealt p) (hnd p) (hT p) samplePlay_ok hend (sample_consistent p) _ (sampleEvents_records _) o h []
  exact ⟨held, names, earlier, c, o, h⟩

/-! ### C49 -/

/-- **C49.** After a deal and any moves, the flag of every discard of player `p` in `discard_from_hand` is `False` exactly
    when drawing that tile number was the last change of the player's hand; there is one flag for every discard,
    `discard_tiles` are the names of the discards in order and `round` is their number. -/
theorem C49_discards (strict : Bool) (ctx ctx' : Ctx) (n : Nat) (hn : ctx.playerCount = .ok n) (p : Fin 4) (hp : p.val < n)
    (seed : List Int) (hands : Fin 4 → List Int) (more : List (Str × Str)) (ms : List Move) (hok : PlayOk ms)
    (ts : List TEvent) (hts : Records ts (.deal seed hands more :: ms)) (out : List Cmd)
    (h : translateAll strict ctx ts = .ok (ctx', out)) :
    ctx'.vals.get (ofPlayer p.val "round") = .num (.int (discardsOf p ms).length) ∧
    ctx'.vals.get (ofPlayer p.val "discard_tiles") = strs ((discardsOf p ms).map tileName) ∧
    ∃ flags : List Bool, ctx'.vals.get (ofPlayer p.val "discard_from_hand") = .list (flags.map Val.bool) ∧
      flags.length = (discardsOf p ms).length ∧
      ∀ pre t post, ms = pre ++ .discard p t :: post →
        ∃ b, flags[(discardsOf p pre).length]? = some b ∧ (b = false ↔ LastDrew p t (.deal seed hands more :: pre)) :=
  (discards_sim hn hp (fun m hm => (hok m hm).1) (fun m hm => (hok m hm).2.1) (fun m hm => (hok m hm).2.2) hts h).2

/-- in the sample, player 0 discards two drawn tiles and player 1 two others -/
example : ∃ c o, translateAll true sampleCtx (sampleEvents (sampleDeal :: samplePlay)) = .ok (c, o) ∧
    c.vals.get (ofPlayer 0 "discard_from_hand") = .list [.bool false, .bool false] ∧
    c.vals.get (ofPlayer 1 "discard_from_hand") = .list [.bool true, .bool true] := by
  obtain ⟨c, o, h⟩ := sample_translates
  refine ⟨c, o, h, ?_⟩
  have e : (translateAll true sampleCtx (sampleEvents (sampleDeal :: samplePlay))).map (fun r =>
      (r.1.vals.get (ofPlayer 0 "discard_from_hand"), r.1.vals.get (ofPlayer 1 "discard_from_hand"))) =
      .ok (.list [.bool false, .bool false], .list [.bool true, .bool true]) := by decide +kernel
  rw [h] at e
  have := Except.ok.inj e
  simp only [Prod.mk.injEq] at this
  exact this

/-! ### C50 -/

/-- **C50.** After a win or a drawn game whose score list is `sc`, the score of every player is
    `(sc[2p] + sc[2p+1]) * 100`. -/
theorem C50_end (strict : Bool) (ctx ctx' : Ctx) (n : Nat) (hn : ctx.playerCount = .ok n) (t : TEvent)
    (ht : t.ev.tag = "AGARI".toList ∨ t.ev.tag = "RYUUKYOKU".toList) (sc : List Int)
    (hsc : t.ev.attrib.lookup "sc".toList = some (commaList sc)) (out : List Cmd)
    (h : callTranslator strict ctx t = .ok (ctx', out)) (p : Nat) (hp : p < n) (a d : Int) (ha : sc[2 * p]? = some a)
    (hd : sc[2 * p + 1]? = some d) : scoreOf ctx' p = some ((a + d) * 100) := by
  obtain ⟨ctx1, cs, hg, _⟩ := call_inv h
  have hget := call_get h hg (ofPlayer p "score")
  have hne : sc ≠ [] := by rintro rfl; simp at ha
  have hval := finish_score_value ha hd
  have hx : ctx'.vals.get (ofPlayer p "score") = .num (.int ((a + d) * 100)) := by
    rcases ht with ht | ht
    · rw [named_agari_gen ht] at hg
      obtain ⟨whoT, who, fromT, from_, scT, scl, yaku, rest, _, _, _, _, h5, h6, _, h8, h9⟩ := agari_about_end hg
      simp only [Event.get, hsc] at h5
      cases h5
      rw [numberList_comma _ hne] at h6
      cases h6
      rw [h9 p "score" (by decide), (finish_values h8 hn hp _).2.2.2.2] at hget
      exact (Except.ok.inj (hval.symm.trans hget)).symm
    · rw [ryuu_gen ht] at hg
      obtain ⟨scl, rest, h1, h2, h3⟩ := ryuu_about_end hg
      simp only [drawnScores, hsc, numberList_comma _ hne, bind, Except.bind, pure, Except.pure] at h1
      cases h1
      rw [h3 p "score" (by decide), (finish_values h2 hn hp _).2.2.2.2] at hget
      exact (Except.ok.inj (hval.symm.trans hget)).symm
  simp only [scoreOf, hx]

/-- **C50.** ... so the sum of all scores is a hundred times the sum of the listed scores and the listed changes. -/
theorem C50_total (strict : Bool) (ctx ctx' : Ctx) (n : Nat) (hn : ctx.playerCount = .ok n) (t : TEvent)
    (ht : t.ev.tag = "AGARI".toList ∨ t.ev.tag = "RYUUKYOKU".toList) (scores changes : List Int)
    (hs : scores.length = n) (hcg : changes.length = n)
    (hsc : t.ev.attrib.lookup "sc".toList = some (commaList ((scores.zip changes).flatMap (fun x => [x.1, x.2]))))
    (out : List Cmd) (h : callTranslator strict ctx t = .ok (ctx', out)) :
    ∃ after : List Int, (List.range n).map (scoreOf ctx') = after.map some ∧ after.sum = 100 * scores.sum + 100 * changes.sum := by
  have idx : ∀ (l : List (Int × Int)) (p : Nat) (x : Int × Int), l[p]? = some x →
      (l.flatMap (fun x => [x.1, x.2]))[2 * p]? = some x.1 ∧ (l.flatMap (fun x => [x.1, x.2]))[2 * p + 1]? = some x.2 := by
    intro l
    induction l with
    | nil => intro p x hx; simp at hx
    | cons y l ih =>
      intro p x hx
      cases p with
      | zero => simp at hx; subst hx; simp
      | succ p =>
        have := ih p x (by simpa using hx)
        simpa [Nat.mul_add, Nat.add_assoc] using this
  refine ⟨(scores.zip changes).map (fun x => (x.1 + x.2) * 100), ?_, ?_⟩
  · apply List.ext_getElem
    · simp [hs, hcg]
    · intro i h1 h2
      simp only [List.getElem_map, List.getElem_range]
      have hi : i < n := by simpa using h1
      have hz : (scores.zip changes)[i]? = some ((scores.zip changes)[i]'(by simpa [hs, hcg] using hi)) := List.getElem?_eq_getElem _
      obtain ⟨e1, e2⟩ := idx _ _ _ hz
      exact C50_end strict ctx ctx' n hn t ht _ hsc out h i hi _ _ e1 e2
  · have gen : ∀ (a b : List Int), a.length = b.length →
        ((a.zip b).map (fun x => (x.1 + x.2) * 100)).sum = 100 * a.sum + 100 * b.sum := by
      intro a
      induction a with
      | nil => intro b hb; simp at hb; have : b = [] := List.eq_nil_of_length_eq_zero hb.symm; subst this; rfl
      | cons x a ih =>
        intro b hb
        cases b with
        | nil => simp at hb
        | cons y b =>
          simp only [List.zip_cons_cons, List.map_cons, List.sum_cons, ih b (by simpa using hb)]
          omega
    exact gen _ _ (by omega)

/-- **C50.** Between the deal and the end of the game, the score of player `p` is a hundred times the dealt `ten`, less 1000
    for every reach of `p` accepted since. -/
theorem C50_during (strict : Bool) (ctx ctx' : Ctx) (n : Nat) (hn : ctx.playerCount = .ok n) (p : Fin 4) (hp : p.val < n)
    (seed : List Int) (hands : Fin 4 → List Int) (more : List (Str × Str)) (ten : List Int)
    (hten : more.lookup "ten".toList = some (commaList ten)) (v : Int) (hv : ten[p.val]? = some v)
    (ms : List Move) (hok : PlayOk ms) (hend : NoEnd ms) (hr : ReachesOk ms)
    (ts : List TEvent) (hts : Records ts (.deal seed hands more :: ms)) (out : List Cmd)
    (h : translateAll strict ctx ts = .ok (ctx', out)) :
    scoreOf ctx' p.val = some (v * 100 - 1000 * (ms.filter (fun m => decide (AcceptsReach p m))).length) := by
  have := scores_sim hn hp hten hv (fun m hm => (hok m hm).1) (fun m hm => (hok m hm).2.1) (fun m hm => (hok m hm).2.2)
    hend hr hts h
  unfold ScoreSim at this
  simp only [scoreOf, this]

/-- **C50.** The score the next deal asserts is the one stored exactly when `ten` of the deal is score plus change of the
    game end. -/
theorem C50_next_deal (strict : Bool) (c0 c1 c2 : Ctx) (n : Nat) (hn : c0.playerCount = .ok n) (hn' : c1.playerCount = .ok n)
    (t : TEvent) (ht : t.ev.tag = "AGARI".toList ∨ t.ev.tag = "RYUUKYOKU".toList) (sc : List Int)
    (hsc : t.ev.attrib.lookup "sc".toList = some (commaList sc)) (o1 o2 : List Cmd)
    (h1 : callTranslator strict c0 t = .ok (c1, o1)) (p : Fin 4) (hp : p.val < n) (a d : Int) (ha : sc[2 * p.val]? = some a)
    (hd : sc[2 * p.val + 1]? = some d)
    (seed : List Int) (hands : Fin 4 → List Int) (more : List (Str × Str)) (ten : List Int)
    (hten : more.lookup "ten".toList = some (commaList ten)) (v : Int) (hv : ten[p.val]? = some v)
    (t' : TEvent) (ht' : t'.ev = (Move.deal seed hands more).event) (h2 : callTranslator strict c1 t' = .ok (c2, o2)) :
    scoreOf c2 p.val = some (v * 100) ∧ (scoreOf c2 p.val = scoreOf c1 p.val ↔ v = a + d) := by
  have e1 := C50_end strict c0 c1 n hn t ht sc hsc o1 h1 p.val hp a d ha hd
  have e2 := deal_score hn' hp hten hv ht' h2
  unfold ScoreSim at e2
  have e3 : scoreOf c2 p.val = some (v * 100) := by simp only [scoreOf, e2]
  refine ⟨e3, ?_⟩
  rw [e1, e3]
  simp only [Option.some.injEq]
  omega

/-- the sample: player 2 accepts a reach and wins -/
example : ∃ c o, translateAll true sampleCtx (sampleEvents (sampleDeal :: samplePlay) ++ [sampleAgari]) = .ok (c, o) ∧
    (List.range 4).map (scoreOf c) = [some 22400, some 25000, some 28600, some 24000] := by
  have h : (translateAll true sampleCtx (sampleEvents (sampleDeal :: samplePlay) ++ [sampleAgari])).map
      (fun r => (List.range 4).map (scoreOf r.1)) = .ok [some 22400, some 25000, some 28600, some 24000] := by decide +kernel
  cases hx : translateAll true sampleCtx (sampleEvents (sampleDeal :: samplePlay) ++ [sampleAgari]) with
  | ok r => rw [hx] at h; exact ⟨r.1, r.2, rfl, Except.ok.inj h⟩
  | error e => rw [hx] at h; cases h

example : ReachesOk samplePlay := by
  intro e he _
  simp [samplePlay] at he
  rcases he with rfl | rfl
  · exact ⟨2, 1, by decide +kernel, by decide +kernel⟩
  · exact ⟨2, 2, by decide +kernel, by decide +kernel⟩

/-! ### C51 -/

/-- **C51.** After a win of `w` from `f` (`w = f` for a self-drawn win), for every player: `is_win` holds exactly for the
    winner; `is_discard_lose_game` exactly for the discarder of a win that is not self-drawn; the yaku go to everybody
    when self-drawn and otherwise to winner and discarder; `is_self_win` is the same for everybody. -/
theorem C51_win (strict : Bool) (ctx ctx' : Ctx) (n : Nat) (hn : ctx.playerCount = .ok n) (t : TEvent)
    (ht : t.ev.tag = "AGARI".toList) (w f : Nat) (hw : t.ev.attrib.lookup "who".toList = some (natDigits w))
    (hf : t.ev.attrib.lookup "fromWho".toList = some (natDigits f)) (out : List Cmd)
    (h : callTranslator strict ctx t = .ok (ctx', out)) :
    ∃ yaku, yakuOf t.ev = .ok yaku ∧ ∀ p < n,
      ctx'.vals.get (ofPlayer p "is_win") = .bool (decide (w = p)) ∧
      ctx'.vals.get (ofPlayer p "is_discard_lose_game") = .bool (decide (w ≠ f ∧ p = f)) ∧
      ctx'.vals.get (ofPlayer p "is_self_win") = .bool (decide (w = f)) ∧
      ctx'.vals.get (ofPlayer p "faans") = (if w = f ∨ p = f ∨ p = w then strs yaku else .list []) := by
  obtain ⟨ctx1, cs, hg, _⟩ := call_inv h
  have hget := call_get h hg
  rw [named_agari_gen ht] at hg
  obtain ⟨whoT, who, fromT, from_, scT, scl, yaku, rest, h1, h2, h3, h4, h5, h6, h7, h8, h9⟩ := agari_about_end hg
  simp only [Event.get, hw] at h1
  cases h1
  simp only [Event.get, hf] at h3
  cases h3
  rw [pyInt_natDigits] at h2 h4
  cases h2
  cases h4
  refine ⟨yaku, h7, ?_⟩
  intro p hp
  have g1 := hget (ofPlayer p "is_win")
  have g2 := hget (ofPlayer p "is_self_win")
  have g3 := hget (ofPlayer p "is_discard_lose_game")
  have g4 := hget (ofPlayer p "faans")
  rw [h9 p _ (by decide)] at g1 g2 g3 g4
  rw [(finish_values h8 hn hp _).1] at g1
  rw [(finish_values h8 hn hp _).2.1] at g2
  rw [(finish_values h8 hn hp _).2.2.1] at g3
  rw [(finish_values h8 hn hp _).2.2.2.1] at g4
  refine ⟨?_, ?_, ?_, ?_⟩
  · rw [← Except.ok.inj g1]; simp only [Int.ofNat_inj]
  · rw [← Except.ok.inj g3]; simp only [ne_eq, Int.ofNat_inj]
  · rw [← Except.ok.inj g2]; simp only [Int.ofNat_inj]
  · rw [← Except.ok.inj g4]
    simp only [Int.ofNat_inj, @eq_comm _ w p]

/-- **C51.** After a drawn game nobody has won or lost by a discard, and there are no yaku. -/
theorem C51_draw (strict : Bool) (ctx ctx' : Ctx) (n : Nat) (hn : ctx.playerCount = .ok n) (t : TEvent)
    (ht : t.ev.tag = "RYUUKYOKU".toList) (out : List Cmd) (h : callTranslator strict ctx t = .ok (ctx', out)) :
    ∀ p < n, ctx'.vals.get (ofPlayer p "is_win") = .bool false ∧
      ctx'.vals.get (ofPlayer p "is_discard_lose_game") = .bool false ∧
      ctx'.vals.get (ofPlayer p "is_self_win") = .bool false ∧ ctx'.vals.get (ofPlayer p "faans") = .list [] := by
  obtain ⟨ctx1, cs, hg, _⟩ := call_inv h
  have hget := call_get h hg
  rw [ryuu_gen ht] at hg
  obtain ⟨scl, rest, h1, h8, h9⟩ := ryuu_about_end hg
  intro p hp
  have g1 := hget (ofPlayer p "is_win")
  have g2 := hget (ofPlayer p "is_self_win")
  have g3 := hget (ofPlayer p "is_discard_lose_game")
  have g4 := hget (ofPlayer p "faans")
  rw [h9 p _ (by decide)] at g1 g2 g3 g4
  rw [(finish_values h8 hn hp _).1] at g1
  rw [(finish_values h8 hn hp _).2.1] at g2
  rw [(finish_values h8 hn hp _).2.2.1] at g3
  rw [(finish_values h8 hn hp _).2.2.2.1] at g4
  exact ⟨(Except.ok.inj g1).symm, (Except.ok.inj g3).symm, (Except.ok.inj g2).symm, (Except.ok.inj g4).symm⟩

/-- **C51.** The yaku of a win are named by position in the table, and so are the han that stand between them: for
    `yaku="id,han,id,han"` the han are in the list as if they were yaku. -/
theorem C51_yaku (e : Event) (l : List Nat) (hl : ∀ i ∈ l, i < yakuNames.length) (hne : l ≠ [])
    (hy : e.attrib.lookup "yaku".toList = some (commaList (l.map Int.ofNat))) :
    ∃ names, yakuOf e = .ok names ∧ names.length = l.length ∧
      ∀ (j i : Nat), l[j]? = some i → ∃ s : String, yakuNames[i]? = some s ∧ names[j]? = some s.toList := by
  rw [← show SCORE_PATTERN = yakuNames from rfl] at hl ⊢
  have hm : (l.map Int.ofNat) ≠ [] := by simpa using hne
  refine ⟨l.map (fun i => (SCORE_PATTERN[i]?.getD "").toList), ?_, by simp, ?_⟩
  · unfold yakuOf
    rw [hy]
    simp only [numberList_comma _ hm, bind, Except.bind]
    rw [mapM_ok _ (fun (x : Num) => match x with
      | .int k => (SCORE_PATTERN[k.toNat]?.getD "").toList | .dec _ _ => [])]
    · simp [List.map_map, Function.comp_def]
    · intro x hx
      simp only [List.map_map, List.mem_map, Function.comp_apply] at hx
      obtain ⟨i, hi, rfl⟩ := hx
      have hlt := hl i hi
      simp only [Num.toInt]
      rw [show pyIdx SCORE_PATTERN (Int.ofNat i) = .ok SCORE_PATTERN[i] from
        pyIdx_some _ _ _ (List.getElem?_eq_getElem hlt)]
      simp [pure, Except.pure, List.getElem?_eq_getElem hlt]
  · intro j i hj
    have hi : i ∈ l := List.mem_of_getElem? hj
    refine ⟨SCORE_PATTERN[i]'(hl i hi), List.getElem?_eq_getElem _, ?_⟩
    rw [List.getElem?_map, hj]
    simp [List.getElem?_eq_getElem (hl i hi)]

/-- **C51.** `is_self_win` without `is_win`: a self-drawn win of player 2 marks player 0 as well. -/
theorem C51_self_win_for_all : ∃ ctx t ctx' out, callTranslator true ctx t = .ok (ctx', out) ∧
    ctx'.vals.get (ofPlayer 0 "is_self_win") = .bool true ∧ ctx'.vals.get (ofPlayer 0 "is_win") = .bool false := by
  let t : TEvent := ⟨3, ⟨"AGARI".toList, [("who".toList, "2".toList), ("fromWho".toList, "2".toList),
    ("hai".toList, commaList [52, 53]), ("machi".toList, "53".toList), ("yaku".toList, commaList [0, 1]),
    ("sc".toList, commaList [250, -10, 250, -10, 250, 30, 250, -10])]⟩⟩
  have h : (callTranslator true sampleCtx t).map (fun r =>
      (r.1.vals.get (ofPlayer 0 "is_self_win"), r.1.vals.get (ofPlayer 0 "is_win"))) = .ok (.bool true, .bool false) := by
    decide +kernel
  cases hx : callTranslator true sampleCtx t with
  | ok r =>
    rw [hx] at h
    have := Except.ok.inj h
    simp only [Prod.mk.injEq] at this
    exact ⟨sampleCtx, t, r.1, r.2, hx, this⟩
  | error e => rw [hx] at h; cases h

/-- a reach and a tanyao of one han each -/
example : yakuOf sampleAgari.ev = .ok ["立直".toList, "立直".toList, "断幺九".toList, "立直".toList] := by decide +kernel

/-! ### C52 -/

/-- **C52.** For every program of calls, exceptions, `with cmd.when(...)` blocks and `try` blocks, run on a builder whose
    visible keywords are those of `stack`: the constructor is called with the keywords of lexical scoping (innermost
    block wins, call-site keywords win over all blocks), an exception comes out exactly when it does with lexical
    scoping, and afterwards, exception or not, the stack is what it was. -/
theorem C52_scoping {β : Type} (bad : (Str → Option β) → Bool) (stack : List (KwDict β)) (prog : List (BProg β))
    (hok : ProgsOk prog) :
    let visible : Str → Option β := fun k => (mergedDict stack).lookup k
    let r := runBs bad ⟨stack, [], false⟩ prog
    r.stack = stack ∧ r.raised = (scopedBs bad visible prog).2 ∧
      r.seen.map (fun d => fun k => d.lookup k) = (scopedBs bad visible prog).1 := by
  intro visible r
  obtain ⟨h1, h2, more, h3, h4⟩ := runBs_scoped bad stack [] prog hok
  refine ⟨h1, h2, ?_⟩
  show (runBs bad ⟨stack, [], false⟩ prog).seen.map _ = _
  rw [h3, List.nil_append]
  exact h4

/-- three nested blocks, one left by an exception -/
example :
    let k := "k".toList; let j := "j".toList
    let prog : List (BProg Nat) := [.block [(k, 1)] [.call [], .guard [.block [(k, 2), (j, 3)] [.call [(j, 4)], .raise]], .call [(j, 5)]],
      .call []]
    ProgsOk prog ∧ (runBs (fun _ => false) ⟨[], [], false⟩ prog).seen.map (fun d => (d.lookup k, d.lookup j)) =
      [(some 1, none), (some 2, some 4), (some 1, some 5), (none, none)] := by
  refine ⟨?_, by decide +kernel⟩
  simp only [ProgsOk, ProgOk, KwOk]
  decide +kernel

/-! ### C53 -/

/-- **C53.** After a deal and any moves, the converted `fixed_meld` list is the tile names of every meld of the player except
    kitas, in order; added kans, too, have an entry of their own. -/
theorem C53_fixed_melds (strict : Bool) (ctx ctx' : Ctx) (n : Nat) (hn : ctx.playerCount = .ok n) (p : Fin 4) (hp : p.val < n)
    (seed : List Int) (hands : Fin 4 → List Int) (more : List (Str × Str)) (ms : List Move) (hok : PlayOk ms)
    (ts : List TEvent) (hts : Records ts (.deal seed hands more :: ms)) (out : List Cmd)
    (h : translateAll strict ctx ts = .ok (ctx', out)) :
    ctx'.vals.get (ofPlayer p.val "fixed_meld") =
      .list (((meldsOf p ms).filter (fun m => decide (m.cls ≠ .kita))).map
        (fun m => strs ((m.selfTiles ++ m.borrowedTiles).map tileName))) :=
  melds_sim hn hp (fun m hm => (hok m hm).1) (fun m hm => (hok m hm).2.1) (fun m hm => (hok m hm).2.2) hts h

/-- **C53.** So its length is the number of melds `PlayerMeld` tracks, kitas left out, plus the number of added kans. -/
theorem C53_count (strict : Bool) (ctx ctx' : Ctx) (n : Nat) (hn : ctx.playerCount = .ok n) (p : Fin 4) (hp : p.val < n)
    (seed : List Int) (hands : Fin 4 → List Int) (more : List (Str × Str)) (ms : List Move)
    (hdl : seed ≠ []) (hok : PlayOk ms)
    (ts : List TEvent) (hts : Records ts (.deal seed hands more :: ms)) (out : List Cmd)
    (h : translateAll strict ctx ts = .ok (ctx', out)) (before : List Meld) :
    ∃ entries melds, ctx'.vals.get (ofPlayer p.val "fixed_meld") = .list entries ∧
      (GState.melds p before).passedEvents (ts.map TEvent.ev) = .ok (.melds p melds) ∧
      entries.length = (melds.filter (fun m => decide (m.cls ≠ .kita))).length +
        ((meldsOf p ms).filter (fun m => decide (m.cls = .addedKan))).length := by
  refine ⟨_, finalMelds (meldsOf p ms), C53_fixed_melds strict ctx ctx' n hn p hp seed hands more ms hok ts hts out h, ?_, ?_⟩
  · rw [show ts.map TEvent.ev = _ from hts]
    apply C34_melds
    · intro m hm
      rcases List.mem_cons.1 hm with rfl | hm
      · exact hdl
      · exact (hok m hm).1
    · exact fun m hm => (hok m hm).2.1
  · rw [List.length_map]
    exact entries_count _

/-- **C53.** The sample has one kan of player 1, made of a pon: `PlayerMeld` has one meld, the list two entries. -/
theorem C53_added_kan_twice : ∃ c o, translateAll true sampleCtx (sampleEvents (sampleDeal :: samplePlay)) = .ok (c, o) ∧
    c.vals.get (ofPlayer 1 "fixed_meld") =
      .list [strs ["6m".toList, "6m".toList, "6m".toList], strs ["6m".toList]] ∧
    (GState.melds 1 []).passedEvents ((sampleDeal :: samplePlay).map Move.event) =
      .ok (.melds 1 [⟨.kanFromTriplet, [20, 22, 23], [21], 0⟩]) := by
  obtain ⟨c, o, h⟩ := sample_translates
  refine ⟨c, o, h, ?_, ?_⟩
  rotate_left
  · have := C34_melds 1 [] _ _ _ samplePlay (fun m hm => by
      rcases List.mem_cons.1 hm with rfl | hm
      · exact sampleDeal_legal
      · exact (samplePlay_ok m hm).1) (fun m hm => (samplePlay_ok m hm).2.1)
    refine this.trans (congrArg (fun x => Except.ok (GState.melds 1 x)) ?_)
    decide +kernel
  have e := C53_fixed_melds true sampleCtx c 4 sampleCtx_count 1 (by decide) _ _ _ samplePlay samplePlay_ok _
    (sampleEvents_records _) o h
  rw [show ((1 : Fin 4).val) = 1 from rfl] at e
  rw [e]
  decide +kernel

end Verif.Props
