import Verif.Proofs.Replay
import Verif.Spec.Replay
import Verif.Props.Open
import Verif.Props.Xml
import Verif.Props.Frame

/-!
C102: a record converted to a file of commands, and the file replayed.
-/
namespace Verif.Props
open Verif.Py Verif.Model Verif.Spec Verif.Proofs

/-- the commands of a record and the commands read from its file -/
theorem same_replay (showVal : Val → Str) (left : Ctx → TEvent → Ctx) (ctx : Ctx) (events : List TEvent)
    (hseat : ∀ t ∈ events, Seated t.ev) (cs : List Cmd) (h : (toCommands left false ctx events).2 = .ok cs) (cs' : List Cmd)
    (hr : List.Forall₂ (ReadAs showVal) cs cs') :
    (execute false cs).2 = none ∧ (execute false cs').2 = none ∧
    List.Forall₂ SameShown (execute false cs).1 (execute false cs').1 := by
  obtain ⟨t, hc⟩ := carried_all left false events hseat ctx.clear sound_nil cs h
  obtain ⟨a1, a2⟩ := carried_run hc
  obtain ⟨b1, b2, b3⟩ := replayed hr hc
  refine ⟨a1, b1, List.forall₂_iff_get.2 ⟨by rw [a2, b2], ?_⟩⟩
  intro k h1 h2
  have hk : k < cs.length := by rw [← a2]; exact h1
  have hy : (execute false cs).1[k]? = some ((execute false cs).1.get ⟨k, h1⟩) := by simp
  have hy' : (execute false cs').1[k]? = some ((execute false cs').1.get ⟨k, h2⟩) := by simp
  generalize (execute false cs).1.get ⟨k, h1⟩ = y at hy
  generalize (execute false cs').1.get ⟨k, h2⟩ = y' at hy'
  have hf := carried_fines hc
  obtain ⟨c, s, x1, x2, x3, x4, x5, x6⟩ := C43_states false cs (fun c hc => (hf c hc).addressed) k y hy
  obtain ⟨z1, u, z2, z3⟩ := b3 k y' c hy' x1
  rw [x2] at z2
  cases z2
  refine ⟨by rw [z1, x3], ?_, ?_⟩
  · intro v hv hs
    rw [(z3 v hv).1 hs]
    rcases hs with hs | hs
    · rw [hs, x4 v hs]
    · rw [hs, x5 v hs]
  · intro v p hv hs
    rw [(z3 v hv).2 p hs, x6 v p hs]

/-- **C102.** The file of every record that can be converted is read, and replaying the commands read never fails and gives after
    every command the state that executing the commands of the record gives there, texts aside. -/
theorem C102_replay (showVal : Val → Str) (nl : Str) (hnl : nl = "\n".toList ∨ nl = "\r\n".toList)
    (pandas : List (List Str) → List (List Cell)) (hp : PandasReads pandas) (left : Ctx → TEvent → Ctx) (ctx : Ctx)
    (events : List TEvent) (hseat : ∀ t ∈ events, Seated t.ev) (htime : ∀ t ∈ events, t.timestamp < 2 ^ 63)
    (cs : List Cmd) (h : (toCommands left false ctx events).2 = .ok cs)
    (hcr : ∀ c ∈ cs, HasKind c.prop .text → '\r' ∈ nl ∨ ('\r' ∉ pyStrVal showVal c.value ∧ '\r' ∉ pyStrVal showVal c.state)) :
    ∃ text cs', convertFile showVal nl left ctx events = .ok text ∧ readCleanCsv pandas text = .ok cs' ∧
      (execute false cs).2 = none ∧ (execute false cs').2 = none ∧
      List.Forall₂ SameShown (execute false cs).1 (execute false cs').1 := by
  obtain ⟨text, cs', f1, f2, f3⟩ := (C97_record showVal nl hnl pandas hp left ctx events hseat htime).2 cs h hcr
  exact ⟨text, cs', f1, f2, same_replay showVal left ctx events hseat cs h cs' f3⟩

theorem stamps_of {strict : Bool} {ts : List TEvent} : ∀ {ctx ctx' : Ctx} {out : List Cmd}, translateAll strict ctx ts = .ok (ctx', out) →
    ∀ c ∈ out, ∃ t ∈ ts, c.timestamp = some (t.timestamp : Int) := by
  induction ts with
  | nil =>
    intro ctx ctx' out h c hc
    simp only [translateAll, Except.ok.injEq, Prod.mk.injEq] at h
    rw [← h.2] at hc; cases hc
  | cons t ts ih =>
    intro ctx ctx' out h c hc
    simp only [translateAll, bind_ok, pure_ok, Prod.exists, Prod.mk.injEq] at h
    obtain ⟨c1, l1, h1, c2, l2, h2, rfl, rfl⟩ := h
    rcases List.mem_append.1 hc with hc | hc
    · exact ⟨t, by simp, (C88_phrase _ _ _ _ _ h1 c hc).1⟩
    · obtain ⟨x, hx, e⟩ := ih h2 c hc
      exact ⟨x, by simp [hx], e⟩

theorem lookup_of_get {s : IState} {k : Sub × View} {v : Val} (h : s.get k = v) (hv : v ≠ .none) : s.lookup k = some v := by
  unfold IState.get at h
  cases e : s.lookup k with
  | none => rw [e] at h; exact absurd h.symm hv
  | some x => rw [e] at h; rw [← h]; rfl

theorem no_text {name : String} {k : PropKind} (h : (Scope.player, name, k) ∈ kindTable) (hk : k ≠ .text) :
    ¬ HasKind (view .player name) .text := fun ht => hk (kind_unique ⟨_, _, h, rfl⟩ ht)

/-- **C102.** From the text of a record to the replayed file: take any document whose elements are, from some deal on, the moves
    `ms` of a game up to any point before its end, in a table for three or four as the last `GO` before says.  If the record can be
    built and converted, `paifu-extract` writes a file, the file is read, and replaying it never fails.  And the last state
    replayed with a time no later than the last of these moves shows for every player the tiles they hold, discarded and laid
    open, and their points. -/
theorem C102_table (showVal : Val → Str) (nl : Str) (hnl : nl = "\n".toList ∨ nl = "\r\n".toList)
    (pandas : List (List Str) → List (List Cell)) (hp : PandasReads pandas) (left : Ctx → TEvent → Ctx) (ctx : Ctx)
    (t tag : Str) (attrib : List (Str × Str)) (kids : List Elem) (hdoc : DocText (.mk tag attrib kids) t)
    (before pre : List Event) (go : Event) (seed : List Int) (hands : Fin 4 → List Int) (more : List (Str × Str)) (ms : List Move) (post : List Event)
    (hkids : kids.map (fun k => (⟨k.tag, k.attrib⟩ : Event)) = before ++ go :: pre ++ (Move.deal seed hands more :: ms).map Move.event ++ post)
    (hseat : ∀ k ∈ kids, Seated ⟨k.tag, k.attrib⟩) (hsize : kids.length < 2 ^ 63)
    (hgo : go.tag = "GO".toList) (v : Nat) (hv : v ≤ 65535) (htype : go.get "type".toList = .ok (natDigits v))
    (hpre : ∀ e ∈ pre, e.tag ≠ "GO".toList) (hdl : seed ≠ []) (hok : PlayOk ms) (hend : NoEnd ms) (hreach : ReachesOk ms)
    (ten : List Int) (hten : more.lookup "ten".toList = some (commaList ten))
    (hfair : ∀ p : Fin 4, p.val < (if bitSet v 4 then 3 else 4) → hands p ≠ [] ∧ (hands p).Nodup ∧ (∀ x ∈ hands p, IsTile x) ∧ Consistent p (.deal seed hands more :: ms))
    (r : TRecord) (hrec : recordOfText t = some (.ok r)) (cs : List Cmd) (hcs : (toCommands left false ctx r.events).2 = .ok cs)
    (hcr : ∀ c ∈ cs, HasKind c.prop .text → '\r' ∈ nl ∨ ('\r' ∉ pyStrVal showVal c.value ∧ '\r' ∉ pyStrVal showVal c.state)) :
    ∃ text cs', convertFile showVal nl left ctx r.events = .ok text ∧ readCleanCsv pandas text = .ok cs' ∧ (execute false cs').2 = none ∧
    ∃ (k : Nat) (y : TD), (execute false cs').1[k]? = some y ∧
      (∀ (j : Nat) y', (execute false cs').1[j]? = some y' → ∃ time : Int, StampedWith y' time ∧ (j ≤ k ↔ time ≤ (before.length + 1 + pre.length + ms.length : Nat))) ∧
      ∀ (p : Fin 4) x, p.val < (if bitSet v 4 then 3 else 4) → ten[p.val]? = some x →
        ShowsTable y p (.deal seed hands more) ms x := by
  rw [(C99_record t).1 tag attrib kids hdoc, Option.some.injEq] at hrec
  obtain ⟨hev, hts, _⟩ := C37_record _ r hrec
  have hseat' : ∀ x ∈ r.events, Seated x.ev := by
    intro x hx
    have : x.ev ∈ r.events.map (·.ev) := List.mem_map_of_mem hx
    rw [hev] at this
    obtain ⟨k, hk, e⟩ := List.mem_map.1 this
    rw [← e]; exact hseat k hk
  have htime : ∀ x ∈ r.events, x.timestamp < 2 ^ 63 := by
    intro x hx
    have : x.timestamp ∈ r.events.map (·.timestamp) := List.mem_map_of_mem hx
    rw [hts, List.mem_range, List.length_map] at this
    omega
  obtain ⟨text, cs', f1, f2, f3⟩ := (C97_record showVal nl hnl pandas hp left ctx r.events hseat' htime).2 cs hcs hcr
  refine ⟨text, cs', f1, f2, ?_⟩
  obtain ⟨t', hc⟩ := carried_all left false r.events hseat' ctx.clear sound_nil cs hcs
  obtain ⟨b1, b2, b3⟩ := replayed f3 hc
  refine ⟨b1, ?_⟩
  obtain ⟨cx, htr⟩ := listAll_translateAll left false (ctx := ctx.clear) hcs
  -- the events, cut in four
  rw [hkids] at hev hts
  obtain ⟨e123, e4, hsplit, m123, m4⟩ := List.map_eq_append_iff.1 hev
  obtain ⟨e12, e3, hsplit', m12, m3⟩ := List.map_eq_append_iff.1 m123
  obtain ⟨e1, e2, hsplit'', m1, m2⟩ := List.map_eq_append_iff.1 m12
  obtain ⟨g, e2', rfl, mg, m2'⟩ := List.map_eq_cons_iff.1 m2
  rw [hsplit] at htr
  obtain ⟨c4, oA, oB, hA, hB, rfl⟩ := translateAll_append.1 htr
  rw [hsplit'] at hA
  obtain ⟨c3, o12, o3, h12, h3, rfl⟩ := translateAll_append.1 hA
  rw [hsplit''] at h12
  obtain ⟨c1, o1, o2, h1, h2, rfl⟩ := translateAll_append.1 h12
  obtain ⟨hn, _⟩ := go_context (go := g) (pre := e2') h2 (by rw [mg]; exact hgo) hv (by rw [mg]; exact htype) (by
    intro x hx
    exact hpre _ (by rw [← m2']; exact List.mem_map_of_mem (f := TEvent.ev) hx))
  have hrecs : Records e3 (.deal seed hands more :: ms) := m3
  have hl123 : e123.length = before.length + 1 + pre.length + ms.length + 1 := by
    have q1 := congrArg List.length m1
    have q2 := congrArg List.length m2'
    have q3 := congrArg List.length m3
    simp only [List.length_map, List.length_cons] at q1 q2 q3
    rw [hsplit', hsplit'']
    simp only [List.length_append, List.length_cons]
    omega
  -- times
  have hlen0 := congrArg List.length hev
  rw [List.length_map, hsplit, List.length_append] at hlen0
  rw [← hlen0] at hts
  have timeA : ∀ x ∈ e123, x.timestamp ≤ before.length + 1 + pre.length + ms.length := by
    intro x hx
    obtain ⟨i, hi, rfl⟩ := List.getElem_of_mem hx
    have := congrArg (fun l => l[i]?) hts
    simp only [hsplit, List.map_append] at this
    rw [List.getElem?_append_left (by simpa using hi), List.getElem?_map, List.getElem?_eq_getElem hi, List.getElem?_range (by omega)] at this
    simp only [Option.map_some, Option.some.injEq] at this
    omega
  have timeB : ∀ x ∈ e4, before.length + 1 + pre.length + ms.length < x.timestamp := by
    intro x hx
    obtain ⟨i, hi, rfl⟩ := List.getElem_of_mem hx
    have := congrArg (fun l => l[e123.length + i]?) hts
    simp only [hsplit, List.map_append] at this
    rw [List.getElem?_append_right (by simp), List.length_map, Nat.add_sub_cancel_left, List.getElem?_map, List.getElem?_eq_getElem hi, List.getElem?_range (by omega)] at this
    simp only [Option.map_some, Option.some.injEq] at this
    omega
  have sA := stamps_of hA
  have sB := stamps_of hB
  have hlegal : ∀ m ∈ Move.deal seed hands more :: ms, LegalMove m := by
    intro m hm; rcases List.mem_cons.1 hm with rfl | hm
    · exact hdl
    · exact (hok m hm).1
  have sim : ∀ p : Fin 4, p.val < (if bitSet v 4 then 3 else 4) → _ := fun p hp => hands_sim (p := p) [] hn hp (hfair p hp).2.1 (hfair p hp).2.2.1
    (legalFor_deal hdl (hfair p hp).1 (fun m hm => (hok m hm).1) (fun m hm => (hok m hm).2.1))
    (fun m hm => (hok m hm).2.1) (fun m hm => (hok m hm).2.2) (fun e he => (hend e he).1) (hfair p hp).2.2.2 hrecs h3
  have hne : 0 < ((o1 ++ o2) ++ o3).length := by
    obtain ⟨_, _, _, q⟩ := sim 0 (by split <;> decide)
    cases o3 with
    | nil => exact absurd rfl q
    | cons a l => simp
  have iA : interpretAll [] ((o1 ++ o2) ++ o3) = .ok c4.vals := translateAll_interprets hA
  generalize (o1 ++ o2) ++ o3 = oA at *
  have hlen : (execute false cs').1.length = oA.length + oB.length := by rw [b2, List.length_append]
  have hk : oA.length - 1 < (execute false cs').1.length := by omega
  refine ⟨oA.length - 1, (execute false cs').1[oA.length - 1], List.getElem?_eq_getElem hk, ?_, ?_⟩
  · intro j y' hj
    have hj' : j < oA.length + oB.length := by rw [← hlen]; exact (List.getElem?_eq_some_iff.1 hj).1
    have hcj : (oA ++ oB)[j]? = some ((oA ++ oB)[j]'(by simpa using hj')) := List.getElem?_eq_getElem _
    obtain ⟨z1, _⟩ := b3 j y' _ hj hcj
    by_cases hlt : j < oA.length
    · rw [List.getElem_append_left hlt] at z1
      obtain ⟨x, hx, e⟩ := sA _ (List.getElem_mem hlt)
      rw [e] at z1
      have := timeA x (by rw [hsplit']; exact hx)
      exact ⟨x.timestamp, z1, by omega⟩
    · rw [List.getElem_append_right (by omega)] at z1
      obtain ⟨x, hx, e⟩ := sB _ (List.getElem_mem (show j - oA.length < oB.length by omega))
      rw [e] at z1
      have := timeB x hx
      exact ⟨x.timestamp, z1, by omega⟩
  · intro p x hpn hx
    have hcj : (oA ++ oB)[oA.length - 1]? = some ((oA ++ oB)[oA.length - 1]'(by rw [List.length_append]; omega)) := List.getElem?_eq_getElem _
    obtain ⟨_, u, z2, z3⟩ := b3 _ _ _ (List.getElem?_eq_getElem hk) hcj
    rw [Nat.sub_add_cancel hne, List.take_left, iA] at z2
    cases z2
    have shows : ∀ name kd w, (Scope.player, name, kd) ∈ kindTable → kd ≠ .text → w ≠ Val.none → c4.vals.get (ofPlayer p.val name) = w →
        ShowsOf (execute false cs').1[oA.length - 1] p name w := by
      intro name kd w hm hkd hw hg
      unfold ShowsOf
      rw [(z3 (view .player name) (no_text hm hkd)).2 p rfl]
      rw [show ((Sub.num (p.val : Int), view .player name) : Sub × View) = ofPlayer p.val name from rfl, lookup_of_get hg hw]
      rfl
    obtain ⟨held, q1, ⟨_, _, names, q2, q3⟩, _⟩ := sim p hpn
    obtain ⟨l', w1, w2, w3⟩ := C32_after_deal p [] List.nodup_nil seed hands more ms
      (legalFor_deal hdl (hfair p hpn).1 (fun m hm => (hok m hm).1) (fun m hm => (hok m hm).2.1))
    rw [passedEvents_eq, q1] at w1
    cases w1
    obtain ⟨d1, d2, d3⟩ := C49_discards false _ _ _ hn p hpn seed hands more ms hok e3 hrecs _ h3
    obtain ⟨l1, _⟩ := C90_open false _ _ _ hn p hpn seed hands more ms hok e3 hrecs _ h3
    have sc := scores_sim hn hpn hten hx (fun m hm => (hok m hm).1) (fun m hm => (hok m hm).2.1) (fun m hm => (hok m hm).2.2) hend hreach hrecs h3
    refine ⟨⟨held, names, w2, w3, q3, ?_⟩, ?_, ?_, ?_⟩
    · exact shows "hand" .tiles _ (by decide +kernel) (by decide) (by simp [strs]) q2
    · exact shows "discard_tiles" .tiles _ (by decide +kernel) (by decide) (by simp [strs]) d2
    · exact shows "meld_public_tiles" .tiles _ (by decide +kernel) (by decide) (by simp [strs]) l1
    · exact shows "score" .score _ (by decide +kernel) (by decide) (by simp) sc

/-! ### An instance: the game of C70 as the text of a record -/

def replayEnd : Event := ⟨"AGARI".toList, sampleAgari.ev.attrib ++ [("owari".toList, "224,-10.0,250,0.0,286,10.0,240,0.0".toList)]⟩

def replayPre : List Event :=
  [⟨"UN".toList, [("n0".toList, "a".toList), ("n1".toList, "%62".toList), ("n2".toList, "c".toList), ("n3".toList, "d".toList),
      ("dan".toList, "10,11,12,13".toList), ("rate".toList, "1500.00,1600.00,1700.00,1800.50".toList), ("sx".toList, "M,F,M,F".toList)]⟩,
   sampleTaikyoku.ev]

def replayEvents : List Event := [] ++ sampleGo.ev :: replayPre ++ (sampleDeal :: samplePlay).map Move.event ++ [replayEnd]

def writableB (e : Event) : Bool :=
  let named (n : Str) : Bool := match n with | c :: t => nameStart c && t.all nameChar | [] => false
  named e.tag && decide (e.attrib.map Prod.fst).Nodup && e.attrib.all (fun a => named a.1 && a.2.all (fun c => xmlChar c.toNat))

theorem writable_of_B {l : List Event} (h : ∀ e ∈ l, writableB e = true) : Writable l := by
  have nm : ∀ n : Str, (match n with | c :: t => nameStart c && t.all nameChar | [] => false) = true → IsName n := by
    intro n hn
    cases n with
    | nil => cases hn
    | cons c t =>
      simp only [Bool.and_eq_true] at hn
      exact isName_iff.2 ⟨c, t, rfl, hn.1, hn.2⟩
  intro e he
  have := h e he
  simp only [writableB, Bool.and_eq_true, decide_eq_true_eq, List.all_eq_true] at this
  refine ⟨nm _ this.1.1, this.1.2, ?_⟩
  intro a ha
  exact ⟨nm _ (this.2 a ha).1, fun c hc => (docChar_iff _).1 ((this.2 a ha).2 c hc)⟩

def replayCheck (r : TRecord) : Bool :=
  match (toCommands (fun c _ => c) false {} r.events).2 with
  | .ok cs => decide (cs.length = 144) && cs.all (fun c =>
        !(pyStrVal (fun _ => []) c.value).contains '\r' && !(pyStrVal (fun _ => []) c.state).contains '\r')
  | .error _ => false

set_option maxRecDepth 100000 in
theorem replay_make : ∃ r, TRecord.make replayEvents = .ok r ∧ replayCheck r = true := by
  have h : (TRecord.make replayEvents).toOption.any replayCheck = true := by decide +kernel
  generalize TRecord.make replayEvents = x at h ⊢
  cases x with
  | error => cases h
  | ok r => exact ⟨r, rfl, h⟩

/-- the text of this record is a document, is converted to a file, and the file is replayed: the last state before the win, which
    is element 19, shows the four hands -/
example : ∃ (r : TRecord) (text : Str) (cs' : List Cmd) (k : Nat) (y : TD),
    recordOfText (siteText "mjloggm".toList replayEvents) = some (.ok r) ∧
    convertFile (fun _ => []) "\n".toList (fun c _ => c) {} r.events = .ok text ∧ readCleanCsv simplePandas text = .ok cs' ∧
    (execute false cs').2 = none ∧ (execute false cs').1[k]? = some y ∧
    (∀ (j : Nat) y', (execute false cs').1[j]? = some y' → ∃ time : Int, StampedWith y' time ∧ (j ≤ k ↔ time < 19)) ∧
    ∀ (p : Fin 4) x, [250, 250, 260, 240][p.val]? = some x → ShowsTable y p sampleDeal samplePlay x := by
  obtain ⟨r, hr, hc⟩ := replay_make
  have hw : Writable replayEvents := writable_of_B (by decide +kernel)
  have hname : IsName "mjloggm".toList := isName_iff.2 ⟨_, _, rfl, by decide, by decide⟩
  have hdoc := site_document "mjloggm".toList hname replayEvents hw
  have hrec : recordOfText (siteText "mjloggm".toList replayEvents) = some (.ok r) := by
    rw [← hr]
    exact C99_written "mjloggm".toList hname replayEvents hw
  have hkids : (replayEvents.map (fun e => Elem.mk e.tag e.attrib [])).map (fun k => (⟨k.tag, k.attrib⟩ : Event)) = replayEvents := by
    rw [List.map_map]
    exact List.map_id _
  have hnd : ∀ p, (sampleHands p).Nodup := by decide +kernel
  have hT : ∀ p, ∀ t ∈ sampleHands p, IsTile t := by unfold IsTile; decide +kernel
  have hend : NoEnd samplePlay := by
    intro e he
    simp [samplePlay] at he
    rcases he with rfl | rfl <;> decide +kernel
  have hreach : ReachesOk samplePlay := by
    intro e he _
    simp [samplePlay] at he
    rcases he with rfl | rfl
    · exact ⟨2, 1, by decide +kernel, by decide +kernel⟩
    · exact ⟨2, 2, by decide +kernel, by decide +kernel⟩
  have hseat : ∀ e ∈ replayEvents, Seated e := by
    have h : ∀ e ∈ replayEvents, seatedB e = true := by decide +kernel
    exact fun e he => seated_of_B (h e he)
  have hpre : ∀ e ∈ replayPre, e.tag ≠ "GO".toList := by decide +kernel
  have h4 : (if bitSet (169 : Nat) 4 then 3 else 4) = 4 := by decide
  unfold replayCheck at hc
  cases hcs : (toCommands (fun c _ => c) false {} r.events).2 with
  | error x => rw [hcs] at hc; cases hc
  | ok cs =>
    rw [hcs] at hc
    simp only [Bool.and_eq_true, decide_eq_true_eq, List.all_eq_true] at hc
    obtain ⟨text, cs', a1, a2, a3, k, y, a4, a5, a6⟩ := C102_table (fun _ => []) "\n".toList (Or.inl rfl) simplePandas simple_reads (fun c _ => c) {}
      _ _ _ _ hdoc [] replayPre sampleGo.ev [0, 0, 0, 2, 3, 132] sampleHands sampleMore samplePlay [replayEnd] hkids
      (by
        intro k hk
        obtain ⟨e, he, rfl⟩ := List.mem_map.1 hk
        exact hseat e he)
      (by rw [List.length_map]; decide) rfl 169 (by decide) (by decide +kernel) hpre sampleDeal_legal samplePlay_ok hend hreach
      [250, 250, 260, 240] rfl (fun p _ => ⟨sampleHands_dealt p, hnd p, hT p, sample_consistent p⟩) r hrec cs hcs
      (fun c h _ => Or.inr (by simpa using hc.2 c h))
    refine ⟨r, text, cs', k, y, hrec, a1, a2, a3, a4, ?_, ?_⟩
    · intro j y' hj
      obtain ⟨time, t1, t2⟩ := a5 j y' hj
      refine ⟨time, t1, ?_⟩
      rw [t2]
      show time ≤ ((0 + 1 + 2 + 15 : Nat) : Int) ↔ _
      omega
    · intro p x hx
      exact a6 p x (by rw [h4]; exact p.isLt) hx

end Verif.Props
