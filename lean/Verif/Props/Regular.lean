import Verif.Proofs.Regular4
import Verif.Proofs.NumberText
import Verif.Props.Replay
import Verif.Props.Strict

/-!
C103: every regular record can be converted, and every complete one can be built.
-/
namespace Verif.Props
open Verif.Py Verif.Model Verif.Spec Verif.Proofs

theorem translateAll_listAll (left : Ctx → TEvent → Ctx) (strict : Bool) {ts : List TEvent} : ∀ {ctx ctx' : Ctx} {cs : List Cmd},
    translateAll strict ctx ts = .ok (ctx', cs) → listAll left strict ctx ts = (ctx', .ok cs) := by
  induction ts with
  | nil =>
    intro ctx ctx' cs h
    simp only [translateAll, Except.ok.injEq, Prod.mk.injEq] at h
    rw [← h.1, ← h.2]; rfl
  | cons t ts ih =>
    intro ctx ctx' cs h
    simp only [translateAll, bind_ok, pure_ok, Prod.exists, Prod.mk.injEq] at h
    obtain ⟨c1, l1, h1, c2, l2, h2, rfl, rfl⟩ := h
    simp only [listAll, h1, ih h2]

/-- **C103.** A regular record is always converted: whatever rounds are played, with three or four players, whatever is drawn,
    discarded and called as long as players only give tiles they hold, and however rounds end.  It does not matter which record was
    converted before. -/
theorem C103_converts (left : Ctx → TEvent → Ctx) (ctx : Ctx) (events : List TEvent) (h : Regular (events.map TEvent.ev)) :
    ∃ cs, (toCommands left false ctx events).2 = .ok cs := by
  obtain ⟨c, cs, ht⟩ := regular_ok h
  exact ⟨cs, by unfold toCommands; rw [show ctx.clear = {} from rfl, translateAll_listAll left false ht]⟩

/-- **C103.** In strict mode a regular record is converted to the same commands unless an element says nothing; then, and only
    then, it is refused with `ValueError`. -/
theorem C103_strict (left : Ctx → TEvent → Ctx) (ctx : Ctx) (events : List TEvent) (h : Regular (events.map TEvent.ev)) :
    ((∀ t ∈ events, ¬ Silent t.ev) → ∃ cs, (toCommands left true ctx events).2 = .ok cs ∧ (toCommands left false ctx events).2 = .ok cs) ∧
    ((∃ t ∈ events, Silent t.ev) → (toCommands left true ctx events).2 = .error .valueError) := by
  obtain ⟨cs, hc⟩ := C103_converts left ctx events h
  refine ⟨fun hs => ⟨cs, ?_, hc⟩, ?_⟩
  · rw [C87_same left ctx events hs, hc]
  · rintro ⟨t, ht, hs⟩
    exact C87_refuses left ctx events cs hc t ht hs

/-- **C103.** The records of the commands are refused in strict mode in the same way, and otherwise are what they are without it. -/
theorem C103_strict_records (showVal : Val → Str) (left : Ctx → TEvent → Ctx) (ctx : Ctx) (events : List TEvent)
    (h : Regular (events.map TEvent.ev)) :
    ((∀ t ∈ events, ¬ Silent t.ev) → toCommandRecords showVal left true ctx events = toCommandRecords showVal left false ctx events) ∧
    ((∃ t ∈ events, Silent t.ev) → toCommandRecords showVal left true ctx events = .error .valueError) := by
  obtain ⟨h1, h2⟩ := C103_strict left ctx events h
  refine ⟨fun hs => ?_, fun hs => ?_⟩
  · obtain ⟨cs, a, b⟩ := h1 hs
    rw [toCommandRecords, toCommandRecords, a, b]
  · rw [toCommandRecords, h2 hs]
    rfl

theorem complete_regular {es : List Event} (h : Complete es) : Regular es := by
  obtain ⟨a, b, c, d, v, hp⟩ := h
  exact ⟨a, b, c, d, v, hp.parts⟩

/-- **C103.** A complete record is always built. -/
theorem C103_built (events : List Event) (h : Complete events) : ∃ r, TRecord.make events = .ok r := by
  obtain ⟨_, _, _, _, _, h⟩ := h
  obtain ⟨r, hr, _⟩ := complete_ok h
  exact ⟨r, hr⟩

/-- **C103.** From the text of a document with the elements of a complete record: the record is built and converted, `paifu-extract`
    writes a file, the file is read, and replaying it never fails and gives the states of the record, texts aside.  The one
    condition is that no text has a carriage return, which files with `\n` at the end of their lines cannot keep. -/
theorem C103_file (showVal : Val → Str) (nl : Str) (hnl : nl = "\n".toList ∨ nl = "\r\n".toList)
    (pandas : List (List Str) → List (List Cell)) (hp : PandasReads pandas) (left : Ctx → TEvent → Ctx) (ctx : Ctx)
    (t tag : Str) (attrib : List (Str × Str)) (kids : List Elem) (hdoc : DocText (.mk tag attrib kids) t)
    (hcomplete : Complete (kids.map (fun k => (⟨k.tag, k.attrib⟩ : Event)))) (hsize : kids.length < 2 ^ 63) :
    ∃ r cs, recordOfText t = some (.ok r) ∧ (toCommands left false ctx r.events).2 = .ok cs ∧
      ((∀ c ∈ cs, HasKind c.prop .text → '\r' ∈ nl ∨ ('\r' ∉ pyStrVal showVal c.value ∧ '\r' ∉ pyStrVal showVal c.state)) →
        ∃ text cs', convertFile showVal nl left ctx r.events = .ok text ∧ readCleanCsv pandas text = .ok cs' ∧
          (execute false cs).2 = none ∧ (execute false cs').2 = none ∧
          List.Forall₂ SameShown (execute false cs).1 (execute false cs').1) := by
  obtain ⟨r, hr⟩ := C103_built _ hcomplete
  obtain ⟨hev, hts, _⟩ := C37_record _ r hr
  obtain ⟨cs, hcs⟩ := C103_converts left ctx r.events (by
    rw [show r.events.map TEvent.ev = _ from hev]; exact complete_regular hcomplete)
  refine ⟨r, cs, by rw [(C99_record t).1 tag attrib kids hdoc, hr], hcs, fun hcr => ?_⟩
  obtain ⟨_, _, _, _, _, hparts⟩ := hcomplete
  have hparts := hparts.parts
  refine C102_replay showVal nl hnl pandas hp left ctx r.events ?_ ?_ cs hcs hcr
  · intro x hx
    refine hparts.seats _ ?_
    rw [← hev]; exact List.mem_map_of_mem hx
  · intro x hx
    have : x.timestamp ∈ r.events.map (·.timestamp) := List.mem_map_of_mem hx
    rw [hts, List.mem_range, List.length_map] at this
    omega

/-- **C103.** The condition that players only give tiles they hold is needed: a discard of a tile that is not in the hand
    is an error. -/
theorem C103_needs_tiles : ∃ e, (toCommands (fun c _ => c) false {} ([sampleGo] ++ sampleEvents [sampleDeal, .discard 0 20])).2 = .error e := by
  refine ⟨.valueError, ?_⟩
  decide +kernel

/-! ### An instance -/

theorem lists_of (ts : List Str) (h0 : ts ≠ []) (h : ∀ t ∈ ts, ',' ∉ t ∧ (parseNum t).toOption.isSome = true) (k : Nat)
    (hk : k ≤ ts.length) : ListsNumbers k (joinWith ',' ts) := by
  have : ∃ qs, List.Forall₂ NumberText ts qs := by
    clear h0 hk
    induction ts with
    | nil => exact ⟨[], .nil⟩
    | cons t ts ih =>
      obtain ⟨qs, hq⟩ := ih (fun x hx => h x (by simp [hx]))
      have ht := (h t (by simp)).2
      cases e : parseNum t with
      | error x => rw [e] at ht; cases ht
      | ok n => exact ⟨worth n :: qs, .cons ((parseNum_iff _ _).1 ⟨n, e, rfl⟩) hq⟩
  obtain ⟨qs, hq⟩ := this
  exact ⟨ts, qs, h0, fun t ht => (h t ht).1, hq, hk, rfl⟩

theorem replay_moves : ∀ m ∈ samplePlay, MoveAmong 4 m := by
  have pon : ∃ m, meldOf (1 : Fin 4).val (ponCode 3 5 3 1 0 0).toNat = .ok m ∧ (∀ t ∈ m.selfTiles, IsTile t) ∧ ∀ t ∈ m.borrowedTiles, IsTile t := by
    refine ⟨_, rfl, ?_, ?_⟩ <;> unfold IsTile <;> decide +kernel
  have kan : ∃ m, meldOf (1 : Fin 4).val (addedKanCode 3 5 3 1 0).toNat = .ok m ∧ (∀ t ∈ m.selfTiles, IsTile t) ∧ ∀ t ∈ m.borrowedTiles, IsTile t := by
    refine ⟨_, rfl, ?_, ?_⟩ <;> unfold IsTile <;> decide +kernel
  have reach1 : Aside 4 ⟨"REACH".toList, [("who".toList, "2".toList), ("step".toList, "1".toList)]⟩ :=
    .riichi _ rfl 2 (by decide) ⟨_, rfl, by decide +kernel⟩ _ rfl
  have reach2 : Aside 4 ⟨"REACH".toList, [("who".toList, "2".toList), ("ten".toList, commaList [250, 250, 250, 240]), ("step".toList, "2".toList)]⟩ :=
    .riichi _ rfl 2 (by decide) ⟨_, rfl, by decide +kernel⟩ _ rfl
  intro m hm
  simp only [samplePlay, List.mem_cons, List.not_mem_nil, or_false] at hm
  rcases hm with rfl | rfl | rfl | rfl | rfl | rfl | rfl | rfl | rfl | rfl | rfl | rfl | rfl | rfl | rfl
  case inr.inr.inr.inr.inr.inr.inr.inl => exact ⟨by decide, pon⟩
  case inr.inr.inr.inr.inr.inr.inr.inr.inr.inl => exact ⟨quiet_reach _, reach1⟩
  case inr.inr.inr.inr.inr.inr.inr.inr.inr.inr.inr.inr.inl => exact ⟨quiet_reach _, reach2⟩
  case inr.inr.inr.inr.inr.inr.inr.inr.inr.inr.inr.inr.inr.inr => exact ⟨by decide, kan⟩
  all_goals first | exact ⟨by decide, by decide⟩ | exact (show _ < 136 by decide)

theorem replay_round : Round 4 2 ((sampleDeal :: samplePlay).map Move.event ++ [replayEnd]) := by
  have hnd : ∀ p, (sampleHands p).Nodup := by decide +kernel
  have hT : ∀ p, ∀ t ∈ sampleHands p, IsTile t := by unfold IsTile; decide +kernel
  refine .mk [0, 0, 0, 2, 3, 132] sampleHands sampleMore samplePlay [replayEnd] 0 [0, 0, 2, 3] 132 rfl (by decide) (by decide)
    (by unfold IsTile; decide) 0 (by decide +kernel) _ rfl ?_ (fun p _ => ⟨sampleHands_dealt p, hnd p, hT p, sample_consistent p⟩)
    replay_moves ?_
  · exact lists_of ["250".toList, "250".toList, "260".toList, "240".toList] (by simp) (by decide +kernel) 4 (by decide)
  · intro e he
    rw [List.mem_singleton.1 he]
    refine .inl (.win _ rfl 2 0 (by decide) (by decide +kernel) (by decide +kernel) _ rfl ?_ [52, 60, 61, 62, 53] _ rfl
      ⟨by simp, by unfold IsTile; decide +kernel, rfl⟩ (fun _ => ⟨53, [], _, rfl, ⟨by simp, by unfold IsTile; decide +kernel, by decide +kernel⟩, by decide⟩)
      [1, 1, 8, 1] (by simp) (by decide) (.inl rfl) ?_)
    · exact lists_of (["250", "-26", "250", "0", "250", "36", "240", "0"].map String.toList) (by simp) (by decide +kernel) 8 (by decide)
    · intro s hs
      have : s = "224,-10.0,250,0.0,286,10.0,240,0.0".toList := by
        have h : replayEnd.attrib.lookup "owari".toList = some "224,-10.0,250,0.0,286,10.0,240,0.0".toList := by decide +kernel
        rw [h] at hs; exact (Option.some.inj hs).symm
      rw [this]
      exact lists_of (["224", "-10.0", "250", "0.0", "286", "10.0", "240", "0.0"].map String.toList) (by simp) (by decide +kernel) 8 (by decide)

/-- the game of C70 with its players and its final scores is a complete record -/
theorem replay_complete : Complete replayEvents := by
  have hseat : ∀ e ∈ replayEvents, Seated e := by
    have h : ∀ e ∈ replayEvents, seatedB e = true := by decide +kernel
    exact fun e he => seated_of_B (h e he)
  have rate : ∀ k, k ≤ 4 → ListsNumbers k "1500.00,1600.00,1700.00,1800.50".toList := fun k hk =>
    lists_of (["1500.00", "1600.00", "1700.00", "1800.50"].map String.toList) (by simp) (by decide +kernel) k hk
  refine ⟨[], sampleGo.ev, replayPre, [(sampleDeal :: samplePlay).map Move.event ++ [replayEnd]], 169, ⟨?_, hseat, by simp, ⟨rfl, by decide, by decide +kernel⟩, ?_, ?_⟩, ?_, ?_, ?_⟩
  · simp [replayEvents]
  · intro e he
    simp only [replayPre, List.mem_cons, List.not_mem_nil, or_false] at he
    rcases he with rfl | rfl
    · refine .harmless _ (.players _ rfl ?_ ?_ ?_)
      · intro s hs
        exact ⟨[10, 11, 12, 13], by decide, by decide, by rw [← Option.some.inj hs]; decide +kernel⟩
      · intro s hs
        rw [← Option.some.inj hs]
        exact rate 4 (by decide)
      · intro s hs
        rw [← Option.some.inj hs]
        decide +kernel
    · exact .start _ rfl 1 (by decide +kernel)
  · intro r hr
    rw [List.mem_singleton.1 hr]
    exact replay_round
  · refine ⟨[], _, [sampleTaikyoku.ev], rfl, by simp, rfl, ?_, ?_⟩
    · intro name hn
      simp only [List.mem_cons, List.not_mem_nil, or_false] at hn
      rcases hn with rfl | rfl | rfl | rfl | rfl <;> exact ⟨_, rfl⟩
    · intro name hn
      simp only [List.mem_cons, List.not_mem_nil, or_false] at hn
      rcases hn with rfl | rfl
      · exact ⟨_, rfl⟩
      · exact ⟨_, rfl⟩
  · intro r hr
    rw [List.mem_singleton.1 hr]
    exact ⟨replayEnd, by simp, .inl rfl⟩
  · refine ⟨sampleGo.ev :: replayPre ++ (sampleDeal :: samplePlay).map Move.event, replayEnd, "224,-10.0,250,0.0,286,10.0,240,0.0".toList, by simp [replayEvents], by decide +kernel, ?_⟩
    exact lists_of (["224", "-10.0", "250", "0.0", "286", "10.0", "240", "0.0"].map String.toList) (by simp) (by decide +kernel) 1 (by decide)

end Verif.Props
