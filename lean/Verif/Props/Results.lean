import Verif.Props.Header

/-!
C85: results of rounds and of the record in the converted state.
-/
namespace Verif.Props
open Verif.Py Verif.Model Verif.Spec Verif.Proofs

/-- the shape of the commands of a game's end -/
theorem end_shape {strict : Bool} {ctx ctx' : Ctx} {t : TEvent} {out : List Cmd}
    (h : callTranslator strict ctx t = .ok (ctx', out)) (ht : t.ev.tag = "AGARI".toList ∨ t.ev.tag = "RYUUKYOKU".toList) :
    ∃ win sc yaku first rest ctx1, gameFinish ctx win sc yaku t.ev = .ok rest ∧ generate ctx t.ev = .ok (ctx1, first ++ rest) ∧
      (∀ p a, a ∈ propertyNames .player → a ≠ "hand" → about (ofPlayer p a) first = []) := by
  obtain ⟨ctx1, l, hg, _, _⟩ := call_inv h
  rcases ht with ht | ht
  · have hc := gen_handler hg (name := "AGARI") (f := agariCommand) (by simp [nameMatch]) ht
    obtain ⟨whoT, who, fromT, from_, scT, sc, yaku, expected, rest, h1, h2, h3, h4, h5, h6, h7, h8, rfl, rfl⟩ := agari_inv hc
    refine ⟨_, _, _, _, rest, _, h8, hg, ?_⟩
    intro p a ha hne
    rw [about_pcmd_ne pn_hand ha (fun e => hne e.symm), about_gcmd, about_nil]
  · have hc := gen_handler hg (name := "RYUUKYOKU") (f := ryuukyokuCommand) (by simp [nameMatch]) ht
    simp only [ryuukyokuCommand, bind_ok, pure_ok, Prod.mk.injEq] at hc
    obtain ⟨reason, h1, sc, h2, rest, h3, rfl, rfl⟩ := hc
    refine ⟨_, _, _, _, rest, _, h3, hg, ?_⟩
    intro p a _ _
    rw [about_gcmd, about_gcmd, about_nil]

theorem finishRecord_sub {finals : List Num} {n : Nat} (q : Nat) (l : List Cmd) (h : finishRecord finals n q = .ok l) :
    ∀ x ∈ l, x.sub = .num (q : Int) := by
  simp only [finishRecord, bind_ok, pure_ok] at h
  obtain ⟨_, _, _, _, _, _, rfl⟩ := h
  simp [pcmd]

/-- what the end of a game says about the end of the record -/
theorem about_final {ctx : Ctx} {win : Option (Int × Int)} {sc : Option (List Num)} {yaku : List Str} {e : Event}
    {rest : List Cmd} (h : gameFinish ctx win sc yaku e = .ok rest) (p : Nat) {b : String}
    (hb : b ∈ ["final_score", "final_point", "rank"]) :
    (e.attrib.lookup "owari".toList = none → about (ofPlayer p b) rest = []) ∧
    (∀ o finals n, e.attrib.lookup "owari".toList = some o → numberList o = .ok finals → ctx.playerCount = .ok n → p < n →
      ∃ m, finishRecord finals n p = .ok m ∧ about (ofPlayer p b) rest = about (ofPlayer p b) m) := by
  simp only [gameFinish, bind_ok, pure_ok] at h
  obtain ⟨n', hn', parts, hparts, ends, hends, rfl⟩ := h
  have hparts0 : about (ofPlayer p b) parts.flatten = [] := by
    have hw : Within ((["score", "is_win", "is_self_win", "is_discard_lose_game", "faans"] : List String).map
        (fun a => (Scope.player, a))) parts.flatten := by
      refine within_flatten (fun part hp => ?_)
      obtain ⟨q, _, e1⟩ := mapM_inv _ hparts part hp
      simp only [bind_ok, pure_ok] at e1
      obtain ⟨s, hs, rfl⟩ := e1
      refine within_append.2 ⟨?_, ?_⟩
      · unfold finishScores at hs
        split at hs
        · cases hs; exact within_nil _
        · simp only [bind_ok, pure_ok] at hs
          obtain ⟨_, _, _, _, rfl⟩ := hs
          exact within_cons.2 ⟨within_pcmd (by simp) _ _ _ _, within_cons.2 ⟨within_pcmd (by simp) _ _ _ _, within_nil _⟩⟩
      · exact within_cons.2 ⟨within_pcmd (by simp) _ _ _ _, within_cons.2 ⟨within_pcmd (by simp) _ _ _ _,
          within_cons.2 ⟨within_pcmd (by simp) _ _ _ _, within_cons.2 ⟨within_pcmd (by simp) _ _ _ _, within_nil _⟩⟩⟩⟩
    refine about_within hw (by decide +kernel) ?_ ?_ _
    · revert b; decide +kernel
    · revert b; decide +kernel
  rw [about_append, hparts0, List.nil_append]
  unfold finishEnds at hends
  refine ⟨?_, ?_⟩
  · intro hno
    rw [hno] at hends
    cases hends
    rfl
  · intro o finals n ho hf hn hp
    rw [hn] at hn'
    cases hn'
    rw [ho] at hends
    simp only [hf, bind, Except.bind] at hends
    exact (mapM_about finishRecord_sub p b List.nodup_range hends).2 (List.mem_range.2 hp)

/-- **C85.** The end of the last round of a record (a win or a drawn round with `owari`) gives every player their final
    score (a hundred times what is listed), their final points and their place. -/
theorem C85_final (strict : Bool) (ctx ctx' : Ctx) (t : TEvent) (out : List Cmd)
    (h : callTranslator strict ctx t = .ok (ctx', out)) (ht : t.ev.tag = "AGARI".toList ∨ t.ev.tag = "RYUUKYOKU".toList)
    (o : Str) (finals : List Num) (ho : t.ev.attrib.lookup "owari".toList = some o) (hf : numberList o = .ok finals)
    (n p : Nat) (hn : ctx.playerCount = .ok n) (hp : p < n) (hlen : 2 * n ≤ finals.length) (s : Int) (q : Num)
    (hs : finals[2 * p]? = some (.int s)) (hq : finals[2 * p + 1]? = some q) :
    ctx'.vals.get (ofPlayer p "final_score") = .num (.int (100 * s)) ∧
    ctx'.vals.get (ofPlayer p "final_point") = .num q ∧
    ∃ scores : List Num, (∀ i, scores[i]? = finals[2 * i]?) ∧
      ctx'.vals.get (ofPlayer p "rank") = .num (.int (place scores n p)) := by
  obtain ⟨win, sc, yaku, first, rest, ctx1, hgf, hg, hfirst⟩ := end_shape h ht
  obtain ⟨scores, hsc, hrank⟩ := C38_rank finals n p hlen hp
  have key : ∀ b ∈ ["final_score", "final_point", "rank"], ∃ m, finishRecord finals n p = .ok m ∧
      applyAll (ctx1.vals.get (ofPlayer p b)) (about (ofPlayer p b) m) = .ok (ctx'.vals.get (ofPlayer p b)) := by
    intro b hb
    obtain ⟨m, hm, e⟩ := (about_final hgf p hb).2 o finals n ho hf hn hp
    have hpn : b ∈ propertyNames .player := by clear e; revert b; decide +kernel
    have hnh : b ≠ "hand" := by clear e hpn; revert b; decide
    have := call_get h hg (ofPlayer p b)
    rw [about_append, hfirst p b hpn hnh, List.nil_append, e] at this
    exact ⟨m, hm, this⟩
  have shape : ∀ m, finishRecord finals n p = .ok m →
      m = [pcmd .recordFinish p "final_score" .replace (.num (.int (100 * s))),
        pcmd .recordFinish p "final_point" .replace (.num q),
        pcmd .recordFinish p "rank" .replace (.num (.int (place scores n p : Nat)))] := by
    intro m hm
    simp only [finishRecord, bind_ok, pure_ok] at hm
    obtain ⟨a, ha, b, hb, r, hr, rfl⟩ := hm
    have ha := pyIdx_nonneg ha (by omega)
    have hb := pyIdx_nonneg hb (by omega)
    simp only [Int.toNat_natCast] at ha hb
    rw [(C38_converter_entries finals p).1, hs] at ha
    rw [(C38_converter_entries finals p).2, hq] at hb
    rw [hrank] at hr
    cases hr
    cases hb
    simp only [Option.map_some, Option.some.injEq] at ha
    subst ha
    simp [Num.mul100, Int.mul_comm]
  have p1 : "final_score" ∈ propertyNames .player := by decide +kernel
  have p2 : "final_point" ∈ propertyNames .player := by decide +kernel
  have p3 : "rank" ∈ propertyNames .player := by decide +kernel
  refine ⟨?_, ?_, scores, hsc, ?_⟩
  · obtain ⟨m, hm, e⟩ := key "final_score" (by decide)
    rw [shape m hm, about_pcmd_self, about_pcmd_ne p2 p1 (by decide), about_pcmd_ne p3 p1 (by decide), about_nil, apply_one,
      new_replace] at e
    exact (Except.ok.inj e).symm
  · obtain ⟨m, hm, e⟩ := key "final_point" (by decide)
    rw [shape m hm, about_pcmd_ne p1 p2 (by decide), about_pcmd_self, about_pcmd_ne p3 p2 (by decide), about_nil, apply_one,
      new_replace] at e
    exact (Except.ok.inj e).symm
  · obtain ⟨m, hm, e⟩ := key "rank" (by decide)
    rw [shape m hm, about_pcmd_ne p1 p3 (by decide), about_pcmd_ne p2 p3 (by decide), about_pcmd_self, about_nil, apply_one,
      new_replace] at e
    exact (Except.ok.inj e).symm

/-- **C85.** Nothing else sets final results: any event without `owari`, or other than a win or a drawn round, leaves them. -/
theorem C85_before_end (strict : Bool) (ctx ctx' : Ctx) (t : TEvent) (out : List Cmd)
    (h : callTranslator strict ctx t = .ok (ctx', out))
    (hno : t.ev.attrib.lookup "owari".toList = none ∨ t.ev.tag ≠ "AGARI".toList ∧ t.ev.tag ≠ "RYUUKYOKU".toList)
    (p : Nat) (b : String) (hb : b ∈ ["final_score", "final_point", "rank"]) :
    ctx'.vals.get (ofPlayer p b) = ctx.vals.get (ofPlayer p b) := by
  have hpn : b ∈ propertyNames .player := by revert b; decide +kernel
  by_cases ht : t.ev.tag = "AGARI".toList ∨ t.ev.tag = "RYUUKYOKU".toList
  · have hno : t.ev.attrib.lookup "owari".toList = none := by
      rcases hno with h | h
      · exact h
      · exact (ht.elim h.1 h.2).elim
    obtain ⟨win, sc, yaku, first, rest, ctx1, hgf, hg, hfirst⟩ := end_shape h ht
    have hnh : b ≠ "hand" := by clear hpn; revert b; decide
    have := call_get h hg (ofPlayer p b)
    rw [about_append, hfirst p b hpn hnh, List.nil_append, (about_final hgf p hb).1 hno, gen_vals hg] at this
    simp only [applyAll, Except.ok.injEq] at this
    exact this.symm
  · refine (C81_only strict ctx ctx' t out h).1 .player b hpn ?_ _
    refine not_mayChange ["AGARI", "RYUUKYOKU"] ?_ ?_ ?_
    · revert b; decide +kernel
    · revert b; decide
    · simp only [List.mem_cons, List.not_mem_nil, or_false, forall_eq_or_imp, forall_eq]
      exact not_or.1 ht

theorem finish_game {ctx : Ctx} {win : Option (Int × Int)} {sc : Option (List Num)} {yaku : List Str} {e : Event}
    {rest : List Cmd} (h : gameFinish ctx win sc yaku e = .ok rest) {a : String} (ha : a ∈ propertyNames .game) :
    about (ofGame a) rest = [] := by
  have hw : Within ((["score", "is_win", "is_self_win", "is_discard_lose_game", "faans", "final_score", "final_point",
      "rank"] : List String).map (fun a => (Scope.player, a))) rest := gameFinish_within (by decide) h
  exact about_within hw (by decide +kernel) ha (by simp) .all

/-- **C85.** Whether nobody won the round: false after a win, true after a drawn round. -/
theorem C85_nobody (strict : Bool) (ctx ctx' : Ctx) (t : TEvent) (out : List Cmd)
    (h : callTranslator strict ctx t = .ok (ctx', out)) :
    (t.ev.tag = "AGARI".toList → ctx'.vals.get (ofGame "nobody_win") = .bool false) ∧
    (t.ev.tag = "RYUUKYOKU".toList → ctx'.vals.get (ofGame "nobody_win") = .bool true) := by
  obtain ⟨ctx1, l, hg, _, _⟩ := call_inv h
  refine ⟨?_, ?_⟩
  · intro ht
    have hc := gen_handler hg (name := "AGARI") (f := agariCommand) (by simp [nameMatch]) ht
    obtain ⟨whoT, who, fromT, from_, scT, sc, yaku, expected, rest, h1, h2, h3, h4, h5, h6, h7, h8, rfl, rfl⟩ := agari_inv hc
    exact call_set (a := [_]) h hg rfl (finish_game h8 (by decide +kernel)) (.inl rfl)
  · intro ht
    have hc := gen_handler hg (name := "RYUUKYOKU") (f := ryuukyokuCommand) (by simp [nameMatch]) ht
    simp only [ryuukyokuCommand, bind_ok, pure_ok, Prod.mk.injEq] at hc
    obtain ⟨reason, h1, sc, h2, rest, h3, rfl, rfl⟩ := hc
    refine call_set (a := []) h hg rfl ?_ (.inl rfl)
    rw [List.append_eq, List.cons_append, List.nil_append,
      about_gcmd_ne (by decide +kernel) (by decide +kernel) (by decide)]
    exact finish_game h3 (by decide +kernel)

/-- **C85.** Why nobody won a drawn round: the wall was exhausted unless the element says otherwise; a reason that is not
    one of the six known ones cannot be converted. -/
theorem C85_reason (strict : Bool) (ctx ctx' : Ctx) (t : TEvent) (out : List Cmd)
    (h : callTranslator strict ctx t = .ok (ctx', out)) (ht : t.ev.tag = "RYUUKYOKU".toList) :
    (t.ev.attrib.lookup "type".toList = none → ctx'.vals.get (ofGame "extra_reason") = .str "EXHAUSTED".toList) ∧
    (∀ r, t.ev.attrib.lookup "type".toList = some r →
      ∃ d ∈ drawnReasons, d.1.toList = r ∧ ctx'.vals.get (ofGame "extra_reason") = .str d.2.toList) := by
  obtain ⟨ctx1, l, hg, _, _⟩ := call_inv h
  have hc := gen_handler hg (name := "RYUUKYOKU") (f := ryuukyokuCommand) (by simp [nameMatch]) ht
  simp only [ryuukyokuCommand, bind_ok, pure_ok, Prod.mk.injEq] at hc
  obtain ⟨reason, h1, sc, h2, rest, h3, rfl, rfl⟩ := hc
  have hv : ctx'.vals.get (ofGame "extra_reason") = .str reason :=
    call_set (a := [_]) h hg rfl (finish_game h3 (by decide +kernel)) (.inl rfl)
  unfold drawnReason at h1
  refine ⟨?_, ?_⟩
  · intro hno
    rw [hno] at h1
    cases h1
    exact hv
  · intro r hr
    rw [hr] at h1
    simp only at h1
    split at h1
    · rename_i d hd
      cases h1
      exact ⟨d, List.mem_of_find?_eq_some hd, by simpa using List.find?_some hd, hv⟩
    · cases h1

/-- the last win of a record -/
def sampleLast : TEvent := ⟨30, ⟨"AGARI".toList, [("who".toList, "2".toList), ("fromWho".toList, "0".toList),
  ("hai".toList, commaList [52, 60, 61, 62, 53]), ("machi".toList, "53".toList), ("yaku".toList, commaList [1, 1, 8, 1]),
  ("sc".toList, commaList [250, -26, 250, 0, 250, 36, 240, 0]),
  ("owari".toList, "224,-27.6,250,5.0,286,38.6,240,-16.0".toList)]⟩⟩

-- all hypotheses of `C85_final` hold for it, for every player
example (p : Fin 4) : ∃ c o finals s q, callTranslator true sampleCtx sampleLast = .ok (c, o) ∧
    numberList "224,-27.6,250,5.0,286,38.6,240,-16.0".toList = .ok finals ∧ 2 * 4 ≤ finals.length ∧
    finals[2 * p.val]? = some (.int s) ∧ finals[2 * p.val + 1]? = some q := by
  have h : (callTranslator true sampleCtx sampleLast).isOk = true := by decide +kernel
  have hf : numberList "224,-27.6,250,5.0,286,38.6,240,-16.0".toList =
      .ok [.int 224, .dec (-276) 1, .int 250, .int 5, .int 286, .dec 386 1, .int 240, .int (-16)] := by decide +kernel
  cases hx : callTranslator true sampleCtx sampleLast with
  | error e => rw [hx] at h; cases h
  | ok r =>
    match p with
    | 0 => exact ⟨r.1, r.2, _, _, _, rfl, hf, by decide, rfl, rfl⟩
    | 1 => exact ⟨r.1, r.2, _, _, _, rfl, hf, by decide, rfl, rfl⟩
    | 2 => exact ⟨r.1, r.2, _, _, _, rfl, hf, by decide, rfl, rfl⟩
    | 3 => exact ⟨r.1, r.2, _, _, _, rfl, hf, by decide, rfl, rfl⟩

-- ... and what they get
example : (callTranslator true sampleCtx sampleLast).map (fun r =>
    ((List.range 4).map (fun p => r.1.vals.get (ofPlayer p "rank")), r.1.vals.get (ofPlayer 2 "final_score"),
      r.1.vals.get (ofPlayer 0 "final_point"))) =
    .ok ([.num (.int 4), .num (.int 2), .num (.int 1), .num (.int 3)], .num (.int 28600), .num (.dec (-276) 1)) := by
  decide +kernel

-- drawn rounds, with and without a reason, and with an unknown one
example : (callTranslator true sampleCtx ⟨3, ⟨"RYUUKYOKU".toList, [("type".toList, "yao9".toList)]⟩⟩).map (fun r =>
    (r.1.vals.get (ofGame "nobody_win"), r.1.vals.get (ofGame "extra_reason"))) =
    .ok (.bool true, .str "九種九牌".toList) ∧
    (callTranslator true sampleCtx ⟨3, ⟨"RYUUKYOKU".toList, []⟩⟩).isOk = true ∧
    (callTranslator true sampleCtx ⟨3, ⟨"RYUUKYOKU".toList, [("type".toList, "yao8".toList)]⟩⟩).isOk = false := by
  decide +kernel

end Verif.Props
