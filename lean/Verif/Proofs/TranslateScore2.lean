import Verif.Proofs.TranslateScore

namespace Verif.Proofs
open Verif.Py Verif.Model Verif.Spec

theorem times_int (a : Int) (k : Int) : (Num.int a).times k = .int (a * k) := by
  simp [Num.times, Num.norm, Num.num, Num.scale]

theorem add_int (a b : Int) : (Num.int a).add (.int b) = .int (a + b) := by
  simp [Num.add, Num.norm, Num.num, Num.scale]

theorem sub_int (a b : Int) : (Num.int a).sub (.int b) = .int (a - b) := by
  simp [Num.sub, Num.norm, Num.num, Num.scale]

theorem pyIdx_some {α : Type} (l : List α) (i : Nat) (a : α) (h : l[i]? = some a) : pyIdx l (i : Int) = .ok a := by
  obtain ⟨hi, rfl⟩ := List.getElem?_eq_some_iff.1 h
  exact pyIdx_nat l i hi

theorem natDigits_inj {a b : Nat} (h : natDigits a = natDigits b) : a = b := by
  have h1 := pyInt_natDigits a
  rw [h, pyInt_natDigits] at h1
  have := Except.ok.inj h1
  omega

/-- the score after a game end with this score list -/
theorem finish_score_value {sc : List Int} {p : Nat} {a d : Int} (ha : sc[2 * p]? = some a) (hd : sc[2 * p + 1]? = some d) :
    (do
        let a ← pyIdx (everyOther (sc.map Num.int)) (p : Int)
        let d ← pyIdx (everyOther (sc.map Num.int).tail) (p : Int)
        (Val.num (a.times 100)).add (.num (d.times 100))) = .ok (.num (.int ((a + d) * 100))) := by
  have h1 : (everyOther (sc.map Num.int))[p]? = some (.int a) := by
    rw [everyOther_get, List.getElem?_map, ha]; rfl
  have h2 : (everyOther (sc.map Num.int).tail)[p]? = some (.int d) := by
    rw [everyOther_tail_get, List.getElem?_map, hd]; rfl
  simp only [pyIdx_some _ _ _ h1, pyIdx_some _ _ _ h2, bind, Except.bind]
  rw [times_int, times_int]
  show Except.ok (Val.num ((Num.int (a * 100)).add (.int (d * 100)))) = _
  rw [add_int, ← Int.add_mul]

theorem named_agari_gen {ctx : Ctx} {e : Event} (h : e.tag = "AGARI".toList) : generate ctx e = agariCommand ctx e := by
  unfold generate
  rw [named_agari ctx h]
  cases hx : agariCommand ctx e with
  | error x => rfl
  | ok r =>
    obtain ⟨c, l⟩ := r
    have := agari_nonempty hx
    simp only [bind, Except.bind, pure, Except.pure, ne_eq, this, not_false_eq_true, if_true]

theorem agari_inv {ctx ctx1 : Ctx} {e : Event} {l : List Cmd} (h : agariCommand ctx e = .ok (ctx1, l)) :
    ∃ whoT who fromT from_ scT sc yaku expected rest, e.get "who".toList = .ok whoT ∧ pyInt whoT = .ok who ∧
      e.get "fromWho".toList = .ok fromT ∧ pyInt fromT = .ok from_ ∧ e.get "sc".toList = .ok scT ∧
      numberList scT = .ok sc ∧ yakuOf e = .ok yaku ∧
      gameFinish ctx (some (who, from_)) (some sc) yaku e = .ok rest ∧ ctx1 = ctx ∧
      l = [pcmd .gameFinish who "hand" .assertEqualOrSet (strs expected),
        gcmd .gameFinish "nobody_win" .replace (.bool false)] ++ rest := by
  simp only [agariCommand, bind_ok, pure_ok, Prod.mk.injEq] at h
  obtain ⟨whoT, h1, who, h2, fromT, h3, from_, h4, scT, h5, sc, h6, _, _, _, _, expected, _, yaku, h7, rest, h8, rfl, rfl⟩ := h
  exact ⟨whoT, who, fromT, from_, scT, sc, yaku, expected, rest, h1, h2, h3, h4, h5, h6, h7, h8, rfl, rfl⟩

theorem agari_about_end {ctx ctx1 : Ctx} {e : Event} {l : List Cmd} (h : agariCommand ctx e = .ok (ctx1, l)) :
    ∃ whoT who fromT from_ scT sc yaku rest, e.get "who".toList = .ok whoT ∧ pyInt whoT = .ok who ∧
      e.get "fromWho".toList = .ok fromT ∧ pyInt fromT = .ok from_ ∧ e.get "sc".toList = .ok scT ∧
      numberList scT = .ok sc ∧ yakuOf e = .ok yaku ∧
      gameFinish ctx (some (who, from_)) (some sc) yaku e = .ok rest ∧
      ∀ p, ∀ b ∈ endNames, about (ofPlayer p b) l = about (ofPlayer p b) rest := by
  obtain ⟨whoT, who, fromT, from_, scT, sc, yaku, expected, rest, h1, h2, h3, h4, h5, h6, h7, h8, rfl, rfl⟩ := agari_inv h
  refine ⟨whoT, who, fromT, from_, scT, sc, yaku, rest, h1, h2, h3, h4, h5, h6, h7, h8, ?_⟩
  intro p b hb
  simp only [List.cons_append, List.nil_append]
  rw [about_pcmd_ne (by decide +kernel) (endNames_sub b hb) ((show ∀ b ∈ endNames, "hand" ≠ b by decide) b hb), about_gcmd]

theorem ryuu_nonempty {ctx ctx1 : Ctx} {e : Event} {l : List Cmd} (h : ryuukyokuCommand ctx e = .ok (ctx1, l)) : l ≠ [] := by
  simp only [ryuukyokuCommand, bind_ok, pure_ok, Prod.mk.injEq] at h
  obtain ⟨_, _, _, _, _, _, rfl, rfl⟩ := h
  simp

theorem ryuu_gen {ctx : Ctx} {e : Event} (h : e.tag = "RYUUKYOKU".toList) : generate ctx e = ryuukyokuCommand ctx e := by
  unfold generate
  rw [named_ryuukyoku ctx h]
  cases hx : ryuukyokuCommand ctx e with
  | error x => rfl
  | ok r =>
    obtain ⟨c, l⟩ := r
    have := ryuu_nonempty hx
    simp only [bind, Except.bind, pure, Except.pure, ne_eq, this, not_false_eq_true, if_true]

theorem ryuu_about_end {ctx ctx1 : Ctx} {e : Event} {l : List Cmd} (h : ryuukyokuCommand ctx e = .ok (ctx1, l)) :
    ∃ sc rest, drawnScores e = .ok sc ∧ gameFinish ctx none sc [] e = .ok rest ∧
      ∀ p, ∀ b ∈ endNames, about (ofPlayer p b) l = about (ofPlayer p b) rest := by
  simp only [ryuukyokuCommand, bind_ok, pure_ok, Prod.mk.injEq] at h
  obtain ⟨reason, h1, sc, h2, rest, h3, rfl, rfl⟩ := h
  refine ⟨sc, rest, h2, h3, ?_⟩
  intro p b hb
  simp only [List.cons_append, List.nil_append]
  rw [about_gcmd, about_gcmd]

/-! ### Scores between the deal and the end -/

theorem pn_score : "score" ∈ propertyNames .player := by decide +kernel

/-- commands about the score of `p` -/
theorem gen_score {ctx ctx1 : Ctx} {m : Move} {l : List Cmd} (hm : LegalMove m) (hmt : MoveTiles m)
    (hd : m.isDeal = false) (hend : ∀ e, m = .other e → e.tag ≠ "AGARI".toList ∧ e.tag ≠ "RYUUKYOKU".toList)
    (hreach : ∀ e, m = .other e → e.tag = "REACH".toList → ∃ (q : Fin 4) (s : Nat), e.get "who".toList = .ok (natDigits q.val) ∧
      e.get "step".toList = .ok (natDigits s))
    (h : generate ctx m.event = .ok (ctx1, l)) (p : Fin 4) :
    about (ofPlayer p.val "score") l = if AcceptsReach p m then [pcmd .richii p.val "score" .remove (.num (.int 1000))] else [] := by
  cases m with
  | deal s hh more => cases hd
  | draw q n =>
    rw [gen_draw ctx q n hmt] at h
    cases h
    rw [about_pcmd_ne (by decide +kernel) pn_score (by decide), about_nil]; rfl
  | discard q n =>
    rw [gen_discard ctx q n hmt] at h
    split at h
    · cases h
    · cases h
      simp only [discardCmds]
      rw [about_pcmd_ne (by decide +kernel) pn_score (by decide), about_pcmd_ne (by decide +kernel) pn_score (by decide),
        about_pcmd_ne (by decide +kernel) pn_score (by decide), about_pcmd_ne (by decide +kernel) pn_score (by decide),
        about_nil]; rfl
  | meld q c =>
    obtain ⟨x, hx⟩ := hm
    obtain ⟨rfl, own, all, k1, k2, rfl⟩ := gen_meld_inv hx h
    simp only [meldCmds]
    rw [about_pcmd_ne (by decide +kernel) pn_score (by decide)]
    split
    · rw [about_pcmd_ne (by decide +kernel) pn_score (by decide), about_pcmd_ne (by decide +kernel) pn_score (by decide),
        about_nil]; rfl
    · rw [about_pcmd_ne (by decide +kernel) pn_score (by decide), about_pcmd_ne (by decide +kernel) pn_score (by decide),
        about_nil]; rfl
  | dora n =>
    obtain ⟨rfl, nm, rfl⟩ := gen_dora_inv h
    rw [about_gcmd, about_nil]; rfl
  | other e =>
    have hQ : Quiet e := hm
    rw [show (Move.other e).event = e from rfl, gen_quiet hQ] at h
    by_cases hR : e.tag = "REACH".toList
    · obtain ⟨q, s, g1, g2⟩ := hreach e rfl hR
      rw [named_reach ctx hR] at h
      simp only [reachCommand, g1, g2, bind, Except.bind, pyInt_natDigits] at h
      have hacc : AcceptsReach p (.other e) ↔ q = p ∧ s = 2 := by
        simp only [AcceptsReach]
        rw [g1, g2]
        constructor
        · rintro ⟨_, a, b⟩
          refine ⟨?_, ?_⟩
          · exact Fin.ext (natDigits_inj (Except.ok.inj a))
          · exact natDigits_inj (Except.ok.inj b)
        · rintro ⟨rfl, rfl⟩; exact ⟨hR, rfl, rfl⟩
      by_cases h1 : s = 1
      · subst h1
        rw [if_pos (by decide +kernel)] at h
        cases h
        rw [if_neg (by rw [hacc]; omega), about_pcmd_ne (by decide +kernel) pn_score (by decide), about_nil]
      · rw [if_neg (fun x => h1 (natDigits_inj (x.trans (show _ = natDigits 1 by decide +kernel))))] at h
        by_cases h2 : s = 2
        · subst h2
          rw [if_pos (by decide +kernel)] at h
          cases h
          by_cases hqp : q = p
          · subst hqp
            rw [if_pos (by rw [hacc]; exact ⟨rfl, rfl⟩), about_pcmd_self, about_nil]
          · rw [if_neg (by rw [hacc]; exact fun x => hqp x.1), about_pcmd_q (fun x => hqp (Fin.ext (by omega))), about_nil]
        · rw [if_neg (fun x => h2 (natDigits_inj (x.trans (show _ = natDigits 2 by decide +kernel))))] at h
          cases h
          rw [if_neg (by rw [hacc]; omega)]; rfl
    · have := named_person hQ.1 hQ.2.1 hQ.2.2.1 (hend e rfl).1 hR (hend e rfl).2 h
      rw [about_person this _ pn_score (by decide), if_neg]
      exact fun x => hR x.1

/-- the score of `p` -/
def ScoreSim (p : Fin 4) (ctx : Ctx) (v : Int) : Prop := ctx.vals.get (ofPlayer p.val "score") = .num (.int v)

theorem score_step {strict : Bool} {ctx ctx' : Ctx} {m : Move} {p : Fin 4} {t : TEvent} {out : List Cmd} {v : Int}
    (hs : ScoreSim p ctx v) (hm : LegalMove m) (hmt : MoveTiles m) (hd : m.isDeal = false)
    (hend : ∀ e, m = .other e → e.tag ≠ "AGARI".toList ∧ e.tag ≠ "RYUUKYOKU".toList)
    (hreach : ∀ e, m = .other e → e.tag = "REACH".toList → ∃ (q : Fin 4) (s : Nat), e.get "who".toList = .ok (natDigits q.val) ∧
      e.get "step".toList = .ok (natDigits s))
    (ht : t.ev = m.event) (h : callTranslator strict ctx t = .ok (ctx', out)) :
    ScoreSim p ctx' (if AcceptsReach p m then v - 1000 else v) := by
  obtain ⟨ctx1, cs, hg, _⟩ := call_inv h
  have hget := call_get h hg (ofPlayer p.val "score")
  rw [gen_vals hg] at hget
  rw [ht] at hg
  rw [gen_score hm hmt hd hend hreach hg p] at hget
  unfold ScoreSim at hs ⊢
  rw [hs] at hget
  by_cases hA : AcceptsReach p m
  · rw [if_pos hA] at hget ⊢
    rw [apply_one] at hget
    have e : newValue (pcmd .richii p.val "score" .remove (.num (.int 1000))) (.num (.int v)) = .ok (.num (.int (v - 1000))) := by
      show callUpdate _ _ _ _ = _
      rw [pcmd, remove_kind (hk (k := .score) (by decide))]
      show (Val.num (.int v)).sub (.num (.int 1000)) = _
      show Except.ok (Val.num ((Num.int v).sub (.int 1000))) = _
      rw [sub_int]
    rw [e] at hget
    exact (Except.ok.inj hget).symm
  · rw [if_neg hA] at hget ⊢
    exact (Except.ok.inj hget).symm

theorem get_more (s : List Int) (h : Fin 4 → List Int) (more : List (Str × Str)) :
    Event.get (Move.deal s h more).event "ten".toList = Event.get ⟨"INIT".toList, more⟩ "ten".toList := by
  rw [deal_get]
  rfl

theorem deal_score {strict : Bool} {ctx ctx' : Ctx} {n : Nat} {p : Fin 4} {seed : List Int} {hands : Fin 4 → List Int}
    {more : List (Str × Str)} {t : TEvent} {out : List Cmd} {ten : List Int} {v : Int}
    (hn : ctx.playerCount = .ok n) (hp : p.val < n)
    (hten : more.lookup "ten".toList = some (commaList ten)) (hv : ten[p.val]? = some v)
    (ht : t.ev = (Move.deal seed hands more).event) (h : callTranslator strict ctx t = .ok (ctx', out)) :
    ScoreSim p ctx' (v * 100) := by
  obtain ⟨ctx1, cs, hg, hpost, hr, _⟩ := call_inv h
  have g := call_get h hg (ofPlayer p.val "score")
  rw [ht, gen_init rfl] at hg
  obtain ⟨n', e1, e2, e3, e4⟩ := init_inv hg
  rw [hn] at e1
  cases e1
  obtain ⟨raw, names, scores, score, s, tt, k1, k2, k3, k4, k5, k6, k7⟩ := e4 p.val hp
  rw [get_more] at k4
  simp only [Event.get, hten] at k4
  cases k4
  have hne : ten ≠ [] := by rintro rfl; simp at hv
  rw [numberList_comma _ hne] at k5
  cases k5
  rw [pyIdx_some _ _ (.int v) (by rw [List.getElem?_map, hv]; rfl)] at k6
  cases k6
  rw [k7 _ (by decide +kernel) (by decide)] at g
  simp only [dealCmds] at g
  rw [about_pcmd_ne (by decide +kernel) pn_score (by decide), about_pcmd_ne (by decide +kernel) pn_score (by decide),
    about_pcmd_ne (by decide +kernel) pn_score (by decide), about_pcmd_ne (by decide +kernel) pn_score (by decide),
    about_pcmd_ne (by decide +kernel) pn_score (by decide), about_pcmd_ne (by decide +kernel) pn_score (by decide),
    about_pcmd_ne (by decide +kernel) pn_score (by decide), about_pcmd_ne (by decide +kernel) pn_score (by decide),
    about_pcmd_self, about_nil, apply_one, new_assert, times_int] at g
  exact (Except.ok.inj g).symm

theorem scores_sim {strict : Bool} {ctx ctx' : Ctx} {n : Nat} {p : Fin 4} {seed : List Int} {hands : Fin 4 → List Int}
    {more : List (Str × Str)} {ms : List Move} {ts : List TEvent} {out : List Cmd} {ten : List Int} {v : Int}
    (hn : ctx.playerCount = .ok n) (hp : p.val < n)
    (hten : more.lookup "ten".toList = some (commaList ten)) (hv : ten[p.val]? = some v)
    (hm : ∀ m ∈ ms, LegalMove m) (hd : ∀ m ∈ ms, m.isDeal = false) (hmt : ∀ m ∈ ms, MoveTiles m)
    (hend : ∀ e, .other e ∈ ms → e.tag ≠ "AGARI".toList ∧ e.tag ≠ "RYUUKYOKU".toList)
    (hreach : ∀ e, .other e ∈ ms → e.tag = "REACH".toList → ∃ (q : Fin 4) (s : Nat), e.get "who".toList = .ok (natDigits q.val) ∧
      e.get "step".toList = .ok (natDigits s))
    (ht : ts.map TEvent.ev = (Move.deal seed hands more :: ms).map Move.event)
    (h : translateAll strict ctx ts = .ok (ctx', out)) :
    ScoreSim p ctx' (v * 100 - 1000 * (ms.filter (fun m => decide (AcceptsReach p m))).length) := by
  induction ms using List.reverseRecOn generalizing ts ctx' out with
  | nil =>
    cases ts with
    | nil => simp at ht
    | cons t ts =>
      simp only [List.map_cons, List.map_nil, List.cons.injEq, List.map_eq_nil_iff] at ht
      obtain ⟨ht, rfl⟩ := ht
      simp only [translateAll, bind_ok, pure_ok, Prod.exists, Prod.mk.injEq, Except.ok.injEq] at h
      obtain ⟨c1, l1, h1, c2, l2, ⟨rfl, rfl⟩, rfl, rfl⟩ := h
      simpa using deal_score hn hp hten hv ht h1
  | append_singleton ms m ih =>
    rcases List.eq_nil_or_concat ts with rfl | ⟨ts, t, rfl⟩
    · simp at ht
    rw [List.concat_eq_append] at ht h
    rw [← List.cons_append, List.map_append, List.map_append] at ht
    have ht1 := List.append_inj_left' ht (by simp)
    have ht2 := List.append_inj_right' ht (by simp)
    simp only [List.map_cons, List.map_nil, List.cons.injEq, and_true] at ht2
    obtain ⟨c1, o1, o2, t1, t2, rfl⟩ := translateAll_append.1 h
    simp only [translateAll, bind_ok, pure_ok, Prod.exists, Prod.mk.injEq, Except.ok.injEq] at t2
    obtain ⟨c2, l2, t2, c3, l3, ⟨rfl, rfl⟩, rfl, rfl⟩ := t2
    have i := ih (fun x hx => hm x (by simp [hx])) (fun x hx => hd x (by simp [hx]))
      (fun x hx => hmt x (by simp [hx])) (fun e he => hend e (by simp [he])) (fun e he => hreach e (by simp [he])) ht1 t1
    have r := score_step i (hm m (by simp)) (hmt m (by simp)) (hd m (by simp)) (fun e he => hend e (by simp [he]))
      (fun e he => hreach e (by simp [he])) ht2 t2
    rw [List.filter_append]
    by_cases hA : AcceptsReach p m
    · simp only [hA, if_true] at r
      have : [m].filter (fun m => decide (AcceptsReach p m)) = [m] := by simp [hA]
      rw [this, List.length_append]
      convert r using 1
      simp
      omega
    · simp only [hA, if_false] at r
      have : [m].filter (fun m => decide (AcceptsReach p m)) = [] := by simp [hA]
      rw [this, List.append_nil]
      exact r

end Verif.Proofs
