import Verif.Spec.Values
import Verif.Proofs.Values2
import Verif.Props.Effects

/-!
C82, C83: riichi, connections and the header of a round in the converted state.
-/
namespace Verif.Props
open Verif.Py Verif.Model Verif.Spec Verif.Proofs

theorem mayChange_mem {tag : Str} {y : Scope × String} (h : y ∈ mayChange tag) :
    (∃ x ∈ namedEffects, x.1.toList = tag ∧ y ∈ x.2) ∨
    y ∈ [(Scope.player, "hand"), (.player, "round"), (.player, "discard_from_hand"), (.player, "discard_tiles")] := by
  unfold mayChange at h
  split at h
  · rename_i x hx
    exact .inl ⟨x, List.mem_of_find?_eq_some hx, by simpa using List.find?_some hx, h⟩
  · right
    split at h
    · cases h
    · split at h
      · simp at h; simp [h]
      · split at h
        · exact h
        · cases h

/-- a property is changed only by the tags whose effects it is among -/
theorem not_mayChange {y : Scope × String} (tags : List String)
    (h1 : ∀ x ∈ namedEffects, y ∈ x.2 → x.1 ∈ tags)
    (h2 : y ∉ [(Scope.player, "hand"), (.player, "round"), (.player, "discard_from_hand"), (.player, "discard_tiles")])
    {tag : Str} (ht : ∀ s ∈ tags, tag ≠ s.toList) : y ∉ mayChange tag := by
  intro h
  rcases mayChange_mem h with ⟨x, hx, e, hy⟩ | h
  · exact ht x.1 (h1 x hx hy) e.symm
  · exact h2 h

/-! ### C82 -/

theorem riichi_keeps {strict : Bool} {ctx ctx' : Ctx} {t : TEvent} {out : List Cmd} {p : Nat}
    (h : callTranslator strict ctx t = .ok (ctx', out)) (hi : t.ev.tag ≠ "INIT".toList) (hd : ¬ Declares p t.ev) :
    ctx'.vals.get (ofPlayer p "in_richii") = ctx.vals.get (ofPlayer p "in_richii") := by
  by_cases hr : t.ev.tag = "REACH".toList
  · obtain ⟨ctx1, l, hg, _, _⟩ := call_inv h
    have hgv := call_get h hg (ofPlayer p "in_richii")
    rw [gen_vals hg] at hgv
    have hc := gen_handler hg (name := "REACH") (f := reachCommand) (by simp [nameMatch]) hr
    have hab : about (ofPlayer p "in_richii") l = [] := by
      simp only [reachCommand, bind_ok] at hc
      obtain ⟨w, hw, q, hq, step, hs, h1⟩ := hc
      split at h1
      · rename_i e1
        subst e1
        cases h1
        rw [about_cons, if_neg, about_nil]
        intro e
        have := congrArg Prod.fst e
        simp only [keyOf, pcmd, ofPlayer, Sub.num.injEq] at this
        subst this
        exact hd ⟨hr, ⟨w, hw, hq⟩, hs⟩
      · split at h1
        · cases h1
          rw [about_pcmd_ne (by decide +kernel) (by decide +kernel) (by decide), about_nil]
        · cases h1; rfl
    rw [hab] at hgv
    simp only [applyAll, Except.ok.injEq] at hgv
    exact hgv.symm
  · refine (C81_only strict ctx ctx' t out h).1 .player "in_richii" (by decide +kernel) ?_ _
    refine not_mayChange ["INIT", "REACH"] (by decide +kernel) (by decide) ?_
    simp only [List.mem_cons, List.not_mem_nil, or_false, forall_eq_or_imp, forall_eq]
    exact ⟨hi, hr⟩

theorem riichi_declared {strict : Bool} {ctx ctx' : Ctx} {t : TEvent} {out : List Cmd} {p : Nat}
    (h : callTranslator strict ctx t = .ok (ctx', out)) (hd : Declares p t.ev) :
    ctx'.vals.get (ofPlayer p "in_richii") = .bool true := by
  obtain ⟨ctx1, l, hg, _, _⟩ := call_inv h
  obtain ⟨hr, ⟨w, hw, hq⟩, hs⟩ := hd
  have hc := gen_handler hg (name := "REACH") (f := reachCommand) (by simp [nameMatch]) hr
  simp only [reachCommand, bind_ok] at hc
  obtain ⟨w', hw', q, hq', step, hs', h1⟩ := hc
  rw [hw] at hw'
  cases hw'
  rw [hq] at hq'
  cases hq'
  rw [hs] at hs'
  cases hs'
  rw [if_pos rfl] at h1
  cases h1
  exact call_set (a := []) (b := []) h hg rfl rfl (.inl rfl)

theorem riichi_dealt {strict : Bool} {ctx ctx' : Ctx} {t : TEvent} {out : List Cmd} {n p : Nat}
    (h : callTranslator strict ctx t = .ok (ctx', out)) (ht : t.ev.tag = "INIT".toList) (hn : ctx.playerCount = .ok n)
    (hp : p < n) : ctx'.vals.get (ofPlayer p "in_richii") = .bool false := by
  obtain ⟨ctx1, cs, hg, _, _⟩ := call_inv h
  have g := call_get h hg (ofPlayer p "in_richii")
  rw [gen_init ht] at hg
  obtain ⟨n', e1, e2, e3, e4⟩ := init_inv hg
  rw [hn] at e1
  cases e1
  obtain ⟨raw, names, scores, score, s, tt, k1, k2, k3, k4, k5, k6, k7⟩ := e4 p hp
  rw [k7 _ (by decide +kernel) (by decide)] at g
  simp only [dealCmds] at g
  have pn : "in_richii" ∈ propertyNames .player := by decide +kernel
  rw [about_pcmd_ne (by decide +kernel) pn (by decide), about_pcmd_ne (by decide +kernel) pn (by decide),
    about_pcmd_ne (by decide +kernel) pn (by decide), about_pcmd_ne (by decide +kernel) pn (by decide),
    about_pcmd_ne (by decide +kernel) pn (by decide), about_pcmd_self, about_pcmd_ne (by decide +kernel) pn (by decide),
    about_pcmd_ne (by decide +kernel) pn (by decide), about_pcmd_ne (by decide +kernel) pn (by decide), about_nil,
    apply_one, new_replace] at g
  exact (Except.ok.inj g).symm

/-- **C82.** Since the deal, a player is in riichi exactly if they have declared it. -/
theorem C82_riichi (strict : Bool) (ctx ctx' : Ctx) (t : TEvent) (ts : List TEvent) (out : List Cmd)
    (h : translateAll strict ctx (t :: ts) = .ok (ctx', out)) (ht : t.ev.tag = "INIT".toList)
    (hts : ∀ x ∈ ts, x.ev.tag ≠ "INIT".toList) (n p : Nat) (hn : ctx.playerCount = .ok n) (hp : p < n) :
    ∃ b, ctx'.vals.get (ofPlayer p "in_richii") = .bool b ∧ (b = true ↔ ∃ x ∈ ts, Declares p x.ev) := by
  induction ts using List.reverseRecOn generalizing ctx' out with
  | nil =>
    simp only [translateAll, bind_ok, pure_ok, Prod.exists, Prod.mk.injEq, Except.ok.injEq] at h
    obtain ⟨c1, l1, h1, c2, l2, ⟨rfl, rfl⟩, rfl, rfl⟩ := h
    exact ⟨false, riichi_dealt h1 ht hn hp, by simp⟩
  | append_singleton ts x ih =>
    rw [← List.cons_append] at h
    obtain ⟨c1, o1, o2, t1, t2, rfl⟩ := translateAll_append.1 h
    simp only [translateAll, bind_ok, pure_ok, Prod.exists, Prod.mk.injEq, Except.ok.injEq] at t2
    obtain ⟨c2, l2, h2, c3, l3, ⟨rfl, rfl⟩, rfl, rfl⟩ := t2
    obtain ⟨b, e1, e2⟩ := ih c1 o1 t1 (fun y hy => hts y (by simp [hy]))
    by_cases hd : Declares p x.ev
    · exact ⟨true, riichi_declared h2 hd, iff_of_true rfl ⟨x, by simp, hd⟩⟩
    · refine ⟨b, by rw [riichi_keeps h2 (hts x (by simp)) hd, e1], ?_⟩
      rw [e2]
      constructor
      · rintro ⟨y, hy, hd⟩; exact ⟨y, by simp [hy], hd⟩
      · rintro ⟨y, hy, hd'⟩
        rcases List.mem_append.1 hy with hy | hy
        · exact ⟨y, hy, hd'⟩
        · simp only [List.mem_singleton] at hy
          subst hy
          exact (hd hd').elim

theorem connection_keeps {strict : Bool} {ctx ctx' : Ctx} {t : TEvent} {out : List Cmd} {p : Nat} (hp : p < 4)
    (h : callTranslator strict ctx t = .ok (ctx', out)) (hl : ¬ Leaves p t.ev) (he : ¬ Enters p t.ev) :
    ctx'.vals.get (ofPlayer p "disconnected") = ctx.vals.get (ofPlayer p "disconnected") := by
  by_cases hb : t.ev.tag = "BYE".toList
  · obtain ⟨ctx1, l, hg, _, _⟩ := call_inv h
    have hgv := call_get h hg (ofPlayer p "disconnected")
    rw [gen_vals hg] at hgv
    have hc := gen_handler hg (name := "BYE") (f := byeCommand) (by simp [nameMatch]) hb
    simp only [byeCommand, bind_ok, pure_ok, Prod.mk.injEq] at hc
    obtain ⟨w, hw, q, hq, rfl, rfl⟩ := hc
    rw [about_pcmd_q, about_nil] at hgv
    · simp only [applyAll, Except.ok.injEq] at hgv
      exact hgv.symm
    · rintro rfl
      exact hl ⟨hb, w, hw, hq⟩
  · by_cases hu : t.ev.tag = "UN".toList
    · obtain ⟨dan, rate, m, _, _, hm, ha⟩ := un_about hp h hu
      have : m = [] := by
        unfold unPlayer at hm
        split at hm
        · cases hm; rfl
        · rename_i name hname
          split at hm
          · cases hm; rfl
          · rename_i hns
            exact (he ⟨hu, name, hname, by simpa using hns⟩).elim
      subst this
      have := ha "disconnected"
      simp only [about_nil, applyAll, Except.ok.injEq] at this
      exact this.symm
    · refine (C81_only strict ctx ctx' t out h).1 .player "disconnected" (by decide +kernel) ?_ _
      refine not_mayChange ["BYE", "UN"] (by decide +kernel) (by decide) ?_
      simp only [List.mem_cons, List.not_mem_nil, or_false, forall_eq_or_imp, forall_eq]
      exact ⟨hb, hu⟩

theorem connection_leaves {strict : Bool} {ctx ctx' : Ctx} {t : TEvent} {out : List Cmd} {p : Nat}
    (h : callTranslator strict ctx t = .ok (ctx', out)) (hl : Leaves p t.ev) :
    ctx'.vals.get (ofPlayer p "disconnected") = .bool true := by
  obtain ⟨ctx1, l, hg, _, _⟩ := call_inv h
  obtain ⟨hr, w, hw, hq⟩ := hl
  have hc := gen_handler hg (name := "BYE") (f := byeCommand) (by simp [nameMatch]) hr
  simp only [byeCommand, bind_ok, pure_ok, Prod.mk.injEq] at hc
  obtain ⟨w', hw', q, hq', rfl, rfl⟩ := hc
  rw [hw] at hw'
  cases hw'
  rw [hq] at hq'
  cases hq'
  exact call_set (a := []) (b := []) h hg rfl rfl (.inl rfl)

theorem un_enters {e : Event} {dan rate : List Num} {sex : List Str} {p : Nat} {c c' : Ctx} {m : List Cmd} {name : Str}
    (h : unPlayer e dan rate sex p c = .ok (c', m)) (hn : e.attrib.lookup ("n".toList ++ natDigits p) = some name)
    (hs : name.all isSpace = false) :
    ∃ level r sx levels, pyIdx dan (p : Int) = .ok level ∧ pyIdx rate (p : Int) = .ok r ∧ pyIdx sex (p : Int) = .ok sx ∧
      levelCmds e p level = .ok levels ∧
      m = [pcmd .connectChange p "disconnected" .replace (.bool false),
        pcmd .recordInit p "name" .assertEqualOrSet (.str (unquote name))] ++ levels ++ rateCmds e p r := by
  unfold unPlayer at h
  rw [hn] at h
  simp only [hs, Bool.false_eq_true, if_false, bind_ok, pure_ok, Prod.mk.injEq] at h
  obtain ⟨level, h1, r, h2, sx, h3, levels, h4, _, rfl⟩ := h
  exact ⟨level, r, sx, levels, h1, h2, h3, h4, rfl⟩

theorem level_cases {e : Event} {p : Nat} {level : Num} {l : List Cmd} (h : levelCmds e p level = .ok l) :
    e.attrib.lookup "dan".toList = none ∧ l = [] ∨
    ∃ x i s, e.attrib.lookup "dan".toList = some x ∧ level.toInt = .ok i ∧ pyIdx RANKS i = .ok s ∧
      l = [pcmd .recordInit p "level" .replace (.str s.toList)] := by
  unfold levelCmds at h
  split at h
  · rename_i hd
    cases h; exact .inl ⟨hd, rfl⟩
  · rename_i x hd
    simp only [bind_ok, pure_ok] at h
    obtain ⟨i, hi, s, hs, rfl⟩ := h
    exact .inr ⟨x, i, s, hd, hi, hs, rfl⟩

theorem level_about {e : Event} {p : Nat} {level : Num} {l : List Cmd} (h : levelCmds e p level = .ok l) {b : String}
    (hb : b ∈ propertyNames .player) (hne : b ≠ "level") : about (ofPlayer p b) l = [] := by
  rcases level_cases h with ⟨_, rfl⟩ | ⟨x, i, s, _, _, _, rfl⟩
  · rfl
  · rw [about_pcmd_ne (by decide +kernel) hb (fun e => hne e.symm), about_nil]

theorem rate_about {e : Event} {p : Nat} {r : Num} {b : String} (hb : b ∈ propertyNames .player) (hne : b ≠ "extra_level") :
    about (ofPlayer p b) (rateCmds e p r) = [] := by
  unfold rateCmds
  split
  · rfl
  · rw [about_pcmd_ne (by decide +kernel) hb (fun e => hne e.symm), about_nil]

theorem connection_enters {strict : Bool} {ctx ctx' : Ctx} {t : TEvent} {out : List Cmd} {p : Nat} (hp : p < 4)
    (h : callTranslator strict ctx t = .ok (ctx', out)) (he : Enters p t.ev) :
    ctx'.vals.get (ofPlayer p "disconnected") = .bool false := by
  obtain ⟨ht, name, hn, hs⟩ := he
  obtain ⟨dan, rate, m, _, _, hm, ha⟩ := un_about hp h ht
  obtain ⟨level, r, sx, levels, _, _, _, h4, rfl⟩ := un_enters hm hn hs
  have := ha "disconnected"
  have pn : "disconnected" ∈ propertyNames .player := by decide +kernel
  rw [about_append, about_append, level_about h4 pn (by decide), rate_about pn (by decide), List.append_nil, List.append_nil,
    about_pcmd_self, about_pcmd_ne (by decide +kernel) pn (by decide), about_nil, apply_one, new_replace] at this
  exact (Except.ok.inj this).symm

/-- **C82.** Whether a player is disconnected: as the last `BYE` of the player or `UN` naming the player says, and as
    before if there is none. -/
theorem C82_connection (strict : Bool) (ctx ctx' : Ctx) (ts : List TEvent) (out : List Cmd)
    (h : translateAll strict ctx ts = .ok (ctx', out)) (p : Nat) (hp : p < 4) :
    ((∀ t ∈ ts, ¬ Leaves p t.ev ∧ ¬ Enters p t.ev) →
      ctx'.vals.get (ofPlayer p "disconnected") = ctx.vals.get (ofPlayer p "disconnected")) ∧
    (∀ a t b, ts = a ++ t :: b → (∀ x ∈ b, ¬ Leaves p x.ev ∧ ¬ Enters p x.ev) →
      (Leaves p t.ev → ctx'.vals.get (ofPlayer p "disconnected") = .bool true) ∧
      (Enters p t.ev → ctx'.vals.get (ofPlayer p "disconnected") = .bool false)) := by
  have keep : ∀ (ts : List TEvent) (c c' : Ctx) (o : List Cmd), translateAll strict c ts = .ok (c', o) →
      (∀ t ∈ ts, ¬ Leaves p t.ev ∧ ¬ Enters p t.ev) →
      c'.vals.get (ofPlayer p "disconnected") = c.vals.get (ofPlayer p "disconnected") := by
    intro ts
    induction ts with
    | nil =>
      intro c c' o h _
      simp only [translateAll, Except.ok.injEq, Prod.mk.injEq] at h
      rw [h.1]
    | cons t ts ih =>
      intro c c' o h hq
      simp only [translateAll, bind_ok, pure_ok, Prod.exists, Prod.mk.injEq] at h
      obtain ⟨c1, l1, h1, c2, l2, h2, rfl, rfl⟩ := h
      rw [ih _ _ _ h2 (fun x hx => hq x (List.mem_cons_of_mem _ hx)),
        connection_keeps hp h1 (hq t List.mem_cons_self).1 (hq t List.mem_cons_self).2]
  refine ⟨keep ts ctx ctx' out h, ?_⟩
  rintro a t b rfl hb
  obtain ⟨c1, o1, o2, t1, t2, rfl⟩ := translateAll_append.1 h
  simp only [translateAll, bind_ok, pure_ok, Prod.exists, Prod.mk.injEq] at t2
  obtain ⟨c2, l2, h2, c3, l3, h3, rfl, rfl⟩ := t2
  rw [keep _ _ _ _ h3 hb]
  exact ⟨connection_leaves h2, connection_enters hp h2⟩

-- in the sample, player 2 declares riichi and player 1 does not
example : ∃ c o, translateAll true sampleCtx (sampleEvents (sampleDeal :: samplePlay)) = .ok (c, o) ∧
    c.vals.get (ofPlayer 2 "in_richii") = .bool true ∧ c.vals.get (ofPlayer 1 "in_richii") = .bool false := by
  obtain ⟨c, o, h⟩ := sample_translates
  have hts : ∀ x ∈ sampleEvents samplePlay, x.ev.tag ≠ "INIT".toList := by decide +kernel
  refine ⟨c, o, h, ?_, ?_⟩
  · obtain ⟨b, e1, e2⟩ := C82_riichi true sampleCtx c _ (sampleEvents samplePlay) o h rfl hts 4 2 sampleCtx_count (by decide)
    rw [e1, e2.2 ⟨⟨1, ⟨"REACH".toList, [("who".toList, "2".toList), ("step".toList, "1".toList)]⟩⟩, by decide +kernel,
      rfl, ⟨_, rfl, by decide +kernel⟩, by decide +kernel⟩]
  · obtain ⟨b, e1, e2⟩ := C82_riichi true sampleCtx c _ (sampleEvents samplePlay) o h rfl hts 4 1 sampleCtx_count (by decide)
    rw [e1]
    cases b with
    | false => rfl
    | true =>
      obtain ⟨x, hx, h1, ⟨w, hw, hp⟩, _⟩ := e2.1 rfl
      have : ∀ x ∈ sampleEvents samplePlay, x.ev.tag = "REACH".toList → x.ev.get "who".toList = .ok "2".toList := by
        decide +kernel
      rw [this x hx h1] at hw
      cases hw
      exact absurd hp (by decide +kernel)

-- leaving and coming back
example : Leaves 3 ⟨"BYE".toList, [("who".toList, "3".toList)]⟩ ∧ Enters 3 ⟨"UN".toList, [("n3".toList, "%41".toList)]⟩ :=
  ⟨⟨rfl, _, rfl, by decide +kernel⟩, ⟨rfl, _, rfl, by decide +kernel⟩⟩

end Verif.Props
