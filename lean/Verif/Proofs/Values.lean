import Verif.Proofs.Effects2

namespace Verif.Proofs
open Verif.Py Verif.Model Verif.Spec

theorem applyAll_last {v w : Val} {a : List Cmd} {c : Cmd} (h : applyAll v (a ++ [c]) = .ok w)
    (hu : c.update = .replace ∨ c.update = .assertEqualOrSet) : w = c.value := by
  induction a generalizing v with
  | nil =>
    simp only [List.nil_append, applyAll, bind_ok, Except.ok.injEq] at h
    obtain ⟨x, h1, rfl⟩ := h
    unfold newValue at h1
    rcases hu with hu | hu <;> rw [hu] at h1 <;> exact (Except.ok.inj h1).symm
  | cons d a ih =>
    simp only [List.cons_append, applyAll, bind_ok] at h
    obtain ⟨x, _, h1⟩ := h
    exact ih h1

/-- the last command about a property sets it -/
theorem call_set {strict : Bool} {ctx ctx' ctx1 : Ctx} {t : TEvent} {out a b : List Cmd} {c : Cmd} {k : Sub × View}
    (h : callTranslator strict ctx t = .ok (ctx', out)) (hg : generate ctx t.ev = .ok (ctx1, a ++ c :: b))
    (hk : keyOf c = k) (hb : about k b = []) (hu : c.update = .replace ∨ c.update = .assertEqualOrSet) :
    ctx'.vals.get k = c.value := by
  have := call_get h hg k
  rw [about_append, about_cons, if_pos hk, hb] at this
  exact applyAll_last this hu

theorem about_each (ev : EventType) (a : String) (u : Update) (f : Nat → Val) (p n : Nat) :
    about (ofPlayer p a) ((List.range n).map (fun (q : Nat) => pcmd ev q a u (f q))) =
      if p < n then [pcmd ev p a u (f p)] else [] := by
  induction n with
  | zero => rfl
  | succ n ih =>
    rw [List.range_succ, List.map_append, about_append, ih, List.map_cons, List.map_nil, about_cons]
    by_cases h1 : p < n
    · have : keyOf (pcmd ev (n : Int) a u (f n)) ≠ ofPlayer p a := by
        intro e
        have := congrArg Prod.fst e
        simp only [keyOf, pcmd, ofPlayer, Sub.num.injEq] at this
        omega
      simp [h1, this, about_nil, show p < n + 1 by omega]
    · by_cases h2 : p = n
      · subst h2
        have : keyOf (pcmd ev (p : Int) a u (f p)) = ofPlayer p a := rfl
        simp [this, about_nil]
      · have : keyOf (pcmd ev (n : Int) a u (f n)) ≠ ofPlayer p a := by
          intro e
          have := congrArg Prod.fst e
          simp only [keyOf, pcmd, ofPlayer, Sub.num.injEq] at this
          omega
        simp [h1, this, about_nil, show ¬ p < n + 1 by omega]

/-- a named handler that gives commands is the whole generator -/
theorem gen_named {ctx ctx1 : Ctx} {e : Event} {l : List Cmd} (h : generate ctx e = .ok (ctx1, l)) {c : Ctx} {m : List Cmd}
    (hn : translateNamed ctx e = .ok (c, m)) (hm : m ≠ []) : ctx1 = c ∧ l = m := by
  unfold generate at h
  rw [hn] at h
  simp only [bind, Except.bind, pure, Except.pure, ne_eq, hm, not_false_eq_true, if_true, Except.ok.injEq, Prod.mk.injEq] at h
  exact ⟨h.1.symm, h.2.symm⟩

/-- an event with a name known to the translator is given to its handler only -/
theorem gen_handler {ctx ctx1 : Ctx} {e : Event} {l : List Cmd} (h : generate ctx e = .ok (ctx1, l)) {name : String}
    {f : Ctx → Event → CmdGen} (hm : (name, f) ∈ nameMatch) (ht : e.tag = name.toList) : f ctx e = .ok (ctx1, l) := by
  have hnamed : translateNamed ctx e = f ctx e := by
    unfold translateNamed
    simp only [nameMatch, List.mem_cons, List.not_mem_nil, or_false, Prod.mk.injEq] at hm
    rcases hm with ⟨rfl, rfl⟩ | ⟨rfl, rfl⟩ | ⟨rfl, rfl⟩ | ⟨rfl, rfl⟩ | ⟨rfl, rfl⟩ | ⟨rfl, rfl⟩ | ⟨rfl, rfl⟩ | ⟨rfl, rfl⟩ |
      ⟨rfl, rfl⟩ | ⟨rfl, rfl⟩ | ⟨rfl, rfl⟩ <;> rw [ht] <;> rfl
  have no : ∀ letters c n, ¬ Numbered letters e.tag c n := by
    intro letters c n hn
    refine numbered_not_named hn name ?_ ht
    simp only [nameMatch, List.mem_cons, List.not_mem_nil, or_false, Prod.mk.injEq] at hm
    rcases hm with ⟨rfl, rfl⟩ | ⟨rfl, rfl⟩ | ⟨rfl, rfl⟩ | ⟨rfl, rfl⟩ | ⟨rfl, rfl⟩ | ⟨rfl, rfl⟩ | ⟨rfl, rfl⟩ | ⟨rfl, rfl⟩ |
      ⟨rfl, rfl⟩ | ⟨rfl, rfl⟩ | ⟨rfl, rfl⟩ <;> simp
  have e1 : tileChange DRAW_INDICATOR e = none := by
    have : wholeNumber DRAW_INDICATOR e.tag = none := wholeNumber_none (no "TUVW")
    unfold tileChange; rw [this]; rfl
  have e2 : tileChange DISCARD_INDICATOR e = none := by
    have : wholeNumber DISCARD_INDICATOR e.tag = none := wholeNumber_none (no "DEFG")
    unfold tileChange; rw [this]; rfl
  unfold generate at h
  rw [hnamed] at h
  simp only [bind_ok, Prod.exists] at h
  obtain ⟨c, m, h1, h⟩ := h
  split at h
  · simp only [pure_ok, Prod.mk.injEq] at h; rw [h1, h.1, h.2]
  · rename_i hx
    have hx : m = [] := by simpa using hx
    subst hx
    unfold drawCommand discardCommand at h
    simp only [e1, e2, bind, Except.bind, ne_eq, not_true_eq_false, if_false, Except.ok.injEq, Prod.mk.injEq] at h
    rw [h1, h.1, h.2]

/-- the shape of the commands of a deal -/
theorem init_shape {ctx ctx1 : Ctx} {e : Event} {l : List Cmd} (h : initCommand ctx e = .ok (ctx1, l)) :
    ∃ s seed ix sub richii dora s0 i w g o oya d names n rest,
      e.get "seed".toList = .ok s ∧ numberList s = .ok seed ∧ ctx.indexer = some ix ∧ pyIdx seed 1 = .ok sub ∧
      pyIdx seed 2 = .ok richii ∧ pyIdx seed (-1) = .ok dora ∧ pyIdx seed 0 = .ok s0 ∧ s0.toInt = .ok i ∧
      ix.category i = .ok [w, g] ∧ e.get "oya".toList = .ok o ∧ pyInt o = .ok oya ∧ dora.toInt = .ok d ∧
      tileNames [d] = .ok names ∧ ctx.playerCount = .ok n ∧ ctx1.indexer = ctx.indexer ∧
      Within ((["hand", "discard_from_hand", "discard_tiles", "fixed_meld", "meld_public_tiles", "bonus_tiles", "round",
        "in_richii", "score"] : List String).map (fun a => (Scope.player, a))) rest ∧
      l = [gcmd .gameInit "wind" .replace (.num (.int w)), gcmd .gameInit "round" .replace (.num (.int g)),
        gcmd .gameInit "sub_round" .replace (.num sub),
        gcmd .gameInit "richii_remain_scores" .replace (.num (richii.times 1000))] ++
        (List.range n).map (fun (p : Nat) => pcmd .gameInit p "is_dealer" .replace (.bool (decide (oya = p)))) ++
        [gcmd .newDora "dora_indicators" .replace (strs names)] ++ rest := by
  unfold initCommand at h
  simp only [bind_ok] at h
  obtain ⟨s, hs, seed, hseed, h⟩ := h
  split at h
  · cases h
  · rename_i ix hix
    simp only [bind_ok, pure_ok, Prod.exists, Prod.mk.injEq] at h
    obtain ⟨sub, h1, richii, h2, dora, h3, s0, h4, i, h5, cat, h6, w, g, h7, o, h8, oya, h9, dealers, hd, d, h10, names, h11,
      n, h12, c, rest, hr, rfl, rfl⟩ := h
    have hcat : cat = [w, g] := by
      unfold twoOf at h7
      split at h7
      · cases h7; rfl
      · cases h7
    subst hcat
    simp only [setOya, bind_ok, pure_ok] at hd
    obtain ⟨n', hn', rfl⟩ := hd
    rw [h12] at hn'
    cases hn'
    refine ⟨s, seed, ix, sub, richii, dora, s0, i, w, g, o, oya, d, names, n, rest, hs, hseed, hix, h1, h2, h3, h4, h5, h6, h8,
      h9, h10, h11, h12, ?_, forPlayers_within (fun q c c' l hq => initPlayer_within ?_ hq) hr, rfl⟩
    · have : ∀ (ps : List Nat) (a b : Ctx) (l : List Cmd), forPlayers (initPlayer e) ps a = .ok (b, l) → b.indexer = a.indexer := by
        intro ps
        induction ps with
        | nil => intro a b l h; simp only [forPlayers, Except.ok.injEq, Prod.mk.injEq] at h; rw [h.1]
        | cons p ps ih =>
          intro a b l h
          simp only [forPlayers, bind_ok, pure_ok, Prod.exists, Prod.mk.injEq] at h
          obtain ⟨c1, l1, h1, c2, l2, h2, rfl, rfl⟩ := h
          rw [ih _ _ _ h2]
          simp only [initPlayer, bind_ok, pure_ok, Prod.exists, Prod.mk.injEq] at h1
          obtain ⟨_, _, _, _, _, _, _, _, c, hand, hh, _, _, rfl, rfl⟩ := h1
          simp only [handUpdate, bind_ok, pure_ok, Prod.exists, Prod.mk.injEq] at hh
          obtain ⟨_, _, _, _, _, rfl, rfl⟩ := hh
          rfl
      exact this _ _ _ _ hr
    · decide

/-! ### The round indexer -/

theorem handUpdate_indexer {ev : EventType} {u : Update} {q : Int} {l : List Int} {ctx ctx1 : Ctx}
    {cs : List Cmd} (h : handUpdate ev u q l ctx = .ok (ctx1, cs)) : ctx1.indexer = ctx.indexer := by
  unfold handUpdate at h
  cases u with
  | add =>
    match l, h with
    | [], h => cases h
    | [x], h =>
      simp only [bind_ok, pure_ok, Prod.exists, Prod.mk.injEq] at h
      obtain ⟨_, _, ⟨rfl, rfl⟩, _, _, rfl, rfl⟩ := h
      rfl
    | _ :: _ :: _, h => cases h
  | _ =>
    simp only [bind_ok, pure_ok, Prod.exists, Prod.mk.injEq] at h
    obtain ⟨_, _, ⟨rfl, rfl⟩, _, _, rfl, rfl⟩ := h
    rfl

theorem forPlayers_indexer {body : Nat → Ctx → CmdGen} (hb : ∀ q c c' l, body q c = .ok (c', l) → c'.indexer = c.indexer)
    {ps : List Nat} {ctx ctx' : Ctx} {l : List Cmd} (h : forPlayers body ps ctx = .ok (ctx', l)) :
    ctx'.indexer = ctx.indexer := by
  induction ps generalizing ctx l with
  | nil => simp only [forPlayers, Except.ok.injEq, Prod.mk.injEq] at h; rw [h.1]
  | cons p ps ih =>
    simp only [forPlayers, bind_ok, pure_ok, Prod.exists, Prod.mk.injEq] at h
    obtain ⟨c1, l1, h1, c2, l2, h2, rfl, rfl⟩ := h
    rw [ih h2, hb _ _ _ _ h1]

theorem named_indexer {ctx ctx1 : Ctx} {e : Event} {l : List Cmd} (h : translateNamed ctx e = .ok (ctx1, l))
    (hgo : e.tag ≠ "GO".toList) : ctx1.indexer = ctx.indexer := by
  unfold translateNamed at h
  split at h
  · rename_i x heq
    have hm := List.mem_of_find?_eq_some heq
    have ht := List.find?_some heq
    simp only [decide_eq_true_eq] at ht
    simp only [nameMatch, List.mem_cons, List.not_mem_nil, or_false] at hm
    rcases hm with rfl | rfl | rfl | rfl | rfl | rfl | rfl | rfl | rfl | rfl | rfl
    · obtain ⟨_, _, _, _, _, _, _, _, _, _, _, _, _, _, _, _, _, _, _, _, _, _, _, _, _, _, _, _, _, _, hi, _⟩ := init_shape h
      exact hi
    · simp only [openHandCommand, bind_ok, pure_ok, Prod.exists, Prod.mk.injEq] at h
      obtain ⟨m, _, _, _, _, _, _, _, _, _, c, l, hh, rfl, rfl⟩ := h
      exact handUpdate_indexer hh
    · exact (hgo ht.symm).elim
    · simp only [taikyokuCommand, bind_ok, pure_ok, Prod.mk.injEq] at h
      obtain ⟨_, _, _, _, _, h1, rfl, rfl⟩ := h
      rfl
    · simp only [unCommand, bind_ok] at h
      obtain ⟨_, _, _, _, h1⟩ := h
      refine forPlayers_indexer (fun q c c' l hq => ?_) h1
      unfold unPlayer at hq
      split at hq
      · cases hq; rfl
      · split at hq
        · cases hq; rfl
        · simp only [bind_ok, pure_ok, Prod.mk.injEq] at hq
          obtain ⟨_, _, _, _, _, _, _, _, rfl, _⟩ := hq
          rfl
    · simp only [doraCommand, bind_ok, pure_ok, Prod.mk.injEq] at h
      obtain ⟨_, _, _, _, rfl, rfl⟩ := h
      rfl
    · simp only [reachCommand, bind_ok] at h
      obtain ⟨_, _, _, _, _, _, h1⟩ := h
      split at h1
      · cases h1; rfl
      · split at h1 <;> cases h1 <;> rfl
    · simp only [agariCommand, bind_ok, pure_ok, Prod.mk.injEq] at h
      obtain ⟨_, _, _, _, _, _, _, _, _, _, _, _, _, _, _, _, _, _, _, _, rest, hr, rfl, rfl⟩ := h
      rfl
    · simp only [shuffleCommand, bind_ok, pure_ok, Prod.mk.injEq] at h
      obtain ⟨_, _, rfl, rfl⟩ := h
      rfl
    · simp only [byeCommand, bind_ok, pure_ok, Prod.mk.injEq] at h
      obtain ⟨_, _, _, _, rfl, rfl⟩ := h
      rfl
    · simp only [ryuukyokuCommand, bind_ok, pure_ok, Prod.mk.injEq] at h
      obtain ⟨_, _, _, _, rest, h1, rfl, rfl⟩ := h
      rfl
  · cases h; rfl

theorem call_indexer {strict : Bool} {ctx ctx' : Ctx} {t : TEvent} {out : List Cmd}
    (h : callTranslator strict ctx t = .ok (ctx', out)) (hgo : t.ev.tag ≠ "GO".toList) : ctx'.indexer = ctx.indexer := by
  obtain ⟨ctx1, l, hg, _, _, hi⟩ := call_inv h
  rw [hi]
  unfold generate at hg
  simp only [bind_ok, Prod.exists] at hg
  obtain ⟨a, b, h1, hg⟩ := hg
  have e1 := named_indexer h1 hgo
  split at hg
  · simp only [pure_ok, Prod.mk.injEq] at hg; rw [← hg.1]; exact e1
  · simp only [bind_ok, Prod.exists] at hg
    obtain ⟨c, d, h2, hg⟩ := hg
    have e2 : c.indexer = a.indexer := by
      unfold drawCommand at h2
      split at h2
      · cases h2; rfl
      · exact handUpdate_indexer h2
    split at hg
    · simp only [pure_ok, Prod.mk.injEq] at hg; rw [← hg.1, e2, e1]
    · unfold discardCommand at hg
      split at hg
      · cases hg; rw [e2, e1]
      · simp only [bind_ok] at hg
        obtain ⟨_, _, hg⟩ := hg
        split at hg
        · cases hg
        · simp only [bind_ok, pure_ok, Prod.exists, Prod.mk.injEq] at hg
          obtain ⟨c', hand, hh, rfl, rfl⟩ := hg
          rw [handUpdate_indexer hh, e2, e1]

theorem all_indexer {strict : Bool} {ctx ctx' : Ctx} {ts : List TEvent} {out : List Cmd}
    (h : translateAll strict ctx ts = .ok (ctx', out)) (hgo : ∀ t ∈ ts, t.ev.tag ≠ "GO".toList) :
    ctx'.indexer = ctx.indexer := by
  induction ts generalizing ctx out with
  | nil => simp only [translateAll, Except.ok.injEq, Prod.mk.injEq] at h; rw [h.1]
  | cons t ts ih =>
    simp only [translateAll, bind_ok, pure_ok, Prod.exists, Prod.mk.injEq] at h
    obtain ⟨c1, l1, h1, c2, l2, h2, rfl, _⟩ := h
    rw [ih h2 (fun t ht => hgo t (by simp [ht])), call_indexer h1 (hgo t (by simp))]

end Verif.Proofs
