import Verif.Proofs.Regular2

/-! A regular record can always be converted: moves, deals, rounds and the whole record. -/
namespace Verif.Proofs
open Verif.Py Verif.Model Verif.Spec

/-! ### Moves -/

theorem keys_nodup (s : Sub) {names : List String} (h : (names.map (Verif.Model.view Scope.player)).Nodup) :
    (names.map (fun a => (s, Verif.Model.view Scope.player a))).Nodup := by
  have : names.map (fun a => (s, Verif.Model.view Scope.player a)) = (names.map (Verif.Model.view Scope.player)).map (fun v => (s, v)) := by
    rw [List.map_map]; rfl
  rw [this]
  exact h.map (fun a b e => by injection e)

theorem add_list {a : String} {k : PropKind} (hk : (Scope.player, a, k) ∈ kindTable) {s : IState} {p : Nat} {ev : EventType}
    {l r : List Val} (h : s.get (ofPlayer p a) = .list l) :
    ∃ x, newValue (pcmd ev p a .add (.list r)) (s.get ((pcmd ev p a .add (.list r)).sub, (pcmd ev p a .add (.list r)).prop)) = .ok x := by
  refine ⟨.list (l ++ r), ?_⟩
  rw [show ((pcmd ev p a .add (.list r)).sub, (pcmd ev p a .add (.list r)).prop) = ofPlayer p a from rfl, h, new_add hk]
  rfl

theorem remove_hand {ctx : Ctx} {p : Fin 4} {l ts : List Int} (hs : HandSim p ctx l) (hn : ts.Nodup) (hsub : ∀ t ∈ ts, t ∈ l)
    (ev : EventType) : ∃ x, newValue (pcmd ev p.val "hand" .remove (strs (ts.map tileName)))
      (ctx.vals.get ((pcmd ev p.val "hand" .remove (strs (ts.map tileName))).sub, (pcmd ev p.val "hand" .remove (strs (ts.map tileName))).prop)) = .ok x := by
  obtain ⟨hnd, _, names, hv, hp⟩ := hs
  have hps : names.Perm (ts.map tileName ++ (setSub l ts).map tileName) := by
    refine hp.trans ?_
    rw [← List.map_append]
    exact (perm_setSub hnd hn hsub).map tileName
  obtain ⟨r, e, _⟩ := removeAll_strs hps
  refine ⟨strs r, ?_⟩
  rw [show ((pcmd ev (p.val : Nat) "hand" .remove (strs (ts.map tileName))).sub, (pcmd ev (p.val : Nat) "hand" .remove (strs (ts.map tileName))).prop)
    = ofPlayer p.val "hand" from rfl, hv, new_remove_tiles (by decide +kernel)]
  exact e

theorem move_ok {n w : Nat} {ctx : Ctx} {m : Move} {t : TEvent} (hm : MoveAmong n m) (hs : TableSet n w ctx) (hb : Begun n ctx)
    (h2 : ∀ (q : Fin 4) (x : Nat), m = .discard q x → ∃ l, HandSim q ctx l ∧ (x : Int) ∈ l)
    (h3 : ∀ (q : Fin 4) (c : Nat), m = .meld q c → ∃ l, HandSim q ctx l ∧ ∀ t, IsOwnTile q c t → t ∈ l)
    (ht : t.ev = m.event) : ∃ ctx' out, callTranslator false ctx t = .ok (ctx', out) := by
  have hlist : ∀ (q : Fin 4), q.val < n → ∀ a ∈ moveNames, a ≠ "score" ∧ a ≠ "round" → ∃ l, ctx.vals.get (ofPlayer q.val a) = .list l :=
    fun q hq a ha hne => held_list hb hs.typed hq ha hne
  cases m with
  | deal s h more => exact absurd hm id
  | draw q x =>
    obtain ⟨hq, hx⟩ := hm
    have hg := gen_draw ctx q x hx
    rw [← ht] at hg
    refine call_ok hg (post_ready (by simp) ?_)
    simp only [List.mem_singleton, forall_eq]
    obtain ⟨l, hl⟩ := hlist q hq "hand" (by decide) (by decide)
    exact add_list (k := .tiles) (by decide +kernel) hl
  | discard q x =>
    obtain ⟨hq, hx⟩ := hm
    have hg := gen_discard ctx q x hx
    rw [← ht] at hg
    cases hr : ctx.right.lookup (q.val : Int) with
    | none => exact absurd hr (hb.right q.val hq)
    | some last =>
      rw [hr] at hg
      refine call_ok hg (post_ready ?_ ?_)
      · exact keys_nodup (.num (q.val : Int)) (names := ["round", "discard_from_hand", "hand", "discard_tiles"]) (by decide +kernel)
      · intro c hc
        simp only [discardCmds, List.mem_cons, List.not_mem_nil, or_false] at hc
        rcases hc with rfl | rfl | rfl | rfl
        · obtain ⟨y, hy⟩ := held_num hb hs.typed hq (a := "round") (.inr rfl)
          refine ⟨.num (y.add (.int 1)), ?_⟩
          rw [new_add (k := .index) (by decide +kernel)]
          show (ctx.vals.get (ofPlayer q.val "round")).add _ = _
          rw [hy]
          rfl
        · obtain ⟨l, hl⟩ := hlist q hq "discard_from_hand" (by decide) (by decide)
          exact add_list (k := .list) (by decide +kernel) hl
        · obtain ⟨l, hl, hin⟩ := h2 q x rfl
          exact remove_hand hl (ts := [(x : Int)]) (by simp) (by simpa using hin) .discard
        · obtain ⟨l, hl⟩ := hlist q hq "discard_tiles" (by decide) (by decide)
          exact add_list (k := .tiles) (by decide +kernel) hl
  | meld q c =>
    obtain ⟨hq, x, hx, hown, hbor⟩ := hm
    obtain ⟨l, hl, hin⟩ := h3 q c rfl
    have hall : ∀ t ∈ (x.selfTiles ++ x.borrowedTiles).eraseDups, IsTile t := by
      intro t ht
      rcases List.mem_append.1 (List.mem_eraseDups.1 ht) with h | h
      · exact hown t h
      · exact hbor t h
    have hg : generate ctx (Move.meld q c).event = .ok ({ ctx with right := putKey ctx.right (q.val : Int) none },
        meldCmds q x (x.selfTiles.map tileName) ((x.selfTiles ++ x.borrowedTiles).eraseDups.map tileName)) := by
      have hw : pyInt (natDigits q.val) = .ok (q.val : Int) := pyInt_natDigits _
      have hg : (Move.meld q c).event.get "who".toList = .ok (natDigits q.val) := rfl
      unfold generate
      simp only [named_n ctx (e := (Move.meld q c).event) rfl, openHandCommand, meldFrom_move, hx, hg, hw, tileNames_eq hown,
        tileNames_eq hall, handUpdate_remove _ _ _ _ hown, bind, Except.bind, pure, Except.pure]
      rfl
    rw [← ht] at hg
    have nd : x.selfTiles.Nodup := (List.nodup_append.1 (Verif.Props.C28_shape _ _ _ hx).1.distinct).1
    refine call_ok hg (post_ready ?_ ?_)
    · unfold meldCmds
      by_cases hk : x.cls ≠ .kita
      · rw [if_pos hk]
        exact keys_nodup (.num (q.val : Int)) (names := ["meld_public_tiles", "fixed_meld", "hand"]) (by decide +kernel)
      · rw [if_neg hk]
        exact keys_nodup (.num (q.val : Int)) (names := ["meld_public_tiles", "bonus_tiles", "hand"]) (by decide +kernel)
    · intro d hd
      simp only [meldCmds, List.mem_cons, List.not_mem_nil, or_false] at hd
      rcases hd with rfl | rfl | rfl
      · obtain ⟨l, hl⟩ := hlist q hq "meld_public_tiles" (by decide) (by decide)
        exact add_list (k := .tiles) (by decide +kernel) hl
      · split
        · obtain ⟨l, hl⟩ := hlist q hq "fixed_meld" (by decide) (by decide)
          exact add_list (k := .melds) (by decide +kernel) hl
        · obtain ⟨l, hl⟩ := hlist q hq "bonus_tiles" (by decide) (by decide)
          exact add_list (k := .tiles) (by decide +kernel) hl
      · exact remove_hand hl nd (fun t ht => hin t ⟨x, hx, ht⟩) .openHand
  | dora x =>
    have hx : x < 136 := hm
    have hT : IsTile (x : Int) := ⟨by omega, by omega⟩
    have hg : generate ctx (Move.dora x).event = .ok (ctx, [gcmd .newDora "dora_indicators" .add (strs [tileName x])]) := by
      have e : tileStrList (natDigits x) = .ok [tileName x] :=
        tileStrList_ok (l := [(x : Int)]) ⟨by simp, by simpa using hT, rfl⟩
      unfold generate
      simp only [named_dora ctx (e := (Move.dora x).event) rfl, doraCommand, get_dora, e, bind, Except.bind, pure, Except.pure]
      rfl
    rw [← ht] at hg
    refine call_ok hg (post_ready (by simp) ?_)
    simp only [List.mem_singleton, forall_eq]
    cases hl : ctx.vals.lookup (ofGame "dora_indicators") with
    | none => exact absurd hl hb.dora
    | some y =>
      have hk : HasKind (view .game "dora_indicators") .tiles := ⟨.game, "dora_indicators", by decide +kernel, rfl⟩
      obtain ⟨l, rfl⟩ := (hs.typed _ _ _ _ hk hl).1 rfl
      refine ⟨.list (l ++ [.str (tileName x)]), ?_⟩
      show callUpdate _ _ (ctx.vals.get (ofGame "dora_indicators")) _ = _
      rw [get_of_lookup hl]
      exact add_kind hk _ _
  | other e =>
    have : Aside n t.ev := by rw [ht]; exact hm.2
    exact aside_ok this hs hb

/-! ### Deals -/

theorem deal_more {seed : List Int} {hands : Fin 4 → List Int} {more : List (Str × Str)} {a : Str} {s : Str}
    (ha : a ≠ "seed".toList ∧ ∀ p, a ≠ haiName p) (h : more.lookup a = some s) :
    (Move.deal seed hands more).event.get a = .ok s := by
  rw [deal_get]
  unfold Event.get dealtAttrs
  have h0 := ha.2 0
  have h1 := ha.2 1
  have h2 := ha.2 2
  have h3 := ha.2 3
  simp only [haiName] at h0 h1 h2 h3
  simp only [List.cons_append, List.nil_append, lookup_cons_if]
  rw [if_neg ha.1, if_neg, if_neg, if_neg, if_neg, h]
  · exact h3
  · exact h2
  · exact h1
  · exact h0

theorem initPlayer_ok {e : Event} {ten : Str} {n : Nat} (h1 : e.get "ten".toList = .ok ten) (hl : ListsNumbers n ten) {p : Nat} (hp : p < n)
    {l : List Int} (h2 : e.get ("hai".toList ++ natDigits p) = .ok (commaList l)) (hne : l ≠ []) (hT : ∀ t ∈ l, IsTile t) (ctx : Ctx) :
    ∃ ctx' l, initPlayer e p ctx = .ok (ctx', l) ∧ Always l := by
  obtain ⟨scores, s1, s2⟩ := lists_numbers hl
  obtain ⟨score, s3, _⟩ := idx_ok (l := scores) (p := p) (by omega)
  refine ⟨{ ctx with right := putKey ctx.right (p : Int) none }, dealCmds p (l.map tileName) score, ?_, always_of ?_⟩
  · simp only [initPlayer, h1, s1, h2, intList_comma l hne, handUpdate, tileNames_eq hT, s3, bind, Except.bind, pure, Except.pure]
    rfl
  · intro c hc
    simp only [dealCmds, List.mem_cons, List.not_mem_nil, or_false] at hc
    rcases hc with rfl | rfl | rfl | rfl | rfl | rfl | rfl | rfl | rfl
    · exact settled_reset (k := .tiles) rfl (move_kinds "discard_tiles" (by decide)) (.inr rfl)
    · exact settled_reset (k := .melds) rfl (move_kinds "fixed_meld" (by decide)) (.inr rfl)
    · exact settled_reset (k := .tiles) rfl (move_kinds "meld_public_tiles" (by decide)) (.inr rfl)
    · exact settled_reset (k := .tiles) rfl (move_kinds "bonus_tiles" (by decide)) (.inr rfl)
    · exact settled_reset (k := .index) rfl (move_kinds "round" (by decide)) (.inl rfl)
    · exact settled_replace rfl
    · exact settled_reset (k := .list) rfl (move_kinds "discard_from_hand" (by decide)) (.inr rfl)
    · exact settled_replace rfl
    · exact settled_assert rfl

theorem mem_about {k : Sub × View} {l : List Cmd} {c : Cmd} (h : c ∈ about k l) : c ∈ l ∧ (c.sub, c.prop) = k := by
  unfold about at h
  rw [List.mem_filter] at h
  exact ⟨h.1, of_decide_eq_true h.2⟩

theorem hai_text : ∀ p : Fin 4, "hai".toList ++ natDigits p.val = haiName p := hai_name

theorem deal_ok {n w : Nat} {ctx : Ctx} {t : TEvent} (hs : TableSet n w ctx) (hn4 : n ≤ 4) {seed : List Int} {hands : Fin 4 → List Int}
    {more : List (Str × Str)} {number : Nat} {others : List Int} {indicator : Int}
    (hseed : seed = (number : Int) :: others ++ [indicator]) (h2 : 2 ≤ others.length) (hn : number < 4 * (w + 1)) (hi : IsTile indicator)
    {oya : Nat} (ho : more.lookup "oya".toList = some (natDigits oya)) {ten : Str} (hten : more.lookup "ten".toList = some ten)
    (hl : ListsNumbers n ten) (hh : ∀ p : Fin 4, p.val < n → hands p ≠ [] ∧ ∀ t ∈ hands p, IsTile t)
    (ht : t.ev = (Move.deal seed hands more).event) :
    ∃ ctx' out, callTranslator false ctx t = .ok (ctx', out) ∧ Begun n ctx' := by
  obtain ⟨a, b, others, rfl⟩ : ∃ a b r, others = a :: b :: r := by
    match others, h2 with
    | a :: b :: r, _ => exact ⟨a, b, r, rfl⟩
  have hoya : t.ev.get "oya".toList = .ok (natDigits oya) := by
    rw [ht]; exact deal_more ⟨by decide, by decide⟩ ho
  have hte : t.ev.get "ten".toList = .ok ten := by
    rw [ht]; exact deal_more ⟨by decide, by decide⟩ hten
  obtain ⟨ix, x1, x2⟩ := hs.index
  obtain ⟨ix', y1, y2⟩ := Verif.Props.winds_category w (number / 4) (number % 4) (by omega)
  rw [x1] at y1
  cases y1
  have hnum : (4 * ((number / 4 : Nat) : Int) + ((number % 4 : Nat) : Int)) = (number : Int) := by omega
  rw [hnum, if_pos (by omega)] at y2
  obtain ⟨dealers, d1, d2⟩ := setOya_ok hs.count oya
  obtain ⟨c2, rest, r1, r2⟩ := forPlayers_ok (body := initPlayer t.ev) (ps := List.range n) (fun p hp c => by
    have hp := List.mem_range.1 hp
    have hf := hh ⟨p, by omega⟩ hp
    refine initPlayer_ok hte hl hp (l := hands ⟨p, by omega⟩) ?_ hf.1 hf.2 c
    rw [hai_text ⟨p, by omega⟩, ht]
    exact get_hai _ _ _ _) ctx
  have hg : initCommand ctx t.ev = .ok (c2, [gcmd .gameInit "wind" .replace (.num (.int (number / 4 : Nat))),
      gcmd .gameInit "round" .replace (.num (.int (number % 4 : Nat))), gcmd .gameInit "sub_round" .replace (.num (.int a)),
      gcmd .gameInit "richii_remain_scores" .replace (.num ((Num.int b).times 1000))] ++ dealers ++
      [gcmd .newDora "dora_indicators" .replace (strs [tileName indicator])] ++ rest) := by
    have hsd : t.ev.get "seed".toList = .ok (commaList ((number : Int) :: a :: b :: others ++ [indicator])) := by
      rw [ht, get_seed, hseed]
    have e0 : pyIdx (List.map Num.int ((number : Int) :: a :: b :: others ++ [indicator])) 0 = .ok (.int number) := rfl
    have e1 : pyIdx (List.map Num.int ((number : Int) :: a :: b :: others ++ [indicator])) 1 = .ok (.int a) := rfl
    have e2 : pyIdx (List.map Num.int ((number : Int) :: a :: b :: others ++ [indicator])) 2 = .ok (.int b) := rfl
    have e3 : pyIdx (List.map Num.int ((number : Int) :: a :: b :: others ++ [indicator])) (-1) = .ok (.int indicator) := by
      unfold pyIdx
      rw [if_neg (by omega), if_pos (by simp; omega)]
      have : (-1 + ((List.map Num.int ((number : Int) :: a :: b :: others ++ [indicator])).length : Int)).toNat =
          (others.length + 3) := by simp; omega
      rw [this]
      simp
    have e4 : tileNames [indicator] = .ok [tileName indicator] := tileNames_eq (by simpa using hi)
    unfold initCommand
    simp only [hsd, numberList_comma _ (List.cons_ne_nil _ _), x2, e0, e1, e2, e3, Num.toInt, y2, twoOf, hoya, pyInt_natDigits, d1, e4,
      hs.count, r1, bind, Except.bind, pure, Except.pure, List.cons_append]
    rw [show (number : Int) :: a :: b :: (others ++ [indicator]) = (number : Int) :: a :: b :: others ++ [indicator] from rfl]
    simp only [e0, e1, e2, e3, y2, e4, d1, r1]
  have hA : Always ([gcmd .gameInit "wind" .replace (.num (.int (number / 4 : Nat))),
      gcmd .gameInit "round" .replace (.num (.int (number % 4 : Nat))), gcmd .gameInit "sub_round" .replace (.num (.int a)),
      gcmd .gameInit "richii_remain_scores" .replace (.num ((Num.int b).times 1000))] ++ dealers ++
      [gcmd .newDora "dora_indicators" .replace (strs [tileName indicator])] ++ rest) := by
    refine always_append (always_append (always_append (always_of ?_) d2) (always_one (settled_replace rfl))) r2
    intro c hc
    simp only [List.mem_cons, List.not_mem_nil, or_false] at hc
    rcases hc with rfl | rfl | rfl | rfl <;> exact settled_replace rfl
  have hgen : generate ctx t.ev = _ := (gen_init (by rw [ht]; rfl)).trans hg
  obtain ⟨ctx', out, hcall⟩ := call_ok hgen (hA _ _)
  refine ⟨ctx', out, hcall, ?_⟩
  obtain ⟨c1, l1, g1, g2, g3, _⟩ := call_inv hcall
  rw [hgen] at g1
  cases g1
  obtain ⟨m, i1, _, i3, i4⟩ := init_inv hg
  rw [hs.count] at i1
  cases i1
  have hpres := (post_present g2).2
  refine ⟨?_, ?_, ?_⟩
  · intro p hp a ha
    obtain ⟨_, names, _, score, _, _, _, _, _, _, _, _, k⟩ := i4 p hp
    have hb : a ∈ propertyNames .player ∧ a ≠ "is_dealer" := by
      revert a; decide +kernel
    have hne : ∃ c, c ∈ about (ofPlayer p a) (dealCmds p names score) := by
      have hin : ∃ c ∈ dealCmds p names score, (c.sub, c.prop) = ofPlayer p a := by
        simp only [moveNames, List.mem_cons, List.not_mem_nil, or_false] at ha
        rcases ha with rfl | rfl | rfl | rfl | rfl | rfl | rfl | rfl
        · exact ⟨_, List.mem_of_getElem? (i := 7) rfl, rfl⟩
        · exact ⟨_, List.mem_of_getElem? (i := 4) rfl, rfl⟩
        · exact ⟨_, List.mem_of_getElem? (i := 6) rfl, rfl⟩
        · exact ⟨_, List.mem_of_getElem? (i := 0) rfl, rfl⟩
        · exact ⟨_, List.mem_of_getElem? (i := 2) rfl, rfl⟩
        · exact ⟨_, List.mem_of_getElem? (i := 1) rfl, rfl⟩
        · exact ⟨_, List.mem_of_getElem? (i := 3) rfl, rfl⟩
        · exact ⟨_, List.mem_of_getElem? (i := 8) rfl, rfl⟩
      obtain ⟨c, hc, he⟩ := hin
      exact ⟨c, by unfold about; rw [List.mem_filter]; exact ⟨hc, decide_eq_true he⟩⟩
    obtain ⟨c, hc⟩ := hne
    rw [← k a hb.1 hb.2] at hc
    obtain ⟨q1, q2⟩ := mem_about hc
    rw [← q2]
    exact hpres c q1
  · have := hpres (gcmd .newDora "dora_indicators" .replace (strs [tileName indicator])) (by simp)
    exact this
  · intro p hp
    rw [g3, i3, if_pos ⟨p, List.mem_range.2 hp, rfl⟩]
    simp

/-! ### Rounds -/

/-- going on with events one by one -/
theorem all_ok {P : Ctx → Prop} {ts : List TEvent} {ctx : Ctx} (h0 : P ctx)
    (h : ∀ t ∈ ts, ∀ c, P c → ∃ c' out, callTranslator false c t = .ok (c', out) ∧ P c') :
    ∃ ctx' out, translateAll false ctx ts = .ok (ctx', out) ∧ P ctx' := by
  induction ts generalizing ctx with
  | nil => exact ⟨ctx, [], rfl, h0⟩
  | cons t ts ih =>
    obtain ⟨c1, o1, h1, p1⟩ := h t (by simp) ctx h0
    obtain ⟨c2, o2, h2, p2⟩ := ih p1 (fun x hx => h x (by simp [hx]))
    exact ⟨c2, o1 ++ o2, by simp only [translateAll, h1, h2, bind, Except.bind, pure, Except.pure], p2⟩

theorem among_legal {n : Nat} {m : Move} (h : MoveAmong n m) : LegalMove m ∧ m.isDeal = false ∧ MoveTiles m := by
  cases m with
  | deal _ _ _ => exact absurd h id
  | draw q t => exact ⟨trivial, rfl, h.2⟩
  | discard q t => exact ⟨trivial, rfl, h.2⟩
  | meld q c => exact ⟨⟨_, h.2.choose_spec.1⟩, rfl, trivial⟩
  | dora t => exact ⟨trivial, rfl, trivial⟩
  | other e => exact ⟨h.1, rfl, trivial⟩

theorem harmless_tag {e : Event} (h : Harmless e) : e.tag ≠ "GO".toList ∧ e.tag ≠ "AGARI".toList := by
  cases h with
  | unknown h => exact ⟨h.1 "GO" (by simp), h.1 "AGARI" (by simp)⟩
  | shuffle h _ _ => rw [h]; decide
  | players h _ _ _ => rw [h]; decide
  | bye h _ _ _ => rw [h]; decide

theorem atTable_tag {e : Event} (h : AtTable e) : e.tag ≠ "GO".toList ∧ e.tag ≠ "AGARI".toList := by
  cases h with
  | harmless h => exact harmless_tag h
  | start h _ _ => rw [h]; decide

theorem aside_tag {n : Nat} {e : Event} (h : Aside n e) : e.tag ≠ "GO".toList ∧ e.tag ≠ "AGARI".toList := by
  cases h with
  | atTable h => exact atTable_tag h
  | riichi h _ _ _ _ _ => rw [h]; decide

theorem ends_tag {n : Nat} {e : Event} (h : Ends n e) : e.tag ≠ "GO".toList := by
  cases h with
  | win h => rw [h]; decide
  | drawn h => rw [h]; decide

theorem letter_go : ∀ q : Fin 4, drawLetter q ≠ 'G' := by decide

theorem move_tag {n : Nat} {m : Move} (h : MoveAmong n m) : m.event.tag ≠ "GO".toList := by
  cases m with
  | deal _ _ _ => exact absurd h id
  | draw q t =>
    intro e
    injection e with e1 _
    exact letter_go q e1
  | discard q t =>
    intro e
    have e2 : natDigits t = ['O'] := (List.cons.inj (show discardLetter q :: natDigits t = 'G' :: ['O'] from e)).2
    have := natDigits_all t 'O' (by rw [e2]; simp)
    revert this
    decide
  | meld q c => exact (show "N".toList ≠ "GO".toList by decide)
  | dora t => exact (show "DORA".toList ≠ "GO".toList by decide)
  | other e => exact (aside_tag h.2).1

theorem moves_ok {n w : Nat} (hn4 : n ≤ 4) {seed : List Int} {hands : Fin 4 → List Int} {more : List (Str × Str)} {t : TEvent}
    (hseat : Seated t.ev) {ctx ctx1 : Ctx} {out1 : List Cmd} (hs0 : TableSet n w ctx)
    (hcall : callTranslator false ctx t = .ok (ctx1, out1)) (hb : Begun n ctx1) (ht : t.ev = (Move.deal seed hands more).event)
    (hseed : seed ≠ []) (ms : List Move)
    (hh : ∀ p : Fin 4, p.val < n → hands p ≠ [] ∧ (hands p).Nodup ∧ (∀ t ∈ hands p, IsTile t) ∧ Consistent p (.deal seed hands more :: ms))
    (hm : ∀ m ∈ ms, MoveAmong n m) : ∀ ts : List TEvent, ts.map TEvent.ev = ms.map Move.event → (∀ x ∈ ts, Seated x.ev) →
    ∃ ctx' out, translateAll false ctx (t :: ts) = .ok (ctx', out) ∧ TableSet n w ctx' ∧ Begun n ctx' := by
  induction ms using List.reverseRecOn with
  | nil =>
    intro ts hts _
    simp only [List.map_nil, List.map_eq_nil_iff] at hts
    subst hts
    exact ⟨ctx1, out1, all_one hcall, hs0.step hseat (by rw [ht]; exact (show "INIT".toList ≠ "GO".toList by decide)) hcall, hb⟩
  | append_singleton ms m ih =>
    intro ts hts hseats
    rcases List.eq_nil_or_concat ts with rfl | ⟨ts, x, rfl⟩
    · simp at hts
    rw [List.concat_eq_append] at hts hseats ⊢
    rw [List.map_append, List.map_append] at hts
    have ht1 := List.append_inj_left' hts (by simp)
    have ht2 := List.append_inj_right' hts (by simp)
    simp only [List.map_cons, List.map_nil, List.cons.injEq, and_true] at ht2
    have hcons : ∀ p : Fin 4, p.val < n → Consistent p (.deal seed hands more :: ms) := by
      intro p hp pre y post he
      exact (hh p hp).2.2.2 pre y (post ++ [m]) (by rw [← List.cons_append, he]; simp)
    obtain ⟨c2, o2, h2, s2, b2⟩ := ih (fun p hp => ⟨(hh p hp).1, (hh p hp).2.1, (hh p hp).2.2.1, hcons p hp⟩)
      (fun y hy => hm y (by simp [hy])) ts ht1 (fun y hy => hseats y (by simp [hy]))
    have hmm := hm m (by simp)
    -- the hands so far
    have sim : ∀ q : Fin 4, q.val < n → ∃ l, HandSim q c2 l ∧ ∀ x, Held q x (.deal seed hands more :: ms) → x ∈ l := by
      intro q hq
      obtain ⟨f1, f2, f3, _⟩ := hh q hq
      have hlf : ∀ y ∈ Move.deal seed hands more :: ms, LegalFor q y := by
        intro y hy
        rcases List.mem_cons.1 hy with rfl | hy
        · exact ⟨hseed, fun _ _ _ e => by cases e; exact f1⟩
        · have := among_legal (hm y (by simp [hy]))
          exact legalFor_of_play q this.1 this.2.1
      obtain ⟨l', a1, a2, _⟩ := hands_sim [] hs0.count hq f2 f3 hlf
        (fun y hy => (among_legal (hm y (by simp [hy]))).2.1) (fun y hy => (among_legal (hm y (by simp [hy]))).2.2)
        (fun e he => (aside_tag (hm (.other e) (by simp [he])).2).2) (hcons q hq)
        (by rw [List.map_cons, List.map_cons, ht, ht1]) h2
      obtain ⟨l1', b1, b2, _⟩ := scan_hands q [] _ hlf
      rw [b1] at a1
      cases a1
      exact ⟨l', a2, fun x hx => (b2 x).2 (.inl hx)⟩
    have hcm : ∀ q : Fin 4, q.val < n → _ := fun q hq => (hh q hq).2.2.2 (Move.deal seed hands more :: ms) m [] (by simp)
    obtain ⟨c3, o3, h3⟩ := move_ok (t := x) hmm s2 b2
      (by
        rintro q y rfl
        have hq : q.val < n := hmm.1
        obtain ⟨l, l1, l2⟩ := sim q hq
        exact ⟨l, l1, l2 _ ((hcm q hq).2.1 y rfl)⟩)
      (by
        rintro q c rfl
        have hq : q.val < n := hmm.1
        obtain ⟨l, l1, l2⟩ := sim q hq
        exact ⟨l, l1, fun t ht => l2 _ ((hcm q hq).2.2 c t rfl ht)⟩) ht2
    refine ⟨c3, o2 ++ o3, ?_, s2.step (hseats x (by simp)) (by rw [ht2]; exact move_tag hmm) h3, b2.step h3⟩
    rw [← List.cons_append, translateAll_append]
    exact ⟨c2, o2, o3, h2, all_one h3, rfl⟩

theorem round_ok {n w : Nat} (hn4 : n ≤ 4) {es : List Event} (hr : Round n w es) {ts : List TEvent} (hts : ts.map TEvent.ev = es)
    (hseats : ∀ x ∈ ts, Seated x.ev) {ctx : Ctx} (hs : TableSet n w ctx) :
    ∃ ctx' out, translateAll false ctx ts = .ok (ctx', out) ∧ TableSet n w ctx' := by
  cases hr with
  | mk seed hands more ms tail number others indicator hsd h2 hn hi oya ho ten hten hl hh hm he =>
    obtain ⟨a, b, rfl, ha, hbt⟩ := List.map_eq_append_iff.1 hts
    cases a with
    | nil => simp at ha
    | cons t a =>
      simp only [List.map_cons, List.cons.injEq] at ha
      obtain ⟨c1, o1, h1, b1⟩ := deal_ok hs hn4 hsd h2 hn hi ho hten hl (fun p hp => ⟨(hh p hp).1, (hh p hp).2.2.1⟩) ha.1
      obtain ⟨c2, o2, k1, k2, k3⟩ := moves_ok hn4 (hseats t (by simp)) hs h1 b1 ha.1 (by rw [hsd]; simp) ms hh hm a ha.2
        (fun x hx => hseats x (by simp [hx]))
      obtain ⟨c3, o3, j1, j2⟩ := all_ok (P := fun c => TableSet n w c ∧ Begun n c) (ts := b) ⟨k2, k3⟩ (by
        rintro x hx c ⟨p1, p2⟩
        have hx' : x.ev ∈ tail := by rw [← hbt]; exact List.mem_map_of_mem hx
        have hsx := hseats x (by simp [hx])
        rcases he _ hx' with h | h
        · obtain ⟨c', o, hc⟩ := ends_ok h p1
          exact ⟨c', o, hc, p1.step hsx (ends_tag h) hc, p2.step hc⟩
        · obtain ⟨c', o, hc⟩ := aside_ok h p1 p2
          exact ⟨c', o, hc, p1.step hsx (aside_tag h).1 hc, p2.step hc⟩)
      exact ⟨c3, o2 ++ o3, translateAll_append.2 ⟨c2, o2, o3, k1, j1, rfl⟩, j2.1⟩

theorem rounds_ok {n w : Nat} (hn4 : n ≤ 4) {rs : List (List Event)} (hr : ∀ r ∈ rs, Round n w r) : ∀ {ts : List TEvent},
    ts.map TEvent.ev = rs.flatten → (∀ x ∈ ts, Seated x.ev) → ∀ {ctx : Ctx}, TableSet n w ctx →
    ∃ ctx' out, translateAll false ctx ts = .ok (ctx', out) := by
  induction rs with
  | nil =>
    intro ts hts _ ctx _
    simp only [List.flatten_nil, List.map_eq_nil_iff] at hts
    subst hts
    exact ⟨ctx, [], rfl⟩
  | cons r rs ih =>
    intro ts hts hseats ctx hs
    rw [List.flatten_cons] at hts
    obtain ⟨a, b, rfl, ha, hb⟩ := List.map_eq_append_iff.1 hts
    obtain ⟨c1, o1, h1, s1⟩ := round_ok hn4 (hr r (by simp)) ha (fun x hx => hseats x (by simp [hx])) hs
    obtain ⟨c2, o2, h2⟩ := ih (fun x hx => hr x (by simp [hx])) hb (fun x hx => hseats x (by simp [hx])) s1
    exact ⟨c2, o1 ++ o2, translateAll_append.2 ⟨c1, o1, o2, h1, h2, rfl⟩⟩

theorem bit_players (v : Nat) : (if Verif.Props.bitSet v 4 then 3 else 4) = playersOf v := by
  unfold Verif.Props.bitSet playersOf
  by_cases h : v / 16 % 2 = 1
  · rw [if_pos h, if_pos]
    simp only [decide_eq_true_eq]
    omega
  · rw [if_neg h, if_neg]
    simp only [decide_eq_true_eq]
    omega

theorem bit_winds (v : Nat) : (if Verif.Props.bitSet v 3 then 2 else 1) = (windsOf v : Int) := by
  unfold Verif.Props.bitSet windsOf
  by_cases h : v / 8 % 2 = 1
  · rw [if_pos h, if_pos]
    · rfl
    · simp only [decide_eq_true_eq]
      omega
  · rw [if_neg h, if_neg]
    · rfl
    · simp only [decide_eq_true_eq]
      omega

theorem players_le (v : Nat) : playersOf v ≤ 4 := by unfold playersOf; split <;> omega

theorem regular_ok {ts : List TEvent} (h : Regular (ts.map TEvent.ev)) : ∃ ctx' out, translateAll false {} ts = .ok (ctx', out) := by
  obtain ⟨before, go, header, rounds, v, hev, hseat, hbef, ⟨hgo, hv, htype⟩, hhead, hrounds⟩ := h
  have hseat' : ∀ x ∈ ts, Seated x.ev := fun x hx => hseat _ (List.mem_map_of_mem hx)
  obtain ⟨a, e3, rfl, ha, h3⟩ := List.map_eq_append_iff.1 hev
  obtain ⟨e1, b, rfl, h1, hb⟩ := List.map_eq_append_iff.1 ha
  cases b with
  | nil => simp at hb
  | cons g e2 =>
    simp only [List.map_cons, List.cons.injEq] at hb
    obtain ⟨c1, o1, k1, k2, k3⟩ := all_ok (P := fun c => Sound c.vals ∧ Typed c.vals) (ts := e1) (ctx := {}) ⟨sound_nil, typed_nil⟩ (by
      rintro x hx c ⟨p1, p2⟩
      obtain ⟨c', o, hc⟩ := harmless_ok (t := x) (hbef _ (by rw [← h1]; exact List.mem_map_of_mem hx)) c
      exact ⟨c', o, hc, call_typed p1 p2 (hseat' x (by simp [hx])) hc⟩)
    have hg : g.ev.tag = "GO".toList := by rw [hb.1]; exact hgo
    have hgt : g.ev.get "type".toList = .ok (natDigits v) := by rw [hb.1]; exact htype
    obtain ⟨c2, o2, k4, _⟩ := Verif.Props.C84_go false c1 g hg v hv hgt
    obtain ⟨j1, j2, j3, j4⟩ := Verif.Props.go_context (all_one k4) hg hv hgt (by simp)
    have hset : TableSet (playersOf v) (windsOf v) c2 := by
      obtain ⟨s1, s2⟩ := call_typed k2 k3 (hseat' g (by simp)) k4
      refine ⟨?_, ⟨j2, ?_, j4⟩, s1, s2⟩
      · rw [j1]; congr 1; exact bit_players v
      · rw [← bit_winds v]; exact j3
    obtain ⟨c3, o3, k5, k6⟩ := all_ok (P := TableSet (playersOf v) (windsOf v)) (ts := e2) hset (by
      intro x hx c p
      have hx' := hhead x.ev (by rw [← hb.2]; exact List.mem_map_of_mem hx)
      obtain ⟨c', o, hc⟩ := atTable_ok (t := x) hx' p.count
      exact ⟨c', o, hc, p.step (hseat' x (by simp [hx])) (atTable_tag hx').1 hc⟩)
    obtain ⟨c4, o4, k7⟩ := rounds_ok (players_le v) hrounds h3 (fun x hx => hseat' x (by simp [hx])) k6
    refine ⟨c4, o1 ++ (o2 ++ o3) ++ o4, translateAll_append.2 ⟨c3, _, o4, translateAll_append.2 ⟨c1, o1, _, k1, ?_, rfl⟩, k7, rfl⟩⟩
    simp only [translateAll, k4, k5, bind, Except.bind, pure, Except.pure]

end Verif.Proofs
