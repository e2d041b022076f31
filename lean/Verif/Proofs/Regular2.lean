import Verif.Proofs.Regular
import Verif.Proofs.StateCsv

/-! A regular record can always be converted: its elements one by one. -/
namespace Verif.Proofs
open Verif.Py Verif.Model Verif.Spec

theorem lists_numbers {k : Nat} {s : Str} (h : ListsNumbers k s) : ∃ l, numberList s = .ok l ∧ k ≤ l.length := by
  obtain ⟨ts, qs, hne, hc, hf, hk, rfl⟩ := h
  obtain ⟨l, h1, h2⟩ := (Verif.Props.C86_list ts hne hc qs).2 hf
  refine ⟨l, h1, ?_⟩
  have a := congrArg List.length h2
  have b := hf.length_eq
  rw [List.length_map] at a
  omega

theorem idx_ok {α : Type} {l : List α} {p : Nat} (h : p < l.length) : ∃ a, pyIdx l (p : Int) = .ok a ∧ a ∈ l :=
  ⟨_, pyIdx_nat l p h, List.getElem_mem h⟩

theorem mapM_some {α β : Type} {f : α → Except PyErr β} {l : List α} (h : ∀ a ∈ l, ∃ b, f a = .ok b) :
    ∃ r, l.mapM f = .ok r := by
  induction l with
  | nil => exact ⟨[], rfl⟩
  | cons a l ih =>
    obtain ⟨b, hb⟩ := h a (by simp)
    obtain ⟨r, hr⟩ := ih (fun x hx => h x (by simp [hx]))
    refine ⟨b :: r, ?_⟩
    rw [List.mapM_cons, hb]
    simp only [bind, Except.bind, pure, Except.pure, hr]

/-- the elements of these names are no draws and no discards -/
theorem quiet_named {e : Event} {s : String} (h : e.tag = s.toList)
    (hs : s ∈ ["SHUFFLE", "UN", "BYE", "TAIKYOKU", "REACH", "AGARI", "RYUUKYOKU", "GO"]) : Quiet e := by
  simp only [List.mem_cons, List.not_mem_nil, or_false] at hs
  rcases hs with rfl | rfl | rfl | rfl | rfl | rfl | rfl | rfl <;>
  · refine ⟨by rw [h]; decide, by rw [h]; decide, by rw [h]; decide, ?_⟩
    intro c d r hx hc
    rw [h] at hx
    simp at hx
    obtain ⟨rfl, rfl, _⟩ := hx
    revert hc
    decide

theorem gen_byname {ctx : Ctx} {e : Event} {s : String} (h : e.tag = s.toList)
    (hs : s ∈ ["SHUFFLE", "UN", "BYE", "TAIKYOKU", "REACH", "AGARI", "RYUUKYOKU", "GO"]) {f : Ctx → Event → CmdGen}
    (hf : nameMatch.find? (fun h => decide (h.1.toList = s.toList)) = some (s, f)) : generate ctx e = f ctx e := by
  rw [gen_quiet (quiet_named h hs)]
  unfold translateNamed
  rw [h, hf]

theorem gen_shuffle {ctx : Ctx} {e : Event} (h : e.tag = "SHUFFLE".toList) : generate ctx e = shuffleCommand ctx e :=
  gen_byname h (by simp) rfl
theorem gen_un {ctx : Ctx} {e : Event} (h : e.tag = "UN".toList) : generate ctx e = unCommand ctx e := gen_byname h (by simp) rfl
theorem gen_bye {ctx : Ctx} {e : Event} (h : e.tag = "BYE".toList) : generate ctx e = byeCommand ctx e :=
  gen_byname h (by simp) rfl
theorem gen_taikyoku {ctx : Ctx} {e : Event} (h : e.tag = "TAIKYOKU".toList) : generate ctx e = taikyokuCommand ctx e :=
  gen_byname h (by simp) rfl
theorem gen_reach {ctx : Ctx} {e : Event} (h : e.tag = "REACH".toList) : generate ctx e = reachCommand ctx e :=
  gen_byname h (by simp) rfl
theorem gen_agari {ctx : Ctx} {e : Event} (h : e.tag = "AGARI".toList) : generate ctx e = agariCommand ctx e :=
  gen_byname h (by simp) rfl
theorem gen_ryuukyoku {ctx : Ctx} {e : Event} (h : e.tag = "RYUUKYOKU".toList) :
    generate ctx e = ryuukyokuCommand ctx e := gen_byname h (by simp) rfl

theorem forPlayers_ok {body : Nat → Ctx → CmdGen} {ps : List Nat}
    (h : ∀ p ∈ ps, ∀ ctx, ∃ ctx' l, body p ctx = .ok (ctx', l) ∧ Always l) (ctx : Ctx) :
    ∃ ctx' l, forPlayers body ps ctx = .ok (ctx', l) ∧ Always l := by
  induction ps generalizing ctx with
  | nil => exact ⟨ctx, [], rfl, always_nil⟩
  | cons p ps ih =>
    obtain ⟨c1, l1, h1, a1⟩ := h p (by simp) ctx
    obtain ⟨c2, l2, h2, a2⟩ := ih (fun q hq => h q (by simp [hq])) c1
    refine ⟨c2, l1 ++ l2, ?_, always_append a1 a2⟩
    simp only [forPlayers, h1, h2, bind, Except.bind, pure, Except.pure]

/-! ### Elements that may stand anywhere -/

theorem rank_ok {d : Int} (h : 0 ≤ d ∧ d ≤ 20) : ∃ s, pyIdx RANKS d = .ok s := by
  have : d.toNat < RANKS.length := by rw [show RANKS.length = 21 from rfl]; omega
  obtain ⟨s, hs, _⟩ := idx_ok this
  refine ⟨s, ?_⟩
  rw [← hs]; congr 1; omega

theorem unPlayer_ok {e : Event} {dan rate : List Num} {sex : List Str} (hd : 4 ≤ dan.length) (hr : 4 ≤ rate.length)
    (hx : 4 ≤ sex.length)
    (hlv : ∀ s, e.attrib.lookup "dan".toList = some s → ∀ d ∈ dan, ∃ i, d = .int i ∧ 0 ≤ i ∧ i ≤ 20) {p : Nat} (hp : p < 4)
    (ctx : Ctx) : ∃ ctx' l, unPlayer e dan rate sex p ctx = .ok (ctx', l) ∧ Always l := by
  unfold unPlayer
  split
  · exact ⟨_, _, rfl, always_nil⟩
  · rename_i name hname
    split
    · exact ⟨_, _, rfl, always_nil⟩
    · obtain ⟨lv, h1, m1⟩ := idx_ok (l := dan) (p := p) (by omega)
      obtain ⟨r, h2, _⟩ := idx_ok (l := rate) (p := p) (by omega)
      obtain ⟨sx, h3, _⟩ := idx_ok (l := sex) (p := p) (by omega)
      have h4 : ∃ levels, levelCmds e p lv = .ok levels ∧ Always levels := by
        unfold levelCmds
        cases hl : e.attrib.lookup "dan".toList with
        | none => exact ⟨[], rfl, always_nil⟩
        | some s =>
          obtain ⟨i, rfl, hi⟩ := hlv s hl lv m1
          obtain ⟨s', hs'⟩ := rank_ok hi
          refine ⟨[pcmd .recordInit p "level" .replace (.str s'.toList)], ?_, always_one (settled_replace rfl)⟩
          simp only [Num.toInt, hs', bind, Except.bind, pure, Except.pure]
      obtain ⟨levels, h4, a4⟩ := h4
      refine ⟨ctx, [pcmd .connectChange p "disconnected" .replace (.bool false),
          pcmd .recordInit p "name" .assertEqualOrSet (.str (unquote name))] ++ levels ++ rateCmds e p r, ?_, ?_⟩
      · simp only [h1, h2, h3, h4, bind, Except.bind, pure, Except.pure]
      · refine always_append (always_append (always_append (a := [_]) (b := [_]) (always_one (settled_replace rfl))
          (always_one (settled_assert rfl))) a4) ?_
        unfold rateCmds
        split
        · exact always_nil
        · exact always_one (settled_replace rfl)

theorem default_list : numberList "-127,-127,-127,-127".toList = .ok [.int (-127), .int (-127), .int (-127), .int (-127)] := by
  decide +kernel
theorem default_sex : (splitOn ',' "-127,-127,-127,-127".toList).length = 4 := by decide +kernel

theorem harmless_ok {t : TEvent} (h : Harmless t.ev) (ctx : Ctx) : ∃ ctx' out, callTranslator false ctx t = .ok (ctx', out) := by
  have fin : ∀ {f : Ctx → Event → CmdGen}, generate ctx t.ev = f ctx t.ev →
      (∃ ctx1 l, f ctx t.ev = .ok (ctx1, l) ∧ Always l) → ∃ ctx' out, callTranslator false ctx t = .ok (ctx', out) := by
    rintro f hg ⟨ctx1, l, h1, ha⟩
    exact call_ok (hg.trans h1) (ha _ _)
  cases h with
  | unknown h => exact call_ok (unknown_gen h) ⟨_, _, rfl⟩
  | shuffle h seed hs =>
    refine fin (gen_shuffle h) ⟨ctx, [rcmd .recordInit "seed" .replace (.str seed)], ?_, always_one (settled_replace rfl)⟩
    simp only [shuffleCommand, hs, bind, Except.bind, pure, Except.pure]
  | bye h p hp hw =>
    obtain ⟨w, h1, h2⟩ := hw
    refine fin (gen_bye h) ⟨ctx, [pcmd .connectChange p "disconnected" .replace (.bool true)], ?_, always_one (settled_replace rfl)⟩
    simp only [byeCommand, h1, h2, bind, Except.bind, pure, Except.pure]
  | players h dan rate sx =>
    refine fin (gen_un h) ?_
    have hd : ∃ l, numberList (getListAttr "dan".toList t.ev) = .ok l ∧ 4 ≤ l.length ∧
        ∀ s, t.ev.attrib.lookup "dan".toList = some s → ∀ d ∈ l, ∃ i, d = .int i ∧ 0 ≤ i ∧ i ≤ 20 := by
      unfold getListAttr
      cases hl : t.ev.attrib.lookup "dan".toList with
      | none => exact ⟨_, default_list, by simp, by simp⟩
      | some s =>
        obtain ⟨l, h4, hr, rfl⟩ := dan s hl
        refine ⟨_, numberList_comma l (by intro x; simp [x] at h4), by simpa using h4, ?_⟩
        intro _ _ d hd
        obtain ⟨i, hi, rfl⟩ := List.mem_map.1 hd
        exact ⟨i, rfl, hr i hi⟩
    have hr : ∃ l, numberList (getListAttr "rate".toList t.ev) = .ok l ∧ 4 ≤ l.length := by
      unfold getListAttr
      cases hl : t.ev.attrib.lookup "rate".toList with
      | none => exact ⟨_, default_list, by simp⟩
      | some s => exact lists_numbers (rate s hl)
    have hx : 4 ≤ (splitOn ',' (getListAttr "sx".toList t.ev)).length := by
      unfold getListAttr
      cases hl : t.ev.attrib.lookup "sx".toList with
      | none => simp only [default_sex]; omega
      | some s =>
        have := sx s hl
        simp only [splitOn_length]
        omega
    obtain ⟨ld, d1, d2, d3⟩ := hd
    obtain ⟨lr, r1, r2⟩ := hr
    obtain ⟨c, l, h1, h2⟩ := forPlayers_ok (fun p hp ctx => unPlayer_ok d2 r2 hx d3 (List.mem_range.1 hp) ctx) ctx
    refine ⟨c, l, ?_, h2⟩
    simp only [unCommand, d1, r1, bind, Except.bind]
    exact h1

/-! ### Elements after the settings -/

theorem setOya_ok {ctx : Ctx} {n : Nat} (hc : ctx.playerCount = .ok n) (oya : Int) : ∃ l, setOya ctx oya = .ok l ∧ Always l := by
  refine ⟨_, by simp only [setOya, hc, bind, Except.bind, pure, Except.pure]; rfl, always_of ?_⟩
  intro c h
  obtain ⟨p, _, rfl⟩ := List.mem_map.1 h
  exact settled_replace rfl

theorem atTable_ok {t : TEvent} (h : AtTable t.ev) {ctx : Ctx} {n : Nat} (hc : ctx.playerCount = .ok n) :
    ∃ ctx' out, callTranslator false ctx t = .ok (ctx', out) := by
  cases h with
  | harmless h => exact harmless_ok h ctx
  | start h oya ho =>
    obtain ⟨l, h1, h2⟩ := setOya_ok hc oya
    refine call_ok (ctx1 := ctx) (l := l) ?_ (h2 _ _)
    rw [gen_taikyoku h]
    simp only [taikyokuCommand, ho, bind, Except.bind, pure, Except.pure, pyInt_natDigits, h1]

theorem get_of_lookup {s : IState} {k : Sub × View} {x : Val} (h : s.lookup k = some x) : s.get k = x := by
  unfold IState.get; rw [h]; rfl

/-- the kinds of what moves change -/
theorem move_kinds : ∀ a ∈ moveNames, HasKind (view .player a) (if a = "score" then .score else if a = "round" then .index
    else if a = "fixed_meld" then .melds else if a = "discard_from_hand" then .list else .tiles) := by
  intro a ha
  refine ⟨.player, a, ?_, rfl⟩
  revert a
  decide +kernel

theorem held_num {n : Nat} {ctx : Ctx} (hb : Begun n ctx) (ht : Typed ctx.vals) {p : Nat} (hp : p < n) {a : String}
    (ha : a = "score" ∨ a = "round") : ∃ m, ctx.vals.get (ofPlayer p a) = .num m := by
  have hm : a ∈ moveNames := by rcases ha with rfl | rfl <;> decide
  cases hl : ctx.vals.lookup (ofPlayer p a) with
  | none => exact absurd hl (hb.player p hp a hm)
  | some x =>
    obtain ⟨m, rfl⟩ := (ht _ _ _ _ (move_kinds a hm) hl).2 (by rcases ha with rfl | rfl <;> simp)
    exact ⟨m, get_of_lookup hl⟩

theorem held_list {n : Nat} {ctx : Ctx} (hb : Begun n ctx) (ht : Typed ctx.vals) {p : Nat} (hp : p < n) {a : String}
    (hm : a ∈ moveNames) (ha : a ≠ "score" ∧ a ≠ "round") : ∃ l, ctx.vals.get (ofPlayer p a) = .list l := by
  cases hl : ctx.vals.lookup (ofPlayer p a) with
  | none => exact absurd hl (hb.player p hp a hm)
  | some x =>
    obtain ⟨m, rfl⟩ := (ht _ _ _ _ (move_kinds a hm) hl).1 (by
      rw [if_neg ha.1, if_neg ha.2]
      split
      · rfl
      · split <;> rfl)
    exact ⟨m, get_of_lookup hl⟩

theorem aside_ok {n w : Nat} {t : TEvent} (h : Aside n t.ev) {ctx : Ctx} (hs : TableSet n w ctx) (hb : Begun n ctx) :
    ∃ ctx' out, callTranslator false ctx t = .ok (ctx', out) := by
  cases h with
  | atTable h => exact atTable_ok h hs.count
  | riichi h p hp hw step hst =>
    obtain ⟨w, h1, h2⟩ := hw
    have hg : generate ctx t.ev = reachCommand ctx t.ev := gen_reach h
    simp only [reachCommand, h1, h2, hst, bind, Except.bind] at hg
    by_cases s1 : step = "1".toList
    · rw [if_pos s1] at hg
      exact call_ok hg (always_one (settled_replace rfl) _ _)
    · rw [if_neg s1] at hg
      by_cases s2 : step = "2".toList
      · rw [if_pos s2] at hg
        refine call_ok hg (post_ready (by simp) ?_)
        simp only [List.mem_singleton, forall_eq]
        obtain ⟨m, hm⟩ := held_num hb hs.typed hp (.inl rfl)
        refine ⟨.num (m.sub (.int 1000)), ?_⟩
        show callUpdate _ _ (ctx.vals.get (ofPlayer p "score")) _ = _
        rw [hm]
        have := remove_kind (move_kinds "score" (by decide)) (.num m) (.num (.int 1000))
        refine this.trans ?_
        rfl
      · rw [if_neg s2] at hg
        exact call_ok hg ⟨_, _, rfl⟩

/-! ### Ends of rounds -/

theorem everyOther_length {α : Type} (l : List α) : (everyOther l).length = (l.length + 1) / 2 := by
  match l with
  | [] => simp [everyOther]
  | [_] => simp [everyOther]
  | _ :: _ :: l => simp only [everyOther, List.length_cons, everyOther_length l]; omega

theorem always_score {p : Nat} {a b : Num} : Always [pcmd .gameFinish p "score" .assertEqualOrSet (.num a),
    pcmd .gameFinish p "score" .add (.num b)] := by
  intro ts s
  have h1 : ∀ old, newValue (pcmd .gameFinish p "score" .assertEqualOrSet (.num a)) old = .ok (.num a) := fun _ => rfl
  have h2 : newValue (pcmd .gameFinish p "score" .add (.num b)) (.num a) = .ok (.num (a.add b)) := by
    rw [new_add (k := .score) (by decide +kernel)]
    rfl
  refine ⟨(s.set (ofPlayer p "score") (.num a)).set (ofPlayer p "score") (.num (a.add b)),
    [{ pcmd .gameFinish p "score" .assertEqualOrSet (.num a) with state := .num a, timestamp := ts },
      { pcmd .gameFinish p "score" .add (.num b) with state := .num (a.add b), timestamp := ts }], ?_⟩
  · have h3 : (s.set (ofPlayer p "score") (.num a)).get (ofPlayer p "score") = .num a := by rw [get_iset]; simp
    have k : ∀ u v, ((pcmd .gameFinish p "score" u v).sub, (pcmd .gameFinish p "score" u v).prop) = ofPlayer p "score" :=
      fun _ _ => rfl
    simp only [postprocess, interpret, k, h1, h2, h3, bind, Except.bind, pure, Except.pure]

theorem gameFinish_ok {ctx : Ctx} {n : Nat} (hc : ctx.playerCount = .ok n) (win : Option (Int × Int)) {sc : Option (List Num)}
    (hsc : ∀ l, sc = some l → 2 * n ≤ l.length) (yaku : List Str) {e : Event} (hf : FinalScores n e) :
    ∃ l, gameFinish ctx win sc yaku e = .ok l ∧ Always l := by
  have hp : ∀ p < n, ∃ part, (do
      let s ← finishScores sc p
      pure (s ++ finishFlags win yaku p) : Except PyErr (List Cmd)) = .ok part ∧ Always part := by
    intro p hp
    have hfl : Always (finishFlags win yaku p) := by
      refine always_of ?_
      intro c hc
      simp only [finishFlags, List.mem_cons, List.not_mem_nil, or_false] at hc
      rcases hc with rfl | rfl | rfl | rfl <;> exact settled_replace rfl
    cases sc with
    | none => exact ⟨[] ++ finishFlags win yaku p, rfl, always_append always_nil hfl⟩
    | some l =>
      have hl := hsc l rfl
      obtain ⟨a, ha, _⟩ := idx_ok (l := everyOther l) (p := p) (by rw [everyOther_length]; omega)
      obtain ⟨d, hd, _⟩ := idx_ok (l := everyOther l.tail) (p := p) (by rw [everyOther_length, List.length_tail]; omega)
      refine ⟨[pcmd .gameFinish p "score" .assertEqualOrSet (.num (a.times 100)),
        pcmd .gameFinish p "score" .add (.num (d.times 100))] ++ finishFlags win yaku p, ?_, always_append always_score hfl⟩
      simp only [finishScores, ha, hd, bind, Except.bind, pure, Except.pure]
  have he : ∃ ends, finishEnds e n = .ok ends ∧ ∀ x ∈ ends, Always x := by
    unfold finishEnds
    cases hl : e.attrib.lookup "owari".toList with
    | none => exact ⟨[], rfl, by simp⟩
    | some o =>
      obtain ⟨finals, h1, h2⟩ := lists_numbers (hf o hl)
      have hone : ∀ p < n, ∃ part, finishRecord finals n p = .ok part ∧ Always part := by
        intro p hp
        obtain ⟨a, ha, _⟩ := idx_ok (l := finalScores finals) (p := p) (by
          rw [finalScores, List.length_map, everyOther_length]; omega)
        obtain ⟨b, hb, _⟩ := idx_ok (l := finalPoints finals) (p := p) (by
          rw [finalPoints, everyOther_length, List.length_tail]; omega)
        have hr := rankOf_eq finals n p (by rw [everyOther_length]; omega) hp
        refine ⟨_, by simp only [finishRecord, ha, hb, hr, bind, Except.bind, pure, Except.pure]; rfl, always_of ?_⟩
        intro c hc
        simp only [List.mem_cons, List.not_mem_nil, or_false] at hc
        rcases hc with rfl | rfl | rfl <;> exact settled_replace rfl
      obtain ⟨r, hr⟩ := mapM_some (f := finishRecord finals n) (l := List.range n) (fun p hp => by
        obtain ⟨x, hx, _⟩ := hone p (List.mem_range.1 hp)
        exact ⟨x, hx⟩)
      refine ⟨r, by simp only [h1, bind, Except.bind]; exact hr, ?_⟩
      intro x hx
      obtain ⟨p, hp, e⟩ := mapM_inv _ hr x hx
      obtain ⟨y, hy, ay⟩ := hone p (List.mem_range.1 hp)
      rw [hy] at e
      cases e
      exact ay
  obtain ⟨ends, e1, e2⟩ := he
  obtain ⟨parts, hr⟩ := mapM_some (f := fun p => (do
      let s ← finishScores sc p
      pure (s ++ finishFlags win yaku p) : Except PyErr (List Cmd))) (l := List.range n) (fun p hq => by
        obtain ⟨x, hx, _⟩ := hp p (List.mem_range.1 hq)
        exact ⟨x, hx⟩)
  refine ⟨parts.flatten ++ ends.flatten, ?_, always_append (always_flatten ?_) (always_flatten e2)⟩
  · unfold gameFinish
    simp only [hc, bind, Except.bind] at hr ⊢
    rw [hr]
    simp only [e1]
    rfl
  · intro x hx
    obtain ⟨p, hq, e⟩ := mapM_inv _ hr x hx
    obtain ⟨y, hy, ay⟩ := hp p (List.mem_range.1 hq)
    rw [hy] at e
    cases e
    exact ay

theorem tileStrList_ok {l : List Int} {s : Str} (h : ListsTiles l s) : tileStrList s = .ok (l.map tileName) := by
  obtain ⟨hne, ht, rfl⟩ := h
  simp only [tileStrList, intList_comma l hne, bind, Except.bind]
  exact tileNames_eq ht

theorem yaku_ok {l : List Int} (hne : l ≠ []) (hr : ∀ y ∈ l, 0 ≤ y ∧ y < 55) : ∃ r, (do
    (← numberList (commaList l)).mapM (fun t => do pure (← pyIdx SCORE_PATTERN (← t.toInt)).toList) : Except PyErr (List Str)) =
      .ok r := by
  simp only [numberList_comma l hne, bind, Except.bind]
  refine mapM_some ?_
  intro x hx
  obtain ⟨y, hy, rfl⟩ := List.mem_map.1 hx
  have hb := hr y hy
  obtain ⟨a, ha, _⟩ := idx_ok (l := SCORE_PATTERN) (p := y.toNat) (by rw [show SCORE_PATTERN.length = 55 from by decide +kernel]; omega)
  have hy' : ((y.toNat : Nat) : Int) = y := by omega
  rw [hy'] at ha
  refine ⟨a.toList, ?_⟩
  simp only [Num.toInt, ha, pure, Except.pure]

theorem ends_ok {n w : Nat} {t : TEvent} (h : Ends n t.ev) {ctx : Ctx} (hs : TableSet n w ctx) :
    ∃ ctx' out, callTranslator false ctx t = .ok (ctx', out) := by
  cases h with
  | win h who giver hw h1 h2 sc h3 h4 hai s h5 h6 h7 yaku hy hr h8 h9 =>
    obtain ⟨scl, s1, s2⟩ := lists_numbers h4
    have e5 := tileStrList_ok h6
    have e7 : ∃ x, expectedHand t.ev who giver (hai.map tileName) = .ok x := by
      unfold expectedHand
      by_cases hg : (who : Int) ≠ giver
      · rw [if_pos hg]
        obtain ⟨m, ms, s', m1, m2, m3⟩ := h7 (by intro x; exact hg (by rw [x]))
        have hin : tileName m ∈ hai.map tileName := List.mem_map_of_mem m3
        refine ⟨(hai.map tileName).erase (tileName m), ?_⟩
        simp only [m1, tileStrList_ok m2, bind, Except.bind, List.map_cons]
        rw [show pyIdx (tileName m :: List.map tileName ms) 0 = .ok (tileName m) from rfl]
        simp only [removeText, if_pos hin]
      · rw [if_neg hg]; exact ⟨_, rfl⟩
    obtain ⟨ex, e7⟩ := e7
    have e8 : ∃ y, yakuOf t.ev = .ok y := by
      obtain ⟨r, hr⟩ := yaku_ok hy hr
      unfold yakuOf
      rcases h8 with h8 | ⟨h8, h8'⟩
      · rw [h8]; exact ⟨r, hr⟩
      · rw [h8, h8']; exact ⟨r, hr⟩
    obtain ⟨y, e8⟩ := e8
    obtain ⟨rest, f1, f2⟩ := gameFinish_ok hs.count (some ((who : Int), (giver : Int))) (sc := some scl)
      (fun l hl => by cases hl; exact s2) y h9
    refine call_ok (ctx1 := ctx) (l := [pcmd .gameFinish who "hand" .assertEqualOrSet (strs ex),
      gcmd .gameFinish "nobody_win" .replace (.bool false)] ++ rest) ?_ ?_
    · rw [gen_agari h]
      simp only [agariCommand, h1, h2, h3, h5, s1, e5, e7, e8, f1, pyInt_natDigits, bind, Except.bind, pure, Except.pure]
    · exact always_append (always_append (a := [_]) (b := [_]) (always_one (settled_assert rfl)) (always_one (settled_replace rfl))) f2 _ _
  | drawn h h1 h2 h3 =>
    have e1 : ∃ r, drawnReason t.ev = .ok r := by
      unfold drawnReason
      cases hl : t.ev.attrib.lookup "type".toList with
      | none => exact ⟨_, rfl⟩
      | some s =>
        obtain ⟨r, hr, rfl⟩ := h1 s hl
        have : ∀ r ∈ drawnReasons, (DRAWN_TYPES.find? (fun d => decide (d.1.toList = r.1.toList))).isSome = true := by decide +kernel
        have := this r hr
        simp only
        cases hx : DRAWN_TYPES.find? (fun d => decide (d.1.toList = r.1.toList)) with
        | none => rw [hx] at this; cases this
        | some d => exact ⟨_, rfl⟩
    have e2 : ∃ x, drawnScores t.ev = .ok x ∧ ∀ l, x = some l → 2 * n ≤ l.length := by
      unfold drawnScores
      cases hl : t.ev.attrib.lookup "sc".toList with
      | none => exact ⟨_, rfl, by simp⟩
      | some s =>
        obtain ⟨l, a, b⟩ := lists_numbers (h2 s hl)
        refine ⟨some l, by simp only [a, bind, Except.bind, pure, Except.pure], ?_⟩
        intro l' hl'
        cases hl'
        exact b
    obtain ⟨r, e1⟩ := e1
    obtain ⟨x, e2, e2'⟩ := e2
    obtain ⟨rest, f1, f2⟩ := gameFinish_ok hs.count none e2' [] h3
    refine call_ok (ctx1 := ctx) (l := [gcmd .gameFinish "nobody_win" .replace (.bool true),
      gcmd .gameFinish "extra_reason" .replace (.str r)] ++ rest) ?_ ?_
    · rw [gen_ryuukyoku h]
      simp only [ryuukyokuCommand, e1, e2, f1, bind, Except.bind, pure, Except.pure]
    · exact always_append (always_append (a := [_]) (b := [_]) (always_one (settled_replace rfl)) (always_one (settled_replace rfl))) f2 _ _

end Verif.Proofs
