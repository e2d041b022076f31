import Verif.Props.Values
import Verif.Props.Record
import Verif.Props.Meld
import Verif.Props.Category

/-!
C83, C84: the header of a record and of a round in the converted state.
-/
namespace Verif.Props
open Verif.Py Verif.Model Verif.Spec Verif.Proofs

/-! ### C84 -/

theorem flags_bits (v : Int) (h0 : 0 ≤ v) (h1 : v ≤ 65535) (g : GameType) (hg : GameType.make v = .ok g) :
    g.bit "with_tips" = .ok (bitSet v 9) ∧ g.bit "show_discard_shadow" = .ok (bitSet v 8) ∧
    g.bit "speed_up" = .ok (bitSet v 6) := by
  rw [make_gameType v h0 h1] at hg
  cases hg
  have bs : ∀ k : Nat, decide (v / 2 ^ k % 2 ≠ 0) = bitSet v k := by
    intro k
    unfold bitSet
    rw [decide_eq_decide]
    have : v / 2 ^ k % 2 = 0 ∨ v / 2 ^ k % 2 = 1 := by omega
    omega
  have c9 := bs 9
  have c8 := bs 8
  have c6 := bs 6
  simp only [Int.reducePow] at c9 c8 c6
  rw [← c9, ← c8, ← c6]
  refine ⟨?_, ?_, ?_⟩ <;> simp only [GameType.bit] <;> fields

def goCmds (v : Nat) : List Cmd :=
  [rcmd .recordInit "play_level" .replace (.str [levelName (bitSet v 9) (bitSet v 5) (bitSet v 7)]),
   rcmd .recordInit "show_discard_shadow" .replace (.bool (bitSet v 8)),
   rcmd .recordInit "play_wind_count" .replace (.num (.int (if bitSet v 3 then 2 else 1))),
   rcmd .recordInit "allow_tanyao_open" .replace (.bool (!bitSet v 2)),
   rcmd .recordInit "speed_up" .replace (.bool (bitSet v 6)),
   rcmd .recordInit "player_count" .replace (.num (.int (if bitSet v 4 then 3 else 4))),
   rcmd .recordInit "using_tiles" .replace (strs (initialTiles (if bitSet v 4 then 3 else 4) (!bitSet v 1)))]

theorem gen_of_named {ctx c : Ctx} {e : Event} {m : List Cmd} (h : translateNamed ctx e = .ok (c, m)) (hm : m ≠ []) :
    generate ctx e = .ok (c, m) := by
  unfold generate
  rw [h]
  simp only [bind, Except.bind, ne_eq, hm, not_false_eq_true, if_true, pure, Except.pure]

/-- the commands of an element `GO` -/
theorem go_shape (ctx : Ctx) (e : Event) (v : Nat) (hv : v ≤ 65535) (he : e.get "type".toList = .ok (natDigits v)) :
    ∃ ix, SubCat.make [(if bitSet v 3 then 2 else 1) + 1, 4] = .ok ix ∧
      goCommand ctx e = .ok ({ ctx with indexer := some ix }, goCmds v) := by
  obtain ⟨g, hg, a1, a2, _, _, a5, a6, a7, _⟩ := C29_accessors (v : Int) (by omega) (by omega)
  obtain ⟨b1, b2, b3⟩ := flags_bits (v : Int) (by omega) (by omega) g hg
  have hix : ∃ ix, SubCat.make [(if bitSet v 3 then 2 else 1) + 1, 4] = .ok ix := by
    obtain ⟨c, hc, _⟩ := C03_sub_category [(if bitSet v 3 then 2 else 1) + 1, 4] (by simp)
      (by intro x hx; simp at hx; rcases hx with rfl | rfl <;> [split <;> omega; omega])
    exact ⟨c, hc⟩
  obtain ⟨ix, hix⟩ := hix
  refine ⟨ix, hix, ?_⟩
  unfold goCommand
  simp only [he, bind, Except.bind, pyInt_natDigits, hg, a2, hix, b1, a7, b2, a6, b3, a1, a5]
  have hl : pyIdx (ifValue (bitSet v 9) "若銀琥孔".toList "般上特鳳".toList)
      ((if bitSet v 5 then 2 else 0) + (if bitSet v 7 then 1 else 0)) =
      .ok (levelName (bitSet v 9) (bitSet v 5) (bitSet v 7)) := by
    generalize bitSet v 9 = x
    generalize bitSet v 5 = y
    generalize bitSet v 7 = z
    cases x <;> cases y <;> cases z <;> rfl
  simp only [hl]
  rfl

theorem postprocess_replace (ts : Option Int) (s : IState) (l : List Cmd) (h : ∀ c ∈ l, c.update = .replace) :
    ∃ s' out, postprocess ts s l = .ok (s', out) := by
  induction l generalizing s with
  | nil => exact ⟨s, [], rfl⟩
  | cons c l ih =>
    obtain ⟨s', out, h1⟩ := ih (s.set (c.sub, c.prop) c.value) (fun x hx => h x (List.mem_cons_of_mem _ hx))
    refine ⟨s', { c with state := c.value, timestamp := ts } :: out, ?_⟩
    simp only [postprocess, interpret, newValue, h c List.mem_cons_self, bind, Except.bind, pure, Except.pure, h1]

theorem about_rcmd_ne {a b : String} (ha : a ∈ propertyNames .record) (hb : b ∈ propertyNames .record) (hne : a ≠ b)
    (ev : EventType) (u : Update) (v : Val) (l : List Cmd) :
    about (ofRecord b) (rcmd ev a u v :: l) = about (ofRecord b) l := by
  rw [about_cons, if_neg]
  intro e
  exact hne (view_inj ha hb (congrArg Prod.snd e)).2

theorem about_gcmd_ne {a b : String} (ha : a ∈ propertyNames .game) (hb : b ∈ propertyNames .game) (hne : a ≠ b)
    (ev : EventType) (u : Update) (v : Val) (l : List Cmd) :
    about (ofGame b) (gcmd ev a u v :: l) = about (ofGame b) l := by
  rw [about_cons, if_neg]
  intro e
  exact hne (view_inj ha hb (congrArg Prod.snd e)).2

/-- **C84.** An element `GO` with a type of 16 bits always converts, and sets the number of players (bit 4), of winds
    (bit 3), whether open tanyao is allowed (bit 2), discards are shadowed (bit 8), play is fast (bit 6), the level of
    the table (bits 9, 5, 7) and the tiles in use (bits 4 and 1), each as often as it is in the set. -/
theorem C84_go (strict : Bool) (ctx : Ctx) (t : TEvent) (ht : t.ev.tag = "GO".toList) (v : Nat) (hv : v ≤ 65535)
    (he : t.ev.get "type".toList = .ok (natDigits v)) :
    ∃ ctx' out, callTranslator strict ctx t = .ok (ctx', out) ∧
      ctx'.vals.get (ofRecord "player_count") = .num (.int (if bitSet v 4 then 3 else 4)) ∧
      ctx'.vals.get (ofRecord "play_wind_count") = .num (.int (if bitSet v 3 then 2 else 1)) ∧
      ctx'.vals.get (ofRecord "allow_tanyao_open") = .bool (!bitSet v 2) ∧
      ctx'.vals.get (ofRecord "show_discard_shadow") = .bool (bitSet v 8) ∧
      ctx'.vals.get (ofRecord "speed_up") = .bool (bitSet v 6) ∧
      ctx'.vals.get (ofRecord "play_level") = .str [levelName (bitSet v 9) (bitSet v 5) (bitSet v 7)] ∧
      (∃ tiles, ctx'.vals.get (ofRecord "using_tiles") = strs tiles ∧
        tiles.length = (if bitSet v 4 then 108 else 136) ∧
        (∀ n s shown, Spec.Shows n s shown → tiles.count (txt n s) = copies (bitSet v 4) (!bitSet v 1) n s) ∧
        (∀ x ∈ tiles, ∃ n s shown, Spec.Shows n s shown ∧ x = txt n s)) := by
  obtain ⟨ix, hix, hc⟩ := go_shape ctx t.ev v hv he
  have hn : translateNamed ctx t.ev = goCommand ctx t.ev := by unfold translateNamed; rw [ht]; rfl
  rw [hc] at hn
  have hg := gen_of_named hn (by simp [goCmds])
  obtain ⟨s', out, hp⟩ := postprocess_replace (some t.timestamp) ctx.vals (goCmds v) (by simp [goCmds, rcmd])
  have hcall : callTranslator strict ctx t = .ok ({ ctx with vals := s', indexer := some ix }, out) := by
    unfold callTranslator
    rw [hg]
    simp only [bind, Except.bind, pure, Except.pure, hp]
    rw [if_pos (by simp [goCmds])]
  refine ⟨_, out, hcall, ?_⟩
  have three : decide ((if bitSet (v : Int) 4 then (3 : Int) else 4) = 3) = bitSet v 4 := by
    cases bitSet (v : Int) 4 <;> rfl
  refine ⟨?_, ?_, ?_, ?_, ?_, ?_, ⟨initialTiles (if bitSet v 4 then 3 else 4) (!bitSet v 1), ?_, ?_, ?_, ?_⟩⟩
  · refine call_set (a := [_, _, _, _, _]) (b := [_]) hcall hg rfl ?_ (.inl rfl)
    rw [about_rcmd_ne (by decide +kernel) (by decide +kernel) (by decide)]; rfl
  · refine call_set (a := [_, _]) (b := [_, _, _, _]) hcall hg rfl ?_ (.inl rfl)
    rw [about_rcmd_ne (by decide +kernel) (by decide +kernel) (by decide),
      about_rcmd_ne (by decide +kernel) (by decide +kernel) (by decide),
      about_rcmd_ne (by decide +kernel) (by decide +kernel) (by decide),
      about_rcmd_ne (by decide +kernel) (by decide +kernel) (by decide)]; rfl
  · refine call_set (a := [_, _, _]) (b := [_, _, _]) hcall hg rfl ?_ (.inl rfl)
    rw [about_rcmd_ne (by decide +kernel) (by decide +kernel) (by decide),
      about_rcmd_ne (by decide +kernel) (by decide +kernel) (by decide),
      about_rcmd_ne (by decide +kernel) (by decide +kernel) (by decide)]; rfl
  · refine call_set (a := [_]) (b := [_, _, _, _, _]) hcall hg rfl ?_ (.inl rfl)
    rw [about_rcmd_ne (by decide +kernel) (by decide +kernel) (by decide),
      about_rcmd_ne (by decide +kernel) (by decide +kernel) (by decide),
      about_rcmd_ne (by decide +kernel) (by decide +kernel) (by decide),
      about_rcmd_ne (by decide +kernel) (by decide +kernel) (by decide),
      about_rcmd_ne (by decide +kernel) (by decide +kernel) (by decide)]; rfl
  · refine call_set (a := [_, _, _, _]) (b := [_, _]) hcall hg rfl ?_ (.inl rfl)
    rw [about_rcmd_ne (by decide +kernel) (by decide +kernel) (by decide),
      about_rcmd_ne (by decide +kernel) (by decide +kernel) (by decide)]; rfl
  · refine call_set (a := []) (b := [_, _, _, _, _, _]) hcall hg rfl ?_ (.inl rfl)
    rw [about_rcmd_ne (by decide +kernel) (by decide +kernel) (by decide),
      about_rcmd_ne (by decide +kernel) (by decide +kernel) (by decide),
      about_rcmd_ne (by decide +kernel) (by decide +kernel) (by decide),
      about_rcmd_ne (by decide +kernel) (by decide +kernel) (by decide),
      about_rcmd_ne (by decide +kernel) (by decide +kernel) (by decide),
      about_rcmd_ne (by decide +kernel) (by decide +kernel) (by decide)]; rfl
  · exact call_set (a := [_, _, _, _, _, _]) (b := []) hcall hg rfl rfl (.inl rfl)
  · rw [C40_initial_length]; cases bitSet (v : Int) 4 <;> rfl
  · intro n s shown hs
    rw [(C40_initial_count _ _ (txt n s)).1 n s rfl ⟨shown, hs⟩, three]
  · intro x hx
    exact (C40_initial_count _ _ x).2 hx

/-- **C84.** An element `SHUFFLE` sets the seed of the record. -/
theorem C84_seed (strict : Bool) (ctx ctx' : Ctx) (t : TEvent) (out : List Cmd)
    (h : callTranslator strict ctx t = .ok (ctx', out)) (ht : t.ev.tag = "SHUFFLE".toList) :
    ∃ seed, t.ev.get "seed".toList = .ok seed ∧ ctx'.vals.get (ofRecord "seed") = .str seed := by
  obtain ⟨ctx1, l, hg, _, _⟩ := call_inv h
  have hc := gen_handler hg (name := "SHUFFLE") (f := shuffleCommand) (by simp [nameMatch]) ht
  simp only [shuffleCommand, bind_ok, pure_ok, Prod.mk.injEq] at hc
  obtain ⟨seed, hs, rfl, rfl⟩ := hc
  exact ⟨seed, hs, call_set (a := []) (b := []) h hg rfl rfl (.inl rfl)⟩

theorem rank_table : ∀ d : Fin 21, (RANKS[d.val]?).map String.toList = some (rankTitle d.val) := by decide +kernel

theorem pyIdx_nonneg {α : Type} {l : List α} {i : Int} {x : α} (h : pyIdx l i = .ok x) (hi : 0 ≤ i) : l[i.toNat]? = some x := by
  unfold pyIdx at h
  rw [if_pos hi] at h
  cases e : l[i.toNat]? with
  | none => simp [e] at h
  | some y => simp [e] at h; rw [h]

theorem pyIdx_any {α : Type} {l : List α} {i : Int} {x : α} (h : pyIdx l i = .ok x) :
    -(l.length : Int) ≤ i ∧ l[(if 0 ≤ i then i else i + l.length).toNat]? = some x := by
  unfold pyIdx at h
  by_cases h0 : 0 ≤ i
  · rw [if_pos h0] at h ⊢
    refine ⟨by omega, ?_⟩
    cases e : l[i.toNat]? with
    | none => simp [e] at h
    | some y => simp [e] at h; rw [h]
  · rw [if_neg h0] at h ⊢
    by_cases h1 : -(l.length : Int) ≤ i
    · rw [if_pos h1] at h
      refine ⟨h1, ?_⟩
      cases e : l[(i + l.length).toNat]? with
      | none => simp [e] at h
      | some y => simp [e] at h; rw [h]
    · rw [if_neg h1] at h; cases h

/-- **C84.** An element `UN` sets, for every player it names, the name, the title of the rank if it gives ranks and the
    rating if it gives ratings, and changes nothing about players it does not name.  A rank below zero counts from the last title. -/
theorem C84_player (strict : Bool) (ctx ctx' : Ctx) (t : TEvent) (out : List Cmd)
    (h : callTranslator strict ctx t = .ok (ctx', out)) (ht : t.ev.tag = "UN".toList) (p : Nat) (hp : p < 4) :
    (¬ Enters p t.ev → ∀ b, ctx'.vals.get (ofPlayer p b) = ctx.vals.get (ofPlayer p b)) ∧
    (∀ name, t.ev.attrib.lookup ("n".toList ++ natDigits p) = some name → name.all isSpace = false →
      ctx'.vals.get (ofPlayer p "name") = .str (unquote name) ∧
      (t.ev.attrib.lookup "dan".toList = none →
        ctx'.vals.get (ofPlayer p "level") = ctx.vals.get (ofPlayer p "level")) ∧
      (∀ dans, dans ≠ [] → t.ev.attrib.lookup "dan".toList = some (commaList dans) → ∃ d, dans[p]? = some d ∧
        -21 ≤ d ∧ d ≤ 20 ∧ ctx'.vals.get (ofPlayer p "level") = .str (rankTitle (if 0 ≤ d then d else d + 21).toNat)) ∧
      (t.ev.attrib.lookup "rate".toList = none →
        ctx'.vals.get (ofPlayer p "extra_level") = ctx.vals.get (ofPlayer p "extra_level")) ∧
      (∀ s, t.ev.attrib.lookup "rate".toList = some s → ∃ rates r, numberList s = .ok rates ∧ rates[p]? = some r ∧
        ctx'.vals.get (ofPlayer p "extra_level") = .num r)) := by
  obtain ⟨dan, rate, m, hd, hr, hm, ha⟩ := un_about hp h ht
  refine ⟨?_, ?_⟩
  · intro he b
    have : m = [] := by
      unfold unPlayer at hm
      split at hm
      · cases hm; rfl
      · rename_i name hname
        split at hm
        · cases hm; rfl
        · rename_i hns
          exact (he ⟨ht, name, hname, by simpa using hns⟩).elim
    subst this
    have := ha b
    simp only [about_nil, applyAll, Except.ok.injEq] at this
    exact this.symm
  · intro name hn hs
    obtain ⟨level, r, sx, levels, k1, k2, k3, k4, rfl⟩ := un_enters hm hn hs
    have pname : "name" ∈ propertyNames .player := by decide +kernel
    have plevel : "level" ∈ propertyNames .player := by decide +kernel
    have pextra : "extra_level" ∈ propertyNames .player := by decide +kernel
    have alevel : about (ofPlayer p "level") ([pcmd .connectChange p "disconnected" .replace (.bool false),
        pcmd .recordInit p "name" .assertEqualOrSet (.str (unquote name))] ++ levels ++ rateCmds t.ev p r) =
        about (ofPlayer p "level") levels := by
      rw [about_append, about_append, rate_about plevel (by decide), List.append_nil,
        about_pcmd_ne (by decide +kernel) plevel (by decide), about_pcmd_ne pname plevel (by decide), about_nil,
        List.nil_append]
    have aextra : about (ofPlayer p "extra_level") ([pcmd .connectChange p "disconnected" .replace (.bool false),
        pcmd .recordInit p "name" .assertEqualOrSet (.str (unquote name))] ++ levels ++ rateCmds t.ev p r) =
        about (ofPlayer p "extra_level") (rateCmds t.ev p r) := by
      rw [about_append, about_append, level_about k4 pextra (by decide), List.append_nil,
        about_pcmd_ne (by decide +kernel) pextra (by decide), about_pcmd_ne pname pextra (by decide), about_nil,
        List.nil_append]
    have glevel := ha "level"
    have gextra := ha "extra_level"
    rw [alevel] at glevel
    rw [aextra] at gextra
    refine ⟨?_, ?_, ?_, ?_, ?_⟩
    · have := ha "name"
      rw [about_append, about_append, level_about k4 pname (by decide), rate_about pname (by decide), List.append_nil,
        List.append_nil, about_pcmd_ne (by decide +kernel) pname (by decide), about_pcmd_self, about_nil, apply_one,
        new_assert] at this
      exact (Except.ok.inj this).symm
    · intro hno
      rcases level_cases k4 with ⟨_, rfl⟩ | ⟨x, i, s, hx, _⟩
      · simp only [about_nil, applyAll, Except.ok.injEq] at glevel
        exact glevel.symm
      · rw [hno] at hx; cases hx
    · intro dans hne hdans
      have hdan : numberList (commaList dans) = .ok dan := by
        rw [← hd]
        unfold getListAttr
        rw [hdans]
      rw [numberList_comma dans hne] at hdan
      cases hdan
      have hl := pyIdx_nonneg k1 (by omega)
      rw [List.getElem?_map] at hl
      obtain ⟨d, hd1, rfl⟩ := Option.map_eq_some_iff.1 hl
      refine ⟨d, hd1, ?_⟩
      rcases level_cases k4 with ⟨hx, _⟩ | ⟨x, i, s, hx, hi, hrank, rfl⟩
      · rw [hdans] at hx; cases hx
      · simp only [Num.toInt, Except.ok.injEq] at hi
        subst hi
        obtain ⟨hlow, hs⟩ := pyIdx_any hrank
        have e : RANKS.length = 21 := rfl
        rw [e] at hlow hs
        replace hs : RANKS[(if 0 ≤ d then d else d + 21).toNat]? = some s := hs
        have hlt : (if 0 ≤ d then d else d + 21).toNat < 21 := by
          have := (List.getElem?_eq_some_iff.1 hs).1
          omega
        refine ⟨by omega, by split at hlt <;> omega, ?_⟩
        have ht := rank_table ⟨_, hlt⟩
        simp only [hs, Option.map_some, Option.some.injEq] at ht
        rw [about_pcmd_self, about_nil, apply_one, new_replace, ht] at glevel
        exact (Except.ok.inj glevel).symm
    · intro hno
      unfold rateCmds at gextra
      rw [hno] at gextra
      simp only [about_nil, applyAll, Except.ok.injEq] at gextra
      exact gextra.symm
    · intro s hs'
      have hrate : numberList s = .ok rate := by
        rw [← hr]
        unfold getListAttr
        rw [hs']
      refine ⟨rate, r, hrate, pyIdx_nonneg k2 (by omega), ?_⟩
      unfold rateCmds at gextra
      rw [hs'] at gextra
      simp only at gextra
      rw [about_pcmd_self, about_nil, apply_one, new_replace] at gextra
      exact (Except.ok.inj gextra).symm

/-! ### C83 -/

theorem winds_category (n w k : Nat) (hk : k < 4) : ∃ ix, SubCat.make [(n : Int) + 1, 4] = .ok ix ∧
    ix.category (4 * w + k) = if w ≤ n then .ok [(w : Int), (k : Int)] else .error .assertionError := by
  obtain ⟨c, hc, _, hdig, _, hbig, _⟩ := C03_sub_category [(n : Int) + 1, 4] (by simp)
    (by intro x hx; simp at hx; omega)
  refine ⟨c, hc, ?_⟩
  by_cases h : w ≤ n
  · rw [if_pos h]
    have hd := (hdig [(w : Int), (k : Int)] ?_).2.2.2
    · have e : radix [(n : Int) + 1, 4] [(w : Int), (k : Int)] = 4 * w + k := by
        simp [radix, prodI]; omega
      rwa [e] at hd
    · refine ⟨rfl, ?_⟩
      intro j h1 h2
      simp at h1
      have : j = 0 ∨ j = 1 := by omega
      rcases this with rfl | rfl <;> simp <;> omega
  · rw [if_neg h]
    refine hbig _ ?_
    simp [prodI]; omega

theorem count_of_get {ctx : Ctx} {n : Nat} (h : ctx.vals.get (ofRecord "player_count") = .num (.int n)) :
    ctx.playerCount = .ok n := by
  unfold IState.get ofRecord at h
  unfold Ctx.playerCount
  cases e : ctx.vals.lookup (Sub.all, Verif.Model.view .record "player_count") with
  | none => rw [e] at h; cases h
  | some v => rw [e] at h; simp only [Option.getD_some] at h; subst h; simp

/-- the context a record of type `v` has after its `GO` -/
theorem go_context {strict : Bool} {ctx ctx1 : Ctx} {go : TEvent} {pre : List TEvent} {out : List Cmd} {v : Nat}
    (h : translateAll strict ctx (go :: pre) = .ok (ctx1, out)) (hgo : go.ev.tag = "GO".toList) (hv : v ≤ 65535)
    (he : go.ev.get "type".toList = .ok (natDigits v)) (hpre : ∀ x ∈ pre, x.ev.tag ≠ "GO".toList) :
    ctx1.playerCount = .ok (if bitSet v 4 then 3 else 4) ∧
    ∃ ix, SubCat.make [(if bitSet v 3 then 2 else 1) + 1, 4] = .ok ix ∧ ctx1.indexer = some ix := by
  simp only [translateAll, bind_ok, pure_ok, Prod.exists, Prod.mk.injEq] at h
  obtain ⟨c1, l1, h1, c2, l2, h2, rfl, rfl⟩ := h
  obtain ⟨c', o', hc', hcount, _⟩ := C84_go strict ctx go hgo v hv he
  rw [h1] at hc'
  cases hc'
  constructor
  · apply count_of_get
    have := C81_keeps strict _ _ pre l2 h2 .record "player_count" (by decide +kernel) ?_ .all
    · rw [show ((Sub.all, Verif.Model.view .record "player_count") = ofRecord "player_count") from rfl] at this
      rw [this, hcount]
      split <;> rfl
    · intro x hx
      refine not_mayChange ["GO"] (by decide +kernel) (by decide) ?_
      simp only [List.mem_cons, List.not_mem_nil, or_false, forall_eq]
      exact hpre x hx
  · obtain ⟨ix, hix, hc⟩ := go_shape ctx go.ev v hv he
    refine ⟨ix, hix, ?_⟩
    rw [all_indexer h2 hpre]
    obtain ⟨ctx1, l, hg, _, _, hi⟩ := call_inv h1
    have hh := gen_handler hg (name := "GO") (f := goCommand) (by simp [nameMatch]) hgo
    rw [hc] at hh
    cases hh
    rw [hi]

/-- the shape of the deal in a record of type `v` -/
theorem deal_shape {strict : Bool} {ctx ctx1 ctx' : Ctx} {go t : TEvent} {pre : List TEvent} {out out1 : List Cmd} {v : Nat}
    (h : translateAll strict ctx (go :: pre) = .ok (ctx1, out)) (hgo : go.ev.tag = "GO".toList) (hv : v ≤ 65535)
    (he : go.ev.get "type".toList = .ok (natDigits v)) (hpre : ∀ x ∈ pre, x.ev.tag ≠ "GO".toList)
    (h1 : callTranslator strict ctx1 t = .ok (ctx', out1)) (ht : t.ev.tag = "INIT".toList)
    {w k : Nat} (hk : k < 4) {honba sticks : Int} {mid : List Int} {d : Int} (hd : IsTile d)
    (hs : t.ev.get "seed".toList = .ok (commaList ((4 * w + k : Int) :: honba :: sticks :: mid ++ [d]))) {oya : Nat}
    (ho : t.ev.get "oya".toList = .ok (natDigits oya)) :
    w ≤ (if bitSet v 3 then 2 else 1) ∧ ∃ ctx2 rest,
      Within ((["hand", "discard_from_hand", "discard_tiles", "fixed_meld", "meld_public_tiles", "bonus_tiles", "round",
        "in_richii", "score"] : List String).map (fun a => (Scope.player, a))) rest ∧
      generate ctx1 t.ev = .ok (ctx2, [gcmd .gameInit "wind" .replace (.num (.int w)),
        gcmd .gameInit "round" .replace (.num (.int k)), gcmd .gameInit "sub_round" .replace (.num (.int honba)),
        gcmd .gameInit "richii_remain_scores" .replace (.num (.int (1000 * sticks)))] ++
        (List.range (if bitSet v 4 then 3 else 4)).map (fun (p : Nat) =>
          pcmd .gameInit p "is_dealer" .replace (.bool (decide ((oya : Int) = p)))) ++
        [gcmd .newDora "dora_indicators" .replace (strs [tileName d])] ++ rest) := by
  obtain ⟨hn, ix, hix, hctx⟩ := go_context h hgo hv he hpre
  obtain ⟨ctx2, l, hg, _, _⟩ := call_inv h1
  have hc := gen_handler hg (name := "INIT") (f := initCommand) (by simp [nameMatch]) ht
  obtain ⟨s, seed, ix', sub, richii, dora, s0, i, w', g, o, oya', d', names, n, rest, e1, e2, e3, e4, e5, e6, e7, e8, e9, e10,
    e11, e12, e13, e14, _, e16, rfl⟩ := init_shape hc
  rw [hs] at e1
  cases e1
  rw [numberList_comma _ (by simp)] at e2
  cases e2
  rw [hctx] at e3
  cases e3
  rw [ho] at e10
  cases e10
  rw [pyInt_natDigits] at e11
  cases e11
  rw [hn] at e14
  cases e14
  have x0 : s0 = .int (4 * w + k) := by
    have : pyIdx (List.map Num.int ((4 * w + k : Int) :: honba :: sticks :: mid ++ [d])) 0 = .ok (.int (4 * w + k)) := rfl
    rw [this] at e7; exact (Except.ok.inj e7).symm
  subst x0
  have x1 : sub = .int honba := by
    have : pyIdx (List.map Num.int ((4 * w + k : Int) :: honba :: sticks :: mid ++ [d])) 1 = .ok (.int honba) := rfl
    rw [this] at e4; exact (Except.ok.inj e4).symm
  subst x1
  have x2 : richii = .int sticks := by
    have : pyIdx (List.map Num.int ((4 * w + k : Int) :: honba :: sticks :: mid ++ [d])) 2 = .ok (.int sticks) := rfl
    rw [this] at e5; exact (Except.ok.inj e5).symm
  subst x2
  have x3 : dora = .int d := by
    have : pyIdx (List.map Num.int ((4 * w + k : Int) :: honba :: sticks :: mid ++ [d])) (-1) = .ok (.int d) := by
      unfold pyIdx
      rw [if_neg (by omega), if_pos (by simp; omega)]
      have : (-1 + ((List.map Num.int ((4 * w + k : Int) :: honba :: sticks :: mid ++ [d])).length : Int)).toNat =
          (mid.length + 3) := by simp; omega
      rw [this]
      simp
    rw [this] at e6; exact (Except.ok.inj e6).symm
  subst x3
  simp only [Num.toInt, Except.ok.injEq] at e8 e12
  subst e8 e12
  rw [tileNames_eq (by simpa using hd)] at e13
  cases e13
  obtain ⟨ix2, hix2, hcat⟩ := winds_category (if bitSet v 3 then 2 else 1) w k hk
  have hsame : ((if bitSet (v : Int) 3 then 2 else 1 : Nat) : Int) = if bitSet v 3 then 2 else 1 := by split <;> rfl
  rw [hsame, hix] at hix2
  cases hix2
  rw [hcat] at e9
  by_cases hw : w ≤ (if bitSet v 3 then 2 else 1)
  · rw [if_pos hw] at e9
    cases e9
    refine ⟨hw, ctx2, rest, e16, ?_⟩
    rw [hg]
    congr 2
    simp [Num.times, Num.norm, Num.num, Num.scale, Int.mul_comm]
  · rw [if_neg hw] at e9
    cases e9

/-- split a record at its deal -/
theorem split_deal {strict : Bool} {ctx ctx' : Ctx} {go t : TEvent} {pre post : List TEvent} {out : List Cmd}
    (h : translateAll strict ctx (go :: pre ++ t :: post) = .ok (ctx', out)) :
    ∃ c1 c2 o1 o2 o3, translateAll strict ctx (go :: pre) = .ok (c1, o1) ∧ callTranslator strict c1 t = .ok (c2, o2) ∧
      translateAll strict c2 post = .ok (ctx', o3) := by
  obtain ⟨c1, o1, o2, t1, t2, rfl⟩ := translateAll_append.1 h
  simp only [translateAll, bind_ok, pure_ok, Prod.exists, Prod.mk.injEq] at t2
  obtain ⟨c2, l2, h2, c3, l3, h3, rfl, rfl⟩ := t2
  exact ⟨c1, c2, o1, l2, l3, t1, h2, h3⟩

theorem rest_game {rest : List Cmd} (hr : Within ((["hand", "discard_from_hand", "discard_tiles", "fixed_meld",
    "meld_public_tiles", "bonus_tiles", "round", "in_richii", "score"] : List String).map (fun a => (Scope.player, a))) rest)
    {a : String} (ha : a ∈ propertyNames .game) : about (ofGame a) rest = [] := by
  refine about_within hr (by decide +kernel) ha ?_ .all
  simp

theorem rest_dealer {rest : List Cmd} (hr : Within ((["hand", "discard_from_hand", "discard_tiles", "fixed_meld",
    "meld_public_tiles", "bonus_tiles", "round", "in_richii", "score"] : List String).map (fun a => (Scope.player, a))) rest)
    (p : Nat) : about (ofPlayer p "is_dealer") rest = [] := by
  refine about_within hr (by decide +kernel) (by decide +kernel) (by decide) _

theorem dealers_game (n : Nat) (f : Nat → Val) {a : String} (ha : a ∈ propertyNames .game) :
    about (ofGame a) ((List.range n).map (fun (p : Nat) => pcmd .gameInit p "is_dealer" .replace (f p))) = [] := by
  unfold about
  rw [List.filter_eq_nil_iff]
  intro c hc
  obtain ⟨p, _, rfl⟩ := List.mem_map.1 hc
  simp only [decide_eq_true_eq]
  intro e
  have := congrArg Prod.fst e
  simp only [keyOf, pcmd, ofGame] at this
  cases this

/-- **C83.** In a record whose type `v` allows one wind (two with bit 3), a round numbered `4 * w + k` can only be dealt if
    its wind is at most one more than that; from its deal to the next one the state says it is round `k` of wind `w`, with
    the number of repeats and 1000 points for every stick of the deal. -/
theorem C83_round (strict : Bool) (ctx ctx' : Ctx) (go t : TEvent) (pre post : List TEvent) (out : List Cmd)
    (h : translateAll strict ctx (go :: pre ++ t :: post) = .ok (ctx', out))
    (hgo : go.ev.tag = "GO".toList) (v : Nat) (hv : v ≤ 65535) (he : go.ev.get "type".toList = .ok (natDigits v))
    (hpre : ∀ x ∈ pre, x.ev.tag ≠ "GO".toList) (ht : t.ev.tag = "INIT".toList)
    (hpost : ∀ x ∈ post, x.ev.tag ≠ "INIT".toList)
    (w k : Nat) (hk : k < 4) (honba sticks : Int) (mid : List Int) (d : Int) (hd : IsTile d) (oya : Nat)
    (hs : t.ev.get "seed".toList = .ok (commaList ((4 * w + k : Int) :: honba :: sticks :: mid ++ [d])))
    (ho : t.ev.get "oya".toList = .ok (natDigits oya)) :
    w ≤ (if bitSet v 3 then 2 else 1) ∧
    ctx'.vals.get (ofGame "wind") = .num (.int w) ∧ ctx'.vals.get (ofGame "round") = .num (.int k) ∧
    ctx'.vals.get (ofGame "sub_round") = .num (.int honba) ∧
    ctx'.vals.get (ofGame "richii_remain_scores") = .num (.int (1000 * sticks)) := by
  obtain ⟨c1, c2, o1, o2, o3, t1, t2, t3⟩ := split_deal h
  obtain ⟨hw, cx, rest, hr, hg⟩ := deal_shape t1 hgo hv he hpre t2 ht hk hd hs ho
  refine ⟨hw, ?_⟩
  have keep : ∀ a, a ∈ ["wind", "round", "sub_round", "richii_remain_scores"] →
      ctx'.vals.get (ofGame a) = c2.vals.get (ofGame a) := by
    intro a ha
    have hn : a ∈ propertyNames .game := by revert a; decide +kernel
    refine C81_keeps strict _ _ post o3 t3 .game a hn ?_ .all
    intro x hx
    refine not_mayChange ["INIT"] ?_ ?_ ?_
    · revert a; decide +kernel
    · simp
    · simp only [List.mem_cons, List.not_mem_nil, or_false, forall_eq]
      exact hpost x hx
  rw [keep "wind" (by decide), keep "round" (by decide), keep "sub_round" (by decide),
    keep "richii_remain_scores" (by decide)]
  have tail : ∀ a, a ∈ propertyNames .game → a ≠ "dora_indicators" → about (ofGame a)
      ((List.range (if bitSet v 4 then 3 else 4)).map (fun (p : Nat) =>
          pcmd .gameInit p "is_dealer" .replace (.bool (decide ((oya : Int) = p)))) ++
        ([gcmd .newDora "dora_indicators" .replace (strs [tileName d])] ++ rest)) = [] := by
    intro a ha hne
    rw [about_append, about_append, rest_game hr ha, dealers_game _ _ ha,
      about_gcmd_ne (by decide +kernel) ha (fun e => hne e.symm)]
    rfl
  rw [List.append_assoc, List.append_assoc, List.cons_append, List.cons_append, List.cons_append, List.cons_append,
    List.nil_append] at hg
  refine ⟨?_, ?_, ?_, ?_⟩
  · refine call_set (a := []) t2 hg rfl ?_ (.inl rfl)
    rw [about_gcmd_ne (by decide +kernel) (by decide +kernel) (by decide),
      about_gcmd_ne (by decide +kernel) (by decide +kernel) (by decide),
      about_gcmd_ne (by decide +kernel) (by decide +kernel) (by decide)]
    exact tail _ (by decide +kernel) (by decide)
  · refine call_set (a := [_]) t2 hg rfl ?_ (.inl rfl)
    rw [about_gcmd_ne (by decide +kernel) (by decide +kernel) (by decide),
      about_gcmd_ne (by decide +kernel) (by decide +kernel) (by decide)]
    exact tail _ (by decide +kernel) (by decide)
  · refine call_set (a := [_, _]) t2 hg rfl ?_ (.inl rfl)
    rw [about_gcmd_ne (by decide +kernel) (by decide +kernel) (by decide)]
    exact tail _ (by decide +kernel) (by decide)
  · refine call_set (a := [_, _, _]) t2 hg rfl ?_ (.inl rfl)
    exact tail _ (by decide +kernel) (by decide)

/-- **C83.** ... exactly the player named as dealer is the dealer, until the next deal or the next `TAIKYOKU`. -/
theorem C83_dealer (strict : Bool) (ctx ctx' : Ctx) (go t : TEvent) (pre post : List TEvent) (out : List Cmd)
    (h : translateAll strict ctx (go :: pre ++ t :: post) = .ok (ctx', out))
    (hgo : go.ev.tag = "GO".toList) (v : Nat) (hv : v ≤ 65535) (he : go.ev.get "type".toList = .ok (natDigits v))
    (hpre : ∀ x ∈ pre, x.ev.tag ≠ "GO".toList) (ht : t.ev.tag = "INIT".toList ∨ t.ev.tag = "TAIKYOKU".toList)
    (hpost : ∀ x ∈ post, x.ev.tag ≠ "INIT".toList ∧ x.ev.tag ≠ "TAIKYOKU".toList)
    (oya : Nat) (ho : t.ev.get "oya".toList = .ok (natDigits oya)) (p : Nat) (hp : p < (if bitSet v 4 then 3 else 4)) :
    ctx'.vals.get (ofPlayer p "is_dealer") = .bool (decide (oya = p)) := by
  obtain ⟨c1, c2, o1, o2, o3, t1, t2, t3⟩ := split_deal h
  obtain ⟨hn, _⟩ := go_context t1 hgo hv he hpre
  have keep : ctx'.vals.get (ofPlayer p "is_dealer") = c2.vals.get (ofPlayer p "is_dealer") := by
    refine C81_keeps strict _ _ post o3 t3 .player "is_dealer" (by decide +kernel) ?_ _
    intro x hx
    refine not_mayChange ["INIT", "TAIKYOKU"] (by decide +kernel) (by decide) ?_
    simp only [List.mem_cons, List.not_mem_nil, or_false, forall_eq_or_imp, forall_eq]
    exact hpost x hx
  rw [keep]
  obtain ⟨cx, l, hg, _, _⟩ := call_inv t2
  have hgv := call_get t2 hg (ofPlayer p "is_dealer")
  have fin : ∀ v', applyAll v' [pcmd .gameInit p "is_dealer" .replace (.bool (decide ((oya : Int) = p)))] =
      .ok (.bool (decide (oya = p))) := by
    intro v'
    rw [apply_one, new_replace]
    congr 2
    rw [decide_eq_decide]
    omega
  rcases ht with ht | ht
  · have hc := gen_handler hg (name := "INIT") (f := initCommand) (by simp [nameMatch]) ht
    obtain ⟨s, seed, ix', sub, richii, dora, s0, i, w', g, o, oya', d', names, n, rest, e1, e2, e3, e4, e5, e6, e7, e8, e9, e10,
      e11, e12, e13, e14, _, e16, rfl⟩ := init_shape hc
    rw [ho] at e10
    cases e10
    rw [pyInt_natDigits] at e11
    cases e11
    rw [hn] at e14
    cases e14
    rw [about_append, about_append, about_append, rest_dealer e16, about_each, if_pos hp, about_gcmd, about_gcmd, about_gcmd,
      about_gcmd, about_gcmd, about_nil, List.nil_append, List.append_nil, List.append_nil, fin] at hgv
    exact (Except.ok.inj hgv).symm
  · have hc := gen_handler hg (name := "TAIKYOKU") (f := taikyokuCommand) (by simp [nameMatch]) ht
    simp only [taikyokuCommand, setOya, bind_ok, pure_ok, Prod.mk.injEq] at hc
    obtain ⟨o, e10, oya', e11, l', ⟨n, e14, rfl⟩, rfl, rfl⟩ := hc
    rw [ho] at e10
    cases e10
    rw [pyInt_natDigits] at e11
    cases e11
    rw [hn] at e14
    cases e14
    rw [about_each, if_pos hp, fin] at hgv
    exact (Except.ok.inj hgv).symm

theorem dora_step {strict : Bool} {ctx ctx' : Ctx} {t : TEvent} {out : List Cmd} {names : List Str}
    (h : callTranslator strict ctx t = .ok (ctx', out)) (hi : t.ev.tag ≠ "INIT".toList)
    (hd : t.ev.tag = "DORA".toList → ∃ d : Nat, d < 136 ∧ t.ev.get "hai".toList = .ok (natDigits d))
    (hv : ctx.vals.get (ofGame "dora_indicators") = strs names) :
    ctx'.vals.get (ofGame "dora_indicators") = strs (names ++ (turnedOver t.ev).map tileName) := by
  by_cases ht : t.ev.tag = "DORA".toList
  · obtain ⟨d, hd1, hd2⟩ := hd ht
    obtain ⟨cx, l, hg, _, _⟩ := call_inv h
    have hgv := call_get h hg (ofGame "dora_indicators")
    rw [gen_vals hg, hv] at hgv
    have hc := gen_handler hg (name := "DORA") (f := doraCommand) (by simp [nameMatch]) ht
    simp only [doraCommand, bind_ok, pure_ok, Prod.mk.injEq, tileStrList] at hc
    obtain ⟨s, e1, ns, ⟨is, e2, e3⟩, rfl, rfl⟩ := hc
    rw [hd2] at e1
    cases e1
    have hcomma : natDigits d = commaList [(d : Int)] := by
      simp only [commaList, joinWith, List.map_cons, List.map_nil]
      unfold pyStrInt
      rw [if_neg (by omega)]
      simp
    rw [hcomma, intList_comma _ (by simp)] at e2
    cases e2
    rw [tileNames_eq (by simp [IsTile]; omega)] at e3
    cases e3
    have : about (ofGame "dora_indicators") [gcmd .newDora "dora_indicators" .add (strs (List.map tileName [(d : Int)]))] =
        [gcmd .newDora "dora_indicators" .add (strs (List.map tileName [(d : Int)]))] := by
      rw [about_cons, if_pos (show keyOf _ = ofGame "dora_indicators" from rfl), about_nil]
    rw [this, apply_one] at hgv
    have hadd : newValue (gcmd .newDora "dora_indicators" .add (strs (List.map tileName [(d : Int)]))) (strs names) =
        (strs names).add (strs (List.map tileName [(d : Int)])) :=
      add_kind (k := .tiles) ⟨.game, "dora_indicators", by decide +kernel, rfl⟩ _ _
    rw [hadd] at hgv
    have hto : turnedOver t.ev = [(d : Int)] := by
      unfold turnedOver
      rw [if_pos ht, hd2]
      simp [pyInt_natDigits]
    rw [hto]
    simp only [strs, Val.add, Except.ok.injEq] at hgv ⊢
    rw [← hgv, List.map_append]
  · have hto : turnedOver t.ev = [] := by unfold turnedOver; rw [if_neg ht]
    rw [hto, List.map_nil, List.append_nil, ← hv]
    refine (C81_only strict ctx ctx' t out h).1 .game "dora_indicators" (by decide +kernel) ?_ _
    refine not_mayChange ["INIT", "DORA"] (by decide +kernel) (by decide) ?_
    simp only [List.mem_cons, List.not_mem_nil, or_false, forall_eq_or_imp, forall_eq]
    exact ⟨hi, ht⟩

/-- **C83.** ... and the indicators are the one of the deal and those turned over since, in order. -/
theorem C83_dora (strict : Bool) (ctx ctx' : Ctx) (go t : TEvent) (pre post : List TEvent) (out : List Cmd)
    (h : translateAll strict ctx (go :: pre ++ t :: post) = .ok (ctx', out))
    (hgo : go.ev.tag = "GO".toList) (v : Nat) (hv : v ≤ 65535) (he : go.ev.get "type".toList = .ok (natDigits v))
    (hpre : ∀ x ∈ pre, x.ev.tag ≠ "GO".toList) (ht : t.ev.tag = "INIT".toList)
    (hpost : ∀ x ∈ post, x.ev.tag ≠ "INIT".toList)
    (hdora : ∀ x ∈ post, x.ev.tag = "DORA".toList → ∃ d : Nat, d < 136 ∧ x.ev.get "hai".toList = .ok (natDigits d))
    (w k : Nat) (hk : k < 4) (honba sticks : Int) (mid : List Int) (d : Int) (hd : IsTile d) (oya : Nat)
    (hs : t.ev.get "seed".toList = .ok (commaList ((4 * w + k : Int) :: honba :: sticks :: mid ++ [d])))
    (ho : t.ev.get "oya".toList = .ok (natDigits oya)) :
    ctx'.vals.get (ofGame "dora_indicators") = strs ((d :: post.flatMap (fun x => turnedOver x.ev)).map tileName) := by
  obtain ⟨c1, c2, o1, o2, o3, t1, t2, t3⟩ := split_deal h
  obtain ⟨hw, cx, rest, hr, hg⟩ := deal_shape t1 hgo hv he hpre t2 ht hk hd hs ho
  have start : c2.vals.get (ofGame "dora_indicators") = strs [tileName d] := by
    rw [List.append_assoc] at hg
    exact call_set t2 hg rfl (rest_game hr (by decide +kernel)) (.inl rfl)
  have : ∀ (post : List TEvent) (c c' : Ctx) (o : List Cmd) (names : List Str), translateAll strict c post = .ok (c', o) →
      (∀ x ∈ post, x.ev.tag ≠ "INIT".toList) →
      (∀ x ∈ post, x.ev.tag = "DORA".toList → ∃ d : Nat, d < 136 ∧ x.ev.get "hai".toList = .ok (natDigits d)) →
      c.vals.get (ofGame "dora_indicators") = strs names →
      c'.vals.get (ofGame "dora_indicators") = strs (names ++ (post.flatMap (fun x => turnedOver x.ev)).map tileName) := by
    intro post
    induction post with
    | nil =>
      intro c c' o names h _ _ hn
      simp only [translateAll, Except.ok.injEq, Prod.mk.injEq] at h
      rw [← h.1, hn]; simp
    | cons x xs ih =>
      intro c c' o names h h1 h2 hn
      simp only [translateAll, bind_ok, pure_ok, Prod.exists, Prod.mk.injEq] at h
      obtain ⟨c1, l1, k1, c2, l2, k2, rfl, rfl⟩ := h
      have s1 := dora_step k1 (h1 x List.mem_cons_self) (h2 x List.mem_cons_self) hn
      rw [ih _ _ _ _ k2 (fun y hy => h1 y (List.mem_cons_of_mem _ hy)) (fun y hy => h2 y (List.mem_cons_of_mem _ hy)) s1]
      simp
  rw [this post c2 ctx' o3 _ t3 hpost hdora start]
  simp

/-- a record with its `GO`, names, a deal and some play -/
def sampleNames : TEvent := ⟨0, ⟨"UN".toList, [("n0".toList, "%41".toList), ("n1".toList, "B".toList), ("n2".toList, "C".toList),
  ("n3".toList, "".toList), ("dan".toList, commaList [12, 0, 20, 3]), ("rate".toList, "1800.50,1500.00,2100.25,1500.00".toList),
  ("sx".toList, "M,F,M,F".toList)]⟩⟩

theorem sample_record : ∃ c o, translateAll true {} (sampleGo :: [sampleNames, sampleTaikyoku] ++
    ⟨1, sampleDeal.event⟩ :: sampleEvents samplePlay) = .ok (c, o) := by
  have h : (translateAll true {} (sampleGo :: [sampleNames, sampleTaikyoku] ++
    ⟨1, sampleDeal.event⟩ :: sampleEvents samplePlay)).isOk = true := by decide +kernel
  cases hx : translateAll true {} (sampleGo :: [sampleNames, sampleTaikyoku] ++
    ⟨1, sampleDeal.event⟩ :: sampleEvents samplePlay) with
  | ok r => exact ⟨r.1, r.2, rfl⟩
  | error e => rw [hx] at h; cases h

-- all hypotheses of `C83_round`, `C83_dealer` and `C83_dora` hold for it: round 0 of the first wind, player 0 is the dealer
-- and the indicators are tiles 132 (of the deal) and 80
example : ∃ c o, translateAll true {} (sampleGo :: [sampleNames, sampleTaikyoku] ++
      ⟨1, sampleDeal.event⟩ :: sampleEvents samplePlay) = .ok (c, o) ∧
    c.vals.get (ofGame "wind") = .num (.int 0) ∧ c.vals.get (ofPlayer 0 "is_dealer") = .bool true ∧
    c.vals.get (ofPlayer 1 "is_dealer") = .bool false ∧
    c.vals.get (ofGame "dora_indicators") = strs ([132, 80].map tileName) := by
  obtain ⟨c, o, h⟩ := sample_record
  have he : sampleGo.ev.get "type".toList = .ok (natDigits 169) := by decide +kernel
  have hpre : ∀ x ∈ [sampleNames, sampleTaikyoku], x.ev.tag ≠ "GO".toList := by decide +kernel
  have hpost : ∀ x ∈ sampleEvents samplePlay, x.ev.tag ≠ "INIT".toList ∧ x.ev.tag ≠ "TAIKYOKU".toList := by decide +kernel
  have ho : (sampleDeal.event).get "oya".toList = .ok (natDigits 0) := by decide +kernel
  have hs : (sampleDeal.event).get "seed".toList = .ok (commaList ((4 * (0 : Nat) + (0 : Nat) : Int) :: 0 :: 0 :: [2, 3] ++ [132])) := by
    decide +kernel
  have hdora : ∀ x ∈ sampleEvents samplePlay, x.ev.tag = "DORA".toList →
      ∃ d : Nat, d < 136 ∧ x.ev.get "hai".toList = .ok (natDigits d) := by
    intro x hx hd
    have : ∀ x ∈ sampleEvents samplePlay, x.ev.tag = "DORA".toList → x.ev.get "hai".toList = .ok (natDigits 80) := by
      decide +kernel
    exact ⟨80, by decide, this x hx hd⟩
  refine ⟨c, o, h, ?_, ?_, ?_, ?_⟩
  · exact (C83_round true {} c sampleGo ⟨1, sampleDeal.event⟩ _ _ o h (by decide) 169 (by decide) he hpre rfl (fun x hx => (hpost x hx).1) 0 0
      (by decide) 0 0 [2, 3] 132 (by unfold IsTile; decide) 0 hs ho).2.1
  · exact C83_dealer true {} c sampleGo ⟨1, sampleDeal.event⟩ _ _ o h (by decide) 169 (by decide) he hpre (.inl rfl) hpost 0 ho 0 (by decide)
  · exact C83_dealer true {} c sampleGo ⟨1, sampleDeal.event⟩ _ _ o h (by decide) 169 (by decide) he hpre (.inl rfl) hpost 0 ho 1 (by decide)
  · rw [C83_dora true {} c sampleGo ⟨1, sampleDeal.event⟩ _ _ o h (by decide) 169 (by decide) he hpre rfl (fun x hx => (hpost x hx).1) hdora 0 0
      (by decide) 0 0 [2, 3] 132 (by unfold IsTile; decide) 0 hs ho]
    decide +kernel

-- the players of the sample
example : (callTranslator true sampleCtx sampleNames).map (fun r =>
    (r.1.vals.get (ofPlayer 0 "level"), r.1.vals.get (ofPlayer 2 "level"), r.1.vals.get (ofPlayer 2 "extra_level"),
      r.1.vals.get (ofPlayer 1 "name"), r.1.vals.get (ofPlayer 3 "name"))) =
    .ok (.str "三段".toList, .str "天鳳位".toList, .num (.dec 210025 2), .str "B".toList, .none) := by decide +kernel

end Verif.Props
