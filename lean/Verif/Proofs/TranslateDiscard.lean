import Verif.Proofs.TranslateHand

namespace Verif.Proofs
open Verif.Py Verif.Model Verif.Spec

/-- properties only deals and discards change -/
def discardNames : List String := ["round", "discard_from_hand", "discard_tiles"]

theorem discardNames_sub : ∀ b ∈ discardNames, b ∈ propertyNames .player := by decide +kernel

theorem about_ne_list {a b : String} {bs : List String} (hbs : ∀ b ∈ bs, b ∈ propertyNames .player) (hb : b ∈ bs)
    (ha : a ∈ propertyNames .player) (hna : a ∉ bs)
    (ev : EventType) (q : Int) (p : Nat) (u : Update) (v : Val) (l : List Cmd) :
    about (ofPlayer p b) (pcmd ev q a u v :: l) = about (ofPlayer p b) l :=
  about_pcmd_ne ha (hbs b hb) (fun h => hna (h ▸ hb)) ..

theorem agari_about {ctx ctx1 : Ctx} {e : Event} {l : List Cmd} (h : agariCommand ctx e = .ok (ctx1, l)) (p : Nat)
    {b : String} (hb : b ∈ propertyNames .player) (hq : b ∉ quietNames) (hh : b ≠ "hand") :
    about (ofPlayer p b) l = [] := by
  simp only [agariCommand, bind_ok, pure_ok, Prod.exists, Prod.mk.injEq] at h
  obtain ⟨_, _, _, _, _, _, _, _, _, _, _, _, _, _, _, _, _, _, _, _, rest, hg, rfl, rfl⟩ := h
  simp only [List.cons_append, List.nil_append]
  rw [about_pcmd_ne pn_hand hb (fun x => hh x.symm), about_gcmd, about_quiet (gameFinish_quiet hg) _ hb hq]

/-- the last drawn tile of `p` after a move -/
def rightAfter (p : Fin 4) (old : Option (Option Int)) : Move → Option (Option Int)
  | .draw q t => if q = p then some (some (t : Int)) else old
  | .discard q _ => if q = p then some none else old
  | .meld q _ => if q = p then some none else old
  | _ => old

/-- what a move that is no deal does to the last drawn tile and the discards of `p` -/
theorem gen_move {ctx ctx1 : Ctx} {m : Move} {l : List Cmd} (hm : LegalMove m) (hmt : MoveTiles m)
    (hd : m.isDeal = false) (h : generate ctx m.event = .ok (ctx1, l)) (p : Fin 4) :
    (ctx1.right.lookup (p.val : Int) = rightAfter p (ctx.right.lookup (p.val : Int)) m) ∧
    ((∃ t last, m = .discard p t ∧ ctx.right.lookup (p.val : Int) = some last ∧
        l = discardCmds p t last) ∨
      ((∀ t, m ≠ .discard p t) ∧ ∀ b ∈ discardNames, about (ofPlayer p.val b) l = [])) := by
  have pq : ∀ q : Fin 4, ((p.val : Int) = (q.val : Int)) = (q = p) := by
    intro q; apply propext; constructor
    · intro x; exact Fin.ext (by omega)
    · rintro rfl; rfl
  cases m with
  | deal s hh more => cases hd
  | draw q n =>
    rw [gen_draw ctx q n hmt] at h
    cases h
    refine ⟨?_, .inr ⟨by simp, ?_⟩⟩
    · simp only [lookup_putKey, pq, rightAfter]
    · intro b hb
      rw [about_ne_list discardNames_sub hb (by decide +kernel) (by decide), about_nil]
  | discard q n =>
    rw [gen_discard ctx q n hmt] at h
    split at h
    · cases h
    · rename_i last hl
      cases h
      refine ⟨by simp only [lookup_putKey, pq, rightAfter], ?_⟩
      by_cases hq : q = p
      · subst hq
        exact .inl ⟨n, last, rfl, hl, rfl⟩
      · refine .inr ⟨fun t ht => hq (by cases ht; rfl), ?_⟩
        intro b hb
        have hqp : ((q.val : Int)) ≠ ((p.val : Nat) : Int) := by
          intro x; exact hq (Fin.ext (by omega))
        simp only [discardCmds]
        rw [about_pcmd_q hqp, about_pcmd_q hqp, about_pcmd_q hqp, about_pcmd_q hqp, about_nil]
  | meld q c =>
    obtain ⟨x, hx⟩ := hm
    obtain ⟨rfl, own, all, k1, k2, rfl⟩ := gen_meld_inv hx h
    refine ⟨by simp only [lookup_putKey, pq, rightAfter], .inr ⟨by simp, ?_⟩⟩
    intro b hb
    simp only [meldCmds]
    rw [about_ne_list discardNames_sub hb (by decide +kernel) (by decide)]
    split
    · rw [about_ne_list discardNames_sub hb (by decide +kernel) (by decide),
        about_ne_list discardNames_sub hb (by decide +kernel) (by decide), about_nil]
    · rw [about_ne_list discardNames_sub hb (by decide +kernel) (by decide),
        about_ne_list discardNames_sub hb (by decide +kernel) (by decide), about_nil]
  | dora n =>
    obtain ⟨rfl, nm, rfl⟩ := gen_dora_inv h
    refine ⟨rfl, .inr ⟨by simp, ?_⟩⟩
    intro b hb
    rw [about_gcmd, about_nil]
  | other e =>
    have hQ : Quiet e := hm
    rw [show (Move.other e).event = e from rfl, gen_quiet hQ] at h
    by_cases hA : e.tag = "AGARI".toList
    · rw [named_agari ctx hA] at h
      refine ⟨by rw [agari_vals h]; rfl, .inr ⟨by simp, ?_⟩⟩
      intro b hb
      exact agari_about h _ (discardNames_sub b hb) ((show ∀ b ∈ discardNames, b ∉ quietNames by decide) b hb)
        ((show ∀ b ∈ discardNames, b ≠ "hand" by decide) b hb)
    · obtain ⟨e1, e2, e3⟩ := named_quiet hQ.1 hQ.2.1 hQ.2.2.1 hA h
      refine ⟨by rw [e2]; rfl, .inr ⟨by simp, ?_⟩⟩
      intro b hb
      exact about_quiet e3 _ (discardNames_sub b hb) ((show ∀ b ∈ discardNames, b ∉ quietNames by decide) b hb)

/-- the translation knows the tile `p` drew last, if it is the last change of the hand -/
def RightSim (p : Fin 4) (ctx : Ctx) (ms : List Move) : Prop :=
  ∃ last, ctx.right.lookup (p.val : Int) = some last ∧ ∀ t : Nat, last = some (t : Int) ↔ LastDrew p t ms

theorem lastDrew_snoc (p : Fin 4) (t : Nat) (ms : List Move) (m : Move) :
    LastDrew p t (ms ++ [m]) ↔ m = .draw p t ∨ (¬ ChangesHand p m ∧ LastDrew p t ms) := by
  constructor
  · rintro ⟨a, z, he, hz⟩
    rcases List.eq_nil_or_concat z with rfl | ⟨z', y, rfl⟩
    · have := List.append_inj_right' he (by simp)
      simp only [List.cons.injEq, and_true] at this
      exact .inl this
    · rw [List.concat_eq_append, show a ++ Move.draw p t :: (z' ++ [y]) = (a ++ Move.draw p t :: z') ++ [y] by simp] at he
      have h1 := List.append_inj_left' he (by simp)
      have h2 := List.append_inj_right' he (by simp)
      simp only [List.cons.injEq, and_true] at h2
      subst h2
      exact .inr ⟨hz m (by simp), a, z', h1, fun x hx => hz x (by simp [hx])⟩
  · rintro (rfl | ⟨hm, a, z, rfl, hz⟩)
    · exact ⟨ms, [], rfl, by simp⟩
    · refine ⟨a, z ++ [m], by simp, ?_⟩
      intro x hx
      rcases List.mem_append.1 hx with h | h
      · exact hz x h
      · simp at h; subst h; exact hm

theorem right_step {ctx ctx1 : Ctx} {m : Move} {l : List Cmd} {ms : List Move} {p : Fin 4} (hs : RightSim p ctx ms)
    (hm : LegalMove m) (hmt : MoveTiles m)
    (hd : m.isDeal = false) (h : generate ctx m.event = .ok (ctx1, l)) : RightSim p ctx1 (ms ++ [m]) := by
  obtain ⟨last, h1, h2⟩ := hs
  obtain ⟨hr, _⟩ := gen_move hm hmt hd h p
  unfold RightSim
  rw [hr]
  cases m with
  | deal s hh more => cases hd
  | draw q n =>
    by_cases hq : q = p
    · subst hq
      refine ⟨some n, by simp [rightAfter], ?_⟩
      intro t
      rw [lastDrew_snoc]
      simp [ChangesHand]
      omega
    · refine ⟨last, by simp [rightAfter, hq, h1], ?_⟩
      intro t
      rw [lastDrew_snoc, h2]
      simp [ChangesHand, hq]
  | discard q n =>
    by_cases hq : q = p
    · refine ⟨none, by simp [rightAfter, hq], ?_⟩
      intro t
      rw [lastDrew_snoc]
      simp [ChangesHand, hq]
    · refine ⟨last, by simp [rightAfter, hq, h1], ?_⟩
      intro t
      rw [lastDrew_snoc, h2]
      simp [ChangesHand, hq]
  | meld q n =>
    by_cases hq : q = p
    · refine ⟨none, by simp [rightAfter, hq], ?_⟩
      intro t
      rw [lastDrew_snoc]
      simp [ChangesHand, hq]
    · refine ⟨last, by simp [rightAfter, hq, h1], ?_⟩
      intro t
      rw [lastDrew_snoc, h2]
      simp [ChangesHand, hq]
  | dora n => 
    refine ⟨last, h1, ?_⟩
    intro t
    rw [lastDrew_snoc, h2]
    simp [ChangesHand]
  | other e => 
    refine ⟨last, h1, ?_⟩
    intro t
    rw [lastDrew_snoc, h2]
    simp [ChangesHand]

/-- the discards of `p` after the deal `d` and the moves `ms` -/
def DiscardSim (p : Fin 4) (ctx : Ctx) (d : Move) (ms : List Move) : Prop :=
  ctx.vals.get (ofPlayer p.val "round") = .num (.int (discardsOf p ms).length) ∧
  ctx.vals.get (ofPlayer p.val "discard_tiles") = strs ((discardsOf p ms).map tileName) ∧
  ∃ bs : List Bool, ctx.vals.get (ofPlayer p.val "discard_from_hand") = .list (bs.map Val.bool) ∧
    bs.length = (discardsOf p ms).length ∧
    ∀ pre t post, ms = pre ++ .discard p t :: post →
      ∃ b, bs[(discardsOf p pre).length]? = some b ∧ (b = false ↔ LastDrew p t (d :: pre))

theorem discardsOf_append (p : Fin 4) (a b : List Move) : discardsOf p (a ++ b) = discardsOf p a ++ discardsOf p b := by
  simp [discardsOf]

theorem num_add_one (n : Nat) : (Num.int (n : Int)).add (.int 1) = .int ((n + 1 : Nat) : Int) := by
  simp [Num.add, Num.norm, Num.num, Num.scale]

theorem discard_step {strict : Bool} {ctx ctx' : Ctx} {d m : Move} {ms : List Move} {p : Fin 4} {t : TEvent} {out : List Cmd}
    (hs : RightSim p ctx (d :: ms)) (hD : DiscardSim p ctx d ms) (hm : LegalMove m) (hmt : MoveTiles m)
    (hd : m.isDeal = false) (ht : t.ev = m.event) (h : callTranslator strict ctx t = .ok (ctx', out)) :
    RightSim p ctx' (d :: (ms ++ [m])) ∧ DiscardSim p ctx' d (ms ++ [m]) := by
  obtain ⟨ctx1, cs, hg, hp, hr, _⟩ := call_inv h
  have hget := call_get h hg
  have hv := gen_vals hg
  rw [ht] at hg
  have hR := right_step hs hm hmt hd hg
  refine ⟨?_, ?_⟩
  · unfold RightSim at hR ⊢
    rw [hr]; simpa using hR
  obtain ⟨d1, d2, bs, d3, d4, d5⟩ := hD
  rcases (gen_move hm hmt hd hg p).2 with ⟨tl, last, rfl, hl, rfl⟩ | ⟨hno, hab⟩
  · obtain ⟨last', q1, q2⟩ := hs
    rw [hl] at q1
    cases q1
    have g1 := hget (ofPlayer p.val "round")
    have g2 := hget (ofPlayer p.val "discard_tiles")
    have g3 := hget (ofPlayer p.val "discard_from_hand")
    rw [hv] at g1 g2 g3
    simp only [discardCmds] at g1 g2 g3
    rw [about_pcmd_self, about_pcmd_ne (by decide +kernel) (by decide +kernel) (by decide),
      about_pcmd_ne (by decide +kernel) (by decide +kernel) (by decide),
      about_pcmd_ne (by decide +kernel) (by decide +kernel) (by decide), about_nil, apply_one, new_add (k := .index) (by decide), d1] at g1
    rw [about_pcmd_ne (by decide +kernel) (by decide +kernel) (by decide),
      about_pcmd_ne (by decide +kernel) (by decide +kernel) (by decide),
      about_pcmd_ne (by decide +kernel) (by decide +kernel) (by decide), about_pcmd_self, about_nil, apply_one,
      new_add (k := .tiles) (by decide), d2] at g2
    rw [about_pcmd_ne (by decide +kernel) (by decide +kernel) (by decide), about_pcmd_self,
      about_pcmd_ne (by decide +kernel) (by decide +kernel) (by decide),
      about_pcmd_ne (by decide +kernel) (by decide +kernel) (by decide), about_nil, apply_one, new_add (k := .list) (by decide), d3] at g3
    have hdis : discardsOf p (ms ++ [.discard p tl]) = discardsOf p ms ++ [(tl : Int)] := by
      rw [discardsOf_append]; simp [discardsOf]
    refine ⟨?_, ?_, bs ++ [decide (some (tl : Int) ≠ last)], ?_, ?_, ?_⟩
    · rw [hdis, ← Except.ok.inj g1, num_add_one]; simp
    · rw [hdis, ← Except.ok.inj g2]; simp [strs]
    · rw [← Except.ok.inj g3]; simp
    · rw [hdis]; simp [d4]
    · intro pre t post he
      rcases List.eq_nil_or_concat post with rfl | ⟨post', y, rfl⟩
      · have h1 := List.append_inj_left' he (by simp)
        have h2 := List.append_inj_right' he (by simp)
        simp only [List.cons.injEq, and_true, Move.discard.injEq, true_and] at h2
        subst h1 h2
        refine ⟨decide (some (tl : Int) ≠ last), ?_, ?_⟩
        · rw [← d4, List.getElem?_append_right (by omega)]; simp
        · rw [← q2]
          simp only [ne_eq, decide_eq_false_iff_not, Classical.not_not]
          exact ⟨fun x => x.symm, fun x => x.symm⟩
      · rw [List.concat_eq_append, show pre ++ Move.discard p t :: (post' ++ [y]) = (pre ++ Move.discard p t :: post') ++ [y] by simp] at he
        have h1 := List.append_inj_left' he (by simp)
        obtain ⟨b, b1, b2⟩ := d5 pre t post' h1
        refine ⟨b, ?_, b2⟩
        rw [List.getElem?_append_left]
        · exact b1
        · exact (List.getElem?_eq_some_iff.1 b1).1
  · have hdis : discardsOf p (ms ++ [m]) = discardsOf p ms := by
      rw [discardsOf_append]
      cases m with
      | discard q n =>
        have : q ≠ p := fun x => hno n (by rw [x])
        simp [discardsOf, this]
      | _ => simp [discardsOf]
    have key : ∀ b ∈ discardNames, ctx'.vals.get (ofPlayer p.val b) = ctx.vals.get (ofPlayer p.val b) := by
      intro b hb
      have := hget (ofPlayer p.val b)
      rw [hab b hb, hv] at this
      exact (Except.ok.inj this).symm
    refine ⟨?_, ?_, bs, ?_, ?_, ?_⟩
    · rw [key _ (by decide), hdis, d1]
    · rw [key _ (by decide), hdis, d2]
    · rw [key _ (by decide), d3]
    · rw [hdis, d4]
    · intro pre t post he
      rcases List.eq_nil_or_concat post with rfl | ⟨post', y, rfl⟩
      · have h2 := List.append_inj_right' he (by simp)
        simp only [List.cons.injEq, and_true] at h2
        exact absurd h2 (hno t)
      · rw [List.concat_eq_append, show pre ++ Move.discard p t :: (post' ++ [y]) = (pre ++ Move.discard p t :: post') ++ [y] by simp] at he
        exact d5 pre t post' (List.append_inj_left' he (by simp))

theorem new_reset {ev : EventType} {q : Int} {a : String} {k : PropKind} (h : (Scope.player, a, k) ∈ kindTable) (x v : Val) :
    newValue (pcmd ev q a .resetDefault x) v =
      (if k = .index then .ok (.num (.int 0)) else if k.isList then .ok (.list []) else .error .valueError) :=
  default_kind (hk h)

theorem deal_discards {strict : Bool} {ctx ctx' : Ctx} {n : Nat} {p : Fin 4} {seed : List Int} {hands : Fin 4 → List Int}
    {more : List (Str × Str)} {t : TEvent} {out : List Cmd} (hn : ctx.playerCount = .ok n) (hp : p.val < n)
    (ht : t.ev = (Move.deal seed hands more).event) (h : callTranslator strict ctx t = .ok (ctx', out)) :
    RightSim p ctx' [Move.deal seed hands more] ∧ DiscardSim p ctx' (Move.deal seed hands more) [] := by
  obtain ⟨ctx1, cs, hg, hpost, hr, _⟩ := call_inv h
  have hget := call_get h hg
  rw [ht, gen_init rfl] at hg
  obtain ⟨n', e1, e2, e3, e4⟩ := init_inv hg
  rw [hn] at e1
  cases e1
  obtain ⟨raw, names, scores, score, s, tt, k1, k2, k3, k4, k5, k6, k7⟩ := e4 p.val hp
  refine ⟨⟨none, ?_, ?_⟩, ?_⟩
  · rw [hr, e3, if_pos ⟨p.val, List.mem_range.2 hp, rfl⟩]
  · intro t
    simp only [reduceCtorEq, false_iff]
    rintro ⟨a, z, he, _⟩
    cases a with
    | nil => simp at he
    | cons x a => simp at he
  · have g1 := hget (ofPlayer p.val "round")
    have g2 := hget (ofPlayer p.val "discard_tiles")
    have g3 := hget (ofPlayer p.val "discard_from_hand")
    rw [k7 _ (by decide +kernel) (by decide)] at g1 g2 g3
    simp only [dealCmds] at g1 g2 g3
    rw [about_pcmd_ne (by decide +kernel) (by decide +kernel) (by decide),
      about_pcmd_ne (by decide +kernel) (by decide +kernel) (by decide),
      about_pcmd_ne (by decide +kernel) (by decide +kernel) (by decide),
      about_pcmd_ne (by decide +kernel) (by decide +kernel) (by decide), about_pcmd_self,
      about_pcmd_ne (by decide +kernel) (by decide +kernel) (by decide),
      about_pcmd_ne (by decide +kernel) (by decide +kernel) (by decide),
      about_pcmd_ne (by decide +kernel) (by decide +kernel) (by decide),
      about_pcmd_ne (by decide +kernel) (by decide +kernel) (by decide), about_nil, apply_one, new_reset (k := .index) (by decide)] at g1
    rw [about_pcmd_self, about_pcmd_ne (by decide +kernel) (by decide +kernel) (by decide),
      about_pcmd_ne (by decide +kernel) (by decide +kernel) (by decide),
      about_pcmd_ne (by decide +kernel) (by decide +kernel) (by decide),
      about_pcmd_ne (by decide +kernel) (by decide +kernel) (by decide), 
      about_pcmd_ne (by decide +kernel) (by decide +kernel) (by decide),
      about_pcmd_ne (by decide +kernel) (by decide +kernel) (by decide),
      about_pcmd_ne (by decide +kernel) (by decide +kernel) (by decide),
      about_pcmd_ne (by decide +kernel) (by decide +kernel) (by decide), about_nil, apply_one, new_reset (k := .tiles) (by decide)] at g2
    rw [about_pcmd_ne (by decide +kernel) (by decide +kernel) (by decide),
      about_pcmd_ne (by decide +kernel) (by decide +kernel) (by decide),
      about_pcmd_ne (by decide +kernel) (by decide +kernel) (by decide),
      about_pcmd_ne (by decide +kernel) (by decide +kernel) (by decide), 
      about_pcmd_ne (by decide +kernel) (by decide +kernel) (by decide),
      about_pcmd_ne (by decide +kernel) (by decide +kernel) (by decide), about_pcmd_self, 
      about_pcmd_ne (by decide +kernel) (by decide +kernel) (by decide),
      about_pcmd_ne (by decide +kernel) (by decide +kernel) (by decide), about_nil, apply_one, new_reset (k := .list) (by decide)] at g3
    refine ⟨(Except.ok.inj g1).symm, (Except.ok.inj g2).symm, [], (Except.ok.inj g3).symm, rfl, ?_⟩
    intro pre t post he
    simp at he

theorem discards_sim {strict : Bool} {ctx ctx' : Ctx} {n : Nat} {p : Fin 4} {seed : List Int} {hands : Fin 4 → List Int}
    {more : List (Str × Str)} {ms : List Move} {ts : List TEvent} {out : List Cmd}
    (hn : ctx.playerCount = .ok n) (hp : p.val < n)
    (hm : ∀ m ∈ ms, LegalMove m) (hd : ∀ m ∈ ms, m.isDeal = false) (hmt : ∀ m ∈ ms, MoveTiles m)
    (ht : ts.map TEvent.ev = (Move.deal seed hands more :: ms).map Move.event)
    (h : translateAll strict ctx ts = .ok (ctx', out)) :
    RightSim p ctx' (Move.deal seed hands more :: ms) ∧ DiscardSim p ctx' (Move.deal seed hands more) ms := by
  induction ms using List.reverseRecOn generalizing ts ctx' out with
  | nil =>
    cases ts with
    | nil => simp at ht
    | cons t ts =>
      simp only [List.map_cons, List.map_nil, List.cons.injEq, List.map_eq_nil_iff] at ht
      obtain ⟨ht, rfl⟩ := ht
      simp only [translateAll, bind_ok, pure_ok, Prod.exists, Prod.mk.injEq, Except.ok.injEq] at h
      obtain ⟨c1, l1, h1, c2, l2, ⟨rfl, rfl⟩, rfl, rfl⟩ := h
      exact deal_discards hn hp ht h1
  | append_singleton ms m ih =>
    rcases List.eq_nil_or_concat ts with rfl | ⟨ts, t, rfl⟩
    · simp at ht
    rw [List.concat_eq_append] at ht h
    rw [← List.cons_append, List.map_append, List.map_append] at ht
    have ht1 := List.append_inj_left' ht (by simp)
    have ht2 := List.append_inj_right' ht (by simp)
    simp only [List.map_cons, List.map_nil, List.cons.injEq, and_true] at ht2
    obtain ⟨c1, o1, o2, t1, t2, rfl⟩ := translateAll_append.1 h
    simp only [translateAll, bind_ok, pure_ok, Prod.exists, Prod.mk.injEq, Except.ok.injEq] at t2
    obtain ⟨c2, l2, t2, c3, l3, ⟨rfl, rfl⟩, rfl, rfl⟩ := t2
    obtain ⟨i1, i2⟩ := ih (fun x hx => hm x (by simp [hx])) (fun x hx => hd x (by simp [hx]))
      (fun x hx => hmt x (by simp [hx])) ht1 t1
    exact discard_step i1 i2 (hm m (by simp)) (hmt m (by simp)) (hd m (by simp)) ht2 t2

end Verif.Proofs
