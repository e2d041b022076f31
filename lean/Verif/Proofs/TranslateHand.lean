import Verif.Proofs.TranslateDeal
import Verif.Proofs.StateFold2

namespace Verif.Proofs
open Verif.Py Verif.Model Verif.Spec

/-! ### Updates of single properties -/

theorem hk {a : String} {k : PropKind} (h : (Scope.player, a, k) ∈ kindTable) :
    HasKind (Verif.Model.view .player a) k := ⟨.player, a, h, rfl⟩

theorem apply_one (c : Cmd) (v : Val) : applyAll v [c] = newValue c v := by
  simp only [applyAll]
  cases newValue c v <;> rfl

theorem new_add {ev : EventType} {q : Int} {a : String} {k : PropKind} (h : (Scope.player, a, k) ∈ kindTable) (x v : Val) :
    newValue (pcmd ev q a .add x) v = v.add x := add_kind (hk h) v x

theorem new_remove_tiles {ev : EventType} {q : Int} {a : String} (h : (Scope.player, a, PropKind.tiles) ∈ kindTable) (x v : Val) :
    newValue (pcmd ev q a .remove x) v = removeAll v x := by
  show callUpdate _ _ _ _ = _
  rw [pcmd, remove_kind (hk h)]
  rfl

theorem new_replace (ev : EventType) (q : Int) (a : String) (x v : Val) : newValue (pcmd ev q a .replace x) v = .ok x := rfl
theorem new_assert (ev : EventType) (q : Int) (a : String) (x v : Val) :
    newValue (pcmd ev q a .assertEqualOrSet x) v = .ok x := rfl

/-! ### Removing names -/

theorem val_str_eq (a b : Str) : (Val.str a).eq (.str b) = decide (a = b) := by
  simp [Val.eq, Val.canon]

theorem listRemove_str (l : List Str) (s : Str) (h : s ∈ l) :
    listRemove (l.map Val.str) (.str s) = .ok ((l.erase s).map Val.str) := by
  induction l with
  | nil => simp at h
  | cons a l ih =>
    simp only [List.map_cons, listRemove, val_str_eq]
    by_cases e : a = s
    · simp [e]
    · have hm : s ∈ l := by simpa [Ne.symm e] using h
      rw [if_neg (by simpa using e), ih hm, List.erase_cons_tail (by simpa using e)]
      rfl

theorem removeLoop_str (vs : List Str) : ∀ (l : List Str) (r : List Str), l.Perm (vs ++ r) →
    ∃ r' : List Str, removeLoop (l.map Val.str) (vs.map Val.str) = .ok (r'.map Val.str) ∧ r'.Perm r := by
  induction vs with
  | nil => intro l r h; exact ⟨l, rfl, h⟩
  | cons v vs ih =>
    intro l r h
    have hm : v ∈ l := h.symm.subset (by simp)
    have h2 : (l.erase v).Perm (vs ++ r) := by
      have := h.erase v
      simpa using this
    obtain ⟨r', e, hp⟩ := ih _ _ h2
    refine ⟨r', ?_, hp⟩
    simp only [List.map_cons, removeLoop, listRemove_str l v hm]
    exact e

theorem removeAll_strs {l vs r : List Str} (h : l.Perm (vs ++ r)) :
    ∃ r', removeAll (strs l) (strs vs) = .ok (strs r') ∧ r'.Perm r := by
  obtain ⟨r', e, hp⟩ := removeLoop_str vs l r h
  refine ⟨r', ?_, hp⟩
  simp only [strs, removeAll, Val.iter, e, bind, Except.bind, pure, Except.pure]

theorem perm_setSub {l ts : List Int} (hl : l.Nodup) (hts : ts.Nodup) (hsub : ∀ t ∈ ts, t ∈ l) :
    l.Perm (ts ++ setSub l ts) := by
  have hp : (l.filter (fun y => decide (y ∈ ts))).Perm ts := by
    rw [List.perm_ext_iff_of_nodup (hl.filter _) hts]
    intro a
    simp only [List.mem_filter, decide_eq_true_eq]
    exact ⟨fun h => h.2, fun h => ⟨hsub a h, h⟩⟩
  have h2 := (List.filter_append_perm (fun y => decide (y ∈ ts)) l).symm
  unfold setSub
  have : (l.filter (fun y => decide (y ∉ ts))) = l.filter (fun x => !decide (x ∈ ts)) := by
    apply List.filter_congr; intro x _; simp
  rw [this]
  exact h2.trans (hp.append_right _)

/-! ### The hand -/

/-- the converted hand is the names of the tiles `l` -/
def HandSim (p : Fin 4) (ctx : Ctx) (l : List Int) : Prop :=
  l.Nodup ∧ (∀ t ∈ l, IsTile t) ∧
    ∃ names, ctx.vals.get (ofPlayer p.val "hand") = strs names ∧ names.Perm (l.map tileName)

theorem pn_hand : "hand" ∈ propertyNames .player := by decide +kernel

theorem about_pcmd_self (ev : EventType) (p : Nat) (a : String) (u : Update) (v : Val) (l : List Cmd) :
    about (ofPlayer p a) (pcmd ev p a u v :: l) = pcmd ev p a u v :: about (ofPlayer p a) l := by
  rw [about_cons, if_pos (show keyOf (pcmd ev p a u v) = ofPlayer p a from rfl)]

theorem about_pcmd_ne {a b : String} (ha : a ∈ propertyNames .player) (hb : b ∈ propertyNames .player) (hne : a ≠ b)
    (ev : EventType) (q : Int) (p : Nat) (u : Update) (v : Val) (l : List Cmd) :
    about (ofPlayer p b) (pcmd ev q a u v :: l) = about (ofPlayer p b) l := by
  rw [about_cons, keyOf_pcmd, if_neg]
  rw [pkey_iff ha hb]
  rintro ⟨_, h⟩
  exact hne h

theorem about_pcmd_q {q : Int} {p : Nat} (hq : q ≠ p) (ev : EventType) (a b : String) (u : Update) (v : Val) (l : List Cmd) :
    about (ofPlayer p b) (pcmd ev q a u v :: l) = about (ofPlayer p b) l := by
  rw [about_cons, keyOf_pcmd, if_neg]
  intro h
  have := congrArg Prod.fst h
  simp only [ofPlayer, Sub.num.injEq] at this
  exact hq this

theorem about_nil (k : Sub × View) : about k [] = [] := rfl

theorem about_gcmd (ev : EventType) (a b : String) (p : Nat) (u : Update) (v : Val) (l : List Cmd) :
    about (ofPlayer p b) (gcmd ev a u v :: l) = about (ofPlayer p b) l := by
  rw [about_cons, keyOf_gcmd, if_neg]
  rw [gkey_ne]; exact not_false

theorem hand_step {strict : Bool} {ctx ctx' : Ctx} {p : Fin 4} {l : List Int} {m : Move} {t : TEvent} {out : List Cmd}
    (hs : HandSim p ctx l) (hm : LegalMove m) (hmt : MoveTiles m) (hd : m.isDeal = false)
    (hA : ∀ e, m = .other e → e.tag ≠ "AGARI".toList)
    (h1 : ∀ n : Nat, m = .draw p n → (n : Int) ∉ l) (h2 : ∀ n : Nat, m = .discard p n → (n : Int) ∈ l)
    (h3 : ∀ c t, m = .meld p c → IsOwnTile p c t → t ∈ l) (ht : t.ev = m.event)
    (h : callTranslator strict ctx t = .ok (ctx', out)) :
    ∃ l', (GState.hand p l).scan m.event = .ok (.hand p l') ∧ HandSim p ctx' l' := by
  obtain ⟨hnd, htl, names, hv, hp⟩ := hs
  obtain ⟨l', s1, s2, s3⟩ := scan_hand p l (legalFor_of_play p hm hd)
  refine ⟨l', s1, s3 hnd, ?_⟩
  have hscan := handScan_move p l (legalFor_of_play p hm hd)
  unfold GState.scan at s1
  simp only [GState.scan?, hscan, bind, Except.bind, pure, Except.pure] at s1
  obtain ⟨ctx1, cs, hg, _⟩ := call_inv h
  have hget := call_get h hg (ofPlayer p.val "hand")
  rw [ht] at hg
  cases m with
  | deal s hh more => cases hd
  | draw q n =>
    rw [gen_draw ctx q n hmt] at hg
    cases hg
    by_cases hq : q = p
    · subst hq
      have hn := h1 n rfl
      simp [setInsert, hn] at s1
      subst s1
      rw [about_pcmd_self, about_nil, apply_one, new_add (k := .tiles) (by decide), hv] at hget
      simp only [strs, Val.add, Except.ok.injEq] at hget
      refine ⟨?_, names ++ [tileName n], ?_, ?_⟩
      · intro x hx
        rcases List.mem_append.1 hx with hx | hx
        · exact htl x hx
        · simp at hx; subst hx; exact ⟨by omega, by simp [MoveTiles] at hmt; omega⟩
      · rw [← hget]; simp [strs]
      · rw [List.map_append]; exact hp.append_right _
    · have hqp : ((q.val : Int)) ≠ ((p.val : Nat) : Int) := by
        intro x; exact hq (Fin.ext (by omega))
      simp [hq] at s1
      subst s1
      rw [about_pcmd_q hqp, about_nil] at hget
      simp only [applyAll, Except.ok.injEq] at hget
      exact ⟨htl, names, by rw [← hget]; exact hv, hp⟩
  | discard q n =>
    rw [gen_discard ctx q n hmt] at hg
    split at hg
    · cases hg
    · cases hg
      by_cases hq : q = p
      · subst hq
        have hn := h2 n rfl
        simp at s1
        subst s1
        have hps := perm_setSub hnd (ts := [(n : Int)]) (by simp) (by simpa using hn)
        have hps' : names.Perm ([tileName n] ++ (setSub l [(n : Int)]).map tileName) := by
          refine hp.trans ?_
          have := hps.map tileName
          simpa using this
        obtain ⟨r', e, hpr⟩ := removeAll_strs hps'
        simp only [discardCmds] at hget
        rw [about_pcmd_ne (by decide +kernel) pn_hand (by decide), about_pcmd_ne (by decide +kernel) pn_hand (by decide),
          about_pcmd_self, about_pcmd_ne (by decide +kernel) pn_hand (by decide), about_nil, apply_one,
          new_remove_tiles (by decide), hv, e] at hget
        exact ⟨fun x hx => htl x ((mem_setSub _ _ _).1 hx).1, r', (Except.ok.inj hget).symm, hpr⟩
      · have hqp : ((q.val : Int)) ≠ ((p.val : Nat) : Int) := by
          intro x; exact hq (Fin.ext (by omega))
        simp [hq] at s1
        subst s1
        simp only [discardCmds] at hget
        rw [about_pcmd_q hqp, about_pcmd_q hqp, about_pcmd_q hqp, about_pcmd_q hqp, about_nil] at hget
        simp only [applyAll, Except.ok.injEq] at hget
        exact ⟨htl, names, by rw [← hget]; exact hv, hp⟩
  | meld q c =>
    obtain ⟨x, hx⟩ := hm
    obtain ⟨rfl, own, all, k1, k2, rfl⟩ := gen_meld_inv hx hg
    by_cases hq : q = p
    · subst hq
      simp at s1
      subst s1
      have e : ownTiles q c = x.selfTiles := by unfold ownTiles; rw [hx]
      rw [e]
      have nd : x.selfTiles.Nodup := (List.nodup_append.1 (Verif.Props.C28_shape _ _ _ hx).1.distinct).1
      have hsub : ∀ t ∈ x.selfTiles, t ∈ l := fun t ht => h3 c t rfl ⟨x, hx, ht⟩
      rw [tileNames_eq (fun t ht => htl t (hsub t ht))] at k1
      cases k1
      have hps := perm_setSub hnd nd hsub
      have hps' : names.Perm (x.selfTiles.map tileName ++ (setSub l x.selfTiles).map tileName) := by
        refine hp.trans ?_
        rw [← List.map_append]
        exact hps.map tileName
      obtain ⟨r', e', hpr⟩ := removeAll_strs hps'
      simp only [meldCmds] at hget
      rw [about_pcmd_ne (by decide +kernel) pn_hand (by decide)] at hget
      have hmid : ∀ rest, about (ofPlayer q.val "hand") ((if x.cls ≠ .kita then
          pcmd .openHand q.val "fixed_meld" .add (.list [strs all])
          else pcmd .openHand q.val "bonus_tiles" .add (strs all)) :: rest) = about (ofPlayer q.val "hand") rest := by
        intro rest
        split
        · exact about_pcmd_ne (by decide +kernel) pn_hand (by decide) ..
        · exact about_pcmd_ne (by decide +kernel) pn_hand (by decide) ..
      rw [hmid, about_pcmd_self, about_nil, apply_one, new_remove_tiles (by decide), hv, e'] at hget
      exact ⟨fun t ht => htl t ((mem_setSub _ _ _).1 ht).1, r', (Except.ok.inj hget).symm, hpr⟩
    · have hqp : ((q.val : Int)) ≠ ((p.val : Nat) : Int) := by
        intro x; exact hq (Fin.ext (by omega))
      simp [hq] at s1
      subst s1
      have : about (ofPlayer p.val "hand") (meldCmds q x own all) = [] := by
        simp only [meldCmds]
        rw [about_pcmd_q hqp]
        split
        · rw [about_pcmd_q hqp, about_pcmd_q hqp, about_nil]
        · rw [about_pcmd_q hqp, about_pcmd_q hqp, about_nil]
      rw [this] at hget
      simp only [applyAll, Except.ok.injEq] at hget
      exact ⟨htl, names, by rw [← hget]; exact hv, hp⟩
  | dora n =>
    obtain ⟨rfl, nm, rfl⟩ := gen_dora_inv hg
    simp at s1
    subst s1
    rw [about_gcmd, about_nil] at hget
    simp only [applyAll, Except.ok.injEq] at hget
    exact ⟨htl, names, by rw [← hget]; exact hv, hp⟩
  | other e =>
    simp at s1
    subst s1
    have hQ : Quiet e := hm
    rw [show (Move.other e).event = e from rfl, gen_quiet hQ] at hg
    obtain ⟨e1, e2, e3⟩ := named_quiet hQ.1 hQ.2.1 hQ.2.2.1 (hA e rfl) hg
    rw [about_quiet e3 _ pn_hand (by decide), e1] at hget
    simp only [applyAll, Except.ok.injEq] at hget
    exact ⟨htl, names, by rw [← hget]; exact hv, hp⟩

end Verif.Proofs

namespace Verif.Proofs
open Verif.Py Verif.Model Verif.Spec

/-! ### Whole deals -/

theorem translateAll_last {strict : Bool} {ctx ctx' : Ctx} {ts : List TEvent} {out : List Cmd} {k : Sub × View}
    (hk : ∀ t ∈ ts, ∀ c c1 l, generate c t.ev = .ok (c1, l) → c1.vals = c.vals)
    (h : translateAll strict ctx ts = .ok (ctx', out)) :
    (about k out = [] ∧ ctx'.vals.get k = ctx.vals.get k) ∨ ∃ a c, about k out = a ++ [c] ∧ c.state = ctx'.vals.get k := by
  induction ts generalizing ctx out with
  | nil => simp only [translateAll, Except.ok.injEq, Prod.mk.injEq] at h; rw [← h.1, ← h.2]; exact .inl ⟨rfl, rfl⟩
  | cons t ts ih =>
    simp only [translateAll, bind_ok, pure_ok, Prod.exists, Prod.mk.injEq] at h
    obtain ⟨c1, l1, h1, c2, l2, h2, rfl, rfl⟩ := h
    have i := ih (fun t ht => hk t (by simp [ht])) h2
    rw [about_append]
    rcases i with ⟨i1, i2⟩ | ⟨a, c, i1, i2⟩
    · obtain ⟨cx, l, g1, g2, _⟩ := call_inv h1
      have hv := hk t (by simp) _ _ _ g1
      rw [i1, i2, List.append_nil]
      rw [hv] at g2
      exact postprocess_last g2 k
    · exact .inr ⟨about k l1 ++ a, c, by rw [i1]; simp, i2⟩

theorem agari_vals {ctx ctx1 : Ctx} {e : Event} {l : List Cmd} (h : agariCommand ctx e = .ok (ctx1, l)) : ctx1 = ctx := by
  simp only [agariCommand, bind_ok, pure_ok, Prod.exists, Prod.mk.injEq] at h
  obtain ⟨_, _, _, _, _, _, _, _, _, _, _, _, _, _, _, _, _, _, _, _, _, _, rfl, rfl⟩ := h
  rfl

theorem agari_nonempty {ctx ctx1 : Ctx} {e : Event} {l : List Cmd} (h : agariCommand ctx e = .ok (ctx1, l)) : l ≠ [] := by
  simp only [agariCommand, bind_ok, pure_ok, Prod.exists, Prod.mk.injEq] at h
  obtain ⟨_, _, _, _, _, _, _, _, _, _, _, _, _, _, _, _, _, _, _, _, _, _, rfl, rfl⟩ := h
  simp

theorem handUpdate_vals {ev : EventType} {u : Update} {q : Int} {l : List Int} {ctx ctx1 : Ctx} {cs : List Cmd}
    (h : handUpdate ev u q l ctx = .ok (ctx1, cs)) : ctx1.vals = ctx.vals := by
  unfold handUpdate at h
  cases u with
  | add =>
    match l, h with
    | [], h => cases h
    | [x], h =>
      simp only [bind_ok, pure_ok, Prod.exists, Prod.mk.injEq] at h
      obtain ⟨_, _, _, _, _, rfl, _⟩ := h
      rfl
    | _ :: _ :: _, h => cases h
  | _ =>
    simp only [bind_ok, pure_ok, Prod.exists, Prod.mk.injEq] at h
    obtain ⟨_, _, _, _, _, rfl, _⟩ := h
    rfl

theorem named_vals {ctx ctx1 : Ctx} {e : Event} {l : List Cmd} (h : translateNamed ctx e = .ok (ctx1, l)) :
    ctx1.vals = ctx.vals := by
  by_cases hI : e.tag = "INIT".toList
  · rw [named_init ctx hI] at h
    obtain ⟨n, _, h, _⟩ := init_inv h
    exact h
  by_cases hN : e.tag = "N".toList
  · rw [named_n ctx hN] at h
    simp only [openHandCommand, bind_ok, pure_ok, Prod.exists, Prod.mk.injEq] at h
    obtain ⟨_, _, _, _, _, _, _, _, _, _, c, l, hh, rfl, _⟩ := h
    exact handUpdate_vals hh
  by_cases hD : e.tag = "DORA".toList
  · rw [named_dora ctx hD] at h
    simp only [doraCommand, bind_ok, pure_ok, Prod.mk.injEq] at h
    obtain ⟨_, _, _, _, rfl, _⟩ := h
    rfl
  by_cases hA : e.tag = "AGARI".toList
  · rw [named_agari ctx hA] at h
    rw [agari_vals h]
  · exact (named_quiet hI hN hD hA h).1

/-- handlers do not touch the property values -/
theorem gen_vals {ctx ctx1 : Ctx} {e : Event} {l : List Cmd} (h : generate ctx e = .ok (ctx1, l)) : ctx1.vals = ctx.vals := by
  unfold generate at h
  simp only [bind_ok, Prod.exists] at h
  obtain ⟨a, b, h1, h⟩ := h
  have e1 := named_vals h1
  split at h
  · simp only [pure_ok, Prod.mk.injEq] at h; rw [← h.1]; exact e1
  · simp only [bind_ok, Prod.exists] at h
    obtain ⟨c, d, h2, h⟩ := h
    have e2 : c.vals = a.vals := by
      unfold drawCommand at h2
      split at h2
      · simp only [Except.ok.injEq, Prod.mk.injEq] at h2; rw [h2.1]
      · exact handUpdate_vals h2
    split at h
    · simp only [pure_ok, Prod.mk.injEq] at h; rw [← h.1, e2, e1]
    · unfold discardCommand at h
      split at h
      · simp only [Except.ok.injEq, Prod.mk.injEq] at h; rw [← h.1, e2, e1]
      · simp only [bind_ok] at h
        obtain ⟨_, _, h⟩ := h
        split at h
        · cases h
        · simp only [bind_ok, pure_ok, Prod.exists, Prod.mk.injEq] at h
          obtain ⟨_, _, h3, rfl, _⟩ := h
          rw [handUpdate_vals h3, e2, e1]

theorem last_state {strict : Bool} {ctx ctx' : Ctx} {ts : List TEvent} {out : List Cmd} (k : Sub × View)
    (h : translateAll strict ctx ts = .ok (ctx', out)) :
    (about k out = [] ∧ ctx'.vals.get k = ctx.vals.get k) ∨ ∃ a c, about k out = a ++ [c] ∧ c.state = ctx'.vals.get k :=
  translateAll_last (fun _ _ _ _ _ h => gen_vals h) h

theorem about_map (k : Sub × View) (a b : List Cmd)
    (h : a.map (fun c => { c with state := .none, timestamp := none }) =
      b.map (fun c => { c with state := .none, timestamp := none })) :
    (about k a).map (fun c => { c with state := .none, timestamp := none }) =
      (about k b).map (fun c => { c with state := .none, timestamp := none }) := by
  induction a generalizing b with
  | nil => cases b with
    | nil => rfl
    | cons x b => simp at h
  | cons x a ih =>
    cases b with
    | nil => simp at h
    | cons y b =>
      simp only [List.map_cons, List.cons.injEq] at h
      obtain ⟨h1, h2⟩ := h
      have e : keyOf x = keyOf y := by
        have a1 := congrArg Cmd.sub h1
        have a2 := congrArg Cmd.prop h1
        simp only at a1 a2
        unfold keyOf; rw [a1, a2]
      have i := ih b h2
      rw [about_cons, about_cons, e]
      split
      · simp only [List.map_cons, List.cons.injEq]; exact ⟨h1, i⟩
      · exact i

theorem hai_name : ∀ p : Fin 4, "hai".toList ++ natDigits p.val = haiName p := by decide +kernel

/-- the hand after a deal -/
theorem deal_hand {strict : Bool} {ctx ctx' : Ctx} {n : Nat} {p : Fin 4} {seed : List Int} {hands : Fin 4 → List Int}
    {more : List (Str × Str)} {t : TEvent} {out : List Cmd} (hn : ctx.playerCount = .ok n) (hp : p.val < n)
    (hne : hands p ≠ []) (hnd : (hands p).Nodup) (hT : ∀ t ∈ hands p, IsTile t)
    (ht : t.ev = (Move.deal seed hands more).event) (h : callTranslator strict ctx t = .ok (ctx', out)) :
    HandSim p ctx' (hands p) ∧ about (ofPlayer p.val "hand") out ≠ [] := by
  obtain ⟨ctx1, cs, hg, hpost, _⟩ := call_inv h
  have hget := call_get h hg (ofPlayer p.val "hand")
  rw [ht, gen_init rfl] at hg
  obtain ⟨n', e1, e2, e3, e4⟩ := init_inv hg
  rw [hn] at e1
  cases e1
  obtain ⟨raw, names, scores, score, s, tt, k1, k2, k3, k4, k5, k6, k7⟩ := e4 p.val hp
  rw [hai_name, get_hai] at k1
  cases k1
  rw [intList_comma _ hne] at k2
  cases k2
  rw [tileNames_eq hT] at k3
  cases k3
  have hab : about (ofPlayer p.val "hand") cs = [pcmd .gameInit p.val "hand" .replace (strs ((hands p).map tileName))] := by
    rw [k7 "hand" pn_hand (by decide)]
    simp only [dealCmds]
    rw [about_pcmd_ne (by decide +kernel) pn_hand (by decide), about_pcmd_ne (by decide +kernel) pn_hand (by decide),
      about_pcmd_ne (by decide +kernel) pn_hand (by decide), about_pcmd_ne (by decide +kernel) pn_hand (by decide),
      about_pcmd_ne (by decide +kernel) pn_hand (by decide), about_pcmd_ne (by decide +kernel) pn_hand (by decide),
      about_pcmd_ne (by decide +kernel) pn_hand (by decide), about_pcmd_self,
      about_pcmd_ne (by decide +kernel) pn_hand (by decide), about_nil]
  refine ⟨⟨hnd, hT, (hands p).map tileName, ?_, .refl _⟩, ?_⟩
  · rw [hab, apply_one, new_replace] at hget
    exact (Except.ok.inj hget).symm
  · have := about_map (ofPlayer p.val "hand") _ _ (postprocess_out hpost).1
    rw [hab] at this
    intro hc
    rw [hc] at this
    simp at this

theorem hands_sim {strict : Bool} {ctx ctx' : Ctx} {n : Nat} {p : Fin 4} {seed : List Int} {hands : Fin 4 → List Int}
    {more : List (Str × Str)} {ms : List Move} {ts : List TEvent} {out : List Cmd} (l0 : List Int)
    (hn : ctx.playerCount = .ok n) (hp : p.val < n)
    (hnd : (hands p).Nodup) (hT : ∀ t ∈ hands p, IsTile t)
    (hm : ∀ m ∈ Move.deal seed hands more :: ms, LegalFor p m) (hd : ∀ m ∈ ms, m.isDeal = false)
    (hmt : ∀ m ∈ ms, MoveTiles m) (hA : ∀ e, Move.other e ∈ ms → e.tag ≠ "AGARI".toList)
    (hc : Consistent p (Move.deal seed hands more :: ms))
    (ht : ts.map TEvent.ev = (Move.deal seed hands more :: ms).map Move.event)
    (h : translateAll strict ctx ts = .ok (ctx', out)) :
    ∃ l', scanEvery (.hand p l0) ((Move.deal seed hands more :: ms).map Move.event) = .ok (.hand p l') ∧
      HandSim p ctx' l' ∧ about (ofPlayer p.val "hand") out ≠ [] := by
  induction ms using List.reverseRecOn generalizing ts ctx' out with
  | nil =>
    cases ts with
    | nil => simp at ht
    | cons t ts =>
      simp only [List.map_cons, List.map_nil, List.cons.injEq, List.map_eq_nil_iff] at ht
      obtain ⟨ht, rfl⟩ := ht
      simp only [translateAll, bind_ok, pure_ok, Prod.exists, Prod.mk.injEq, Except.ok.injEq] at h
      obtain ⟨c1, l1, h1, c2, l2, ⟨rfl, rfl⟩, rfl, rfl⟩ := h
      have hdl := hm _ (List.mem_cons_self)
      obtain ⟨r1, r2⟩ := deal_hand hn hp (hdl.2 _ _ _ rfl) hnd hT ht h1
      have a := handScan_move p l0 hdl
      refine ⟨(hands p).eraseDups, ?_, ?_, by simpa using r2⟩
      · simp only [List.map_cons, List.map_nil, scanEvery, List.foldlM_cons, List.foldlM_nil, GState.scan, GState.scan?,
          a, bind, Except.bind, pure, Except.pure]
        simp
      · have hpm : (hands p).eraseDups.Perm (hands p) := by
          rw [List.perm_ext_iff_of_nodup (nodup_eraseDups _) hnd]
          intro a; rw [List.mem_eraseDups]
        obtain ⟨_, r12, names, r13, r14⟩ := r1
        exact ⟨nodup_eraseDups _, fun t ht => r12 t (List.mem_eraseDups.1 ht), names, r13,
          r14.trans (hpm.symm.map _)⟩
  | append_singleton ms m ih =>
    rcases List.eq_nil_or_concat ts with rfl | ⟨ts, t, rfl⟩
    · simp at ht
    rw [List.concat_eq_append] at ht h
    rw [← List.cons_append, List.map_append, List.map_append] at ht
    have ht1 := List.append_inj_left' ht (by simp)
    have ht2 := List.append_inj_right' ht (by simp)
    simp only [List.map_cons, List.map_nil, List.cons.injEq, and_true] at ht2
    obtain ⟨c1, o1, o2, t1, t2, rfl⟩ := translateAll_append.1 h
    simp only [translateAll, bind_ok, pure_ok, Prod.exists, Prod.mk.injEq, Except.ok.injEq] at t2
    obtain ⟨c2, l2, t2, c3, l3, ⟨rfl, rfl⟩, rfl, rfl⟩ := t2
    have hm1 : ∀ x ∈ Move.deal seed hands more :: ms, LegalFor p x := fun x hx => hm x (by
      rcases List.mem_cons.1 hx with h | h <;> simp [h])
    obtain ⟨l1, a1, a2, a3⟩ := ih hm1 (fun x hx => hd x (by simp [hx])) (fun x hx => hmt x (by simp [hx]))
      (fun e he => hA e (by simp [he]))
      (by
        intro pre x post he
        exact hc pre x (post ++ [m]) (by rw [← List.cons_append, he]; simp)) ht1 t1
    obtain ⟨l1', b1, b2, _⟩ := scan_hands p l0 _ hm1
    rw [b1] at a1
    cases a1
    have hheld : ∀ t, Held p t (Move.deal seed hands more :: ms) ↔ t ∈ l1 := by
      intro x
      rw [b2]
      constructor
      · exact fun h => .inl h
      · rintro (h | ⟨h1, h2⟩)
        · exact h
        · refine ⟨[], _, ms, rfl, ?_, fun y hy => h2 y (by simp [hy])⟩
          have := h2 _ List.mem_cons_self
          simp only [Loses, Classical.not_not] at this
          exact this
    have hcm := hc (Move.deal seed hands more :: ms) m [] (by simp)
    obtain ⟨l2', r1, r2⟩ := hand_step a2 (hm m (by simp)).1 (hmt m (by simp)) (hd m (by simp))
      (fun e he => hA e (by simp [he]))
      (fun n hn h => hcm.1 n hn ((hheld _).2 h)) (fun n hn => (hheld _).1 (hcm.2.1 n hn))
      (fun c t hn ho => (hheld _).1 (hcm.2.2 c t hn ho)) ht2 t2
    refine ⟨l2', ?_, r2, ?_⟩
    · rw [← List.cons_append, List.map_append, scanEvery_append, b1]
      show scanEvery _ [m.event] = _
      rw [scanEvery_cons, r1]; rfl
    · rw [about_append]
      intro x
      exact a3 (List.append_eq_nil_iff.1 x).1

end Verif.Proofs
