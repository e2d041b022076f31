import Verif.Proofs.TranslateMeld
import Verif.Spec.Open

namespace Verif.Proofs
open Verif.Py Verif.Model Verif.Spec

/-! ### Names of norths -/

theorem name_beyond : ∀ n : Fin 120, ∃ e, (tileFromTenhou ((n.val : Int) + 136)).map Tile.str = .error e := by
  have : ∀ n : Fin 120, ((tileFromTenhou ((n.val : Int) + 136)).map Tile.str).isOk = false := by decide +kernel
  intro n
  have h := this n
  cases hx : (tileFromTenhou ((n.val : Int) + 136)).map Tile.str with
  | ok a => rw [hx] at h; cases h
  | error e => exact ⟨e, rfl⟩

theorem kita_tile {who v : Int} {m : Meld} (hm : meldOf who v = .ok m) (hk : m.cls = .kita) :
    ∃ t, 0 ≤ t ∧ t < 256 ∧ m.selfTiles = [t] ∧ m.borrowedTiles = [] := by
  have hr : 0 ≤ v ∧ v ≤ 65535 := by
    by_cases hr : 0 ≤ v ∧ v ≤ 65535
    · exact hr
    · exfalso
      have : unpackWith kitaDesc v = .error .structError := Verif.Props.C25_rejects _ _ (by omega)
      unfold meldOf at hm
      rw [this] at hm
      cases hm
  obtain ⟨_, t, h1, h2⟩ := Verif.Props.C28_shape who v m hm
  rw [hk] at h2
  cases h2
  rw [meldType_eq v hr.1 hr.2] at h1
  rw [meldOf_eq who v hr.1 hr.2] at hm
  split at h1
  · cases h1
  split at h1
  · cases h1
  split at h1
  · cases h1
  split at h1
  · rename_i a b c d
    rw [if_neg a, if_neg b, if_neg c, if_pos d, decodeKita_eq _ _ hr.1 hr.2] at hm
    cases hm
    exact ⟨v / 256, by omega, by omega, rfl, rfl⟩
  · cases h1

/-- names of the own tiles of a meld, when they have names -/
theorem own_names {who v : Int} {m : Meld} (hm : meldOf who v = .ok m) {own : List Str}
    (h : tileNames m.selfTiles = .ok own) : own = m.selfTiles.map tileName := by
  by_cases hk : m.cls = .kita
  · obtain ⟨t, h0, h1, h2, _⟩ := kita_tile hm hk
    rw [h2] at h ⊢
    by_cases hx : t < 136
    · rw [tileNames_eq (l := [t]) (by intro x hx'; simp at hx'; subst hx'; exact ⟨h0, hx⟩)] at h
      exact (Except.ok.inj h).symm
    · exfalso
      obtain ⟨e, he⟩ := name_beyond ⟨(t - 136).toNat, by omega⟩
      have : (((t - 136).toNat : Nat) : Int) + 136 = t := by omega
      rw [this] at he
      simp only [tileNames, List.mapM_cons, he, bind, Except.bind] at h
      cases h
  · have sh := (Verif.Props.C28_shape _ _ _ hm).1
    rw [tileNames_eq (fun t ht => sh.real hk t (List.mem_append_left _ ht))] at h
    exact (Except.ok.inj h).symm

theorem all_names_kita {who v : Int} {m : Meld} (hm : meldOf who v = .ok m) (hk : m.cls = .kita) {all : List Str}
    (h : tileNames (m.selfTiles ++ m.borrowedTiles).eraseDups = .ok all) : all = m.selfTiles.map tileName := by
  obtain ⟨t, _, _, h2, h3⟩ := kita_tile hm hk
  apply own_names hm
  rw [h2, h3] at h
  rw [h2]
  exact h

/-! ### Tiles laid open -/

theorem pn_public : "meld_public_tiles" ∈ propertyNames .player := by decide +kernel
theorem pn_bonus : "bonus_tiles" ∈ propertyNames .player := by decide +kernel

theorem meldsOf_one (p : Fin 4) (m : Move) : (∀ q c, m ≠ .meld q c) → meldsOf p [m] = [] := by
  intro h
  cases m with
  | meld q c => exact absurd rfl (h q c)
  | _ => rfl

theorem gen_open {ctx ctx1 : Ctx} {m : Move} {l : List Cmd} (hm : LegalMove m) (hmt : MoveTiles m)
    (hd : m.isDeal = false) (h : generate ctx m.event = .ok (ctx1, l)) (p : Fin 4) :
    about (ofPlayer p.val "meld_public_tiles") l = (meldsOf p [m]).map
      (fun x => pcmd .openHand p.val "meld_public_tiles" .add (strs (x.selfTiles.map tileName))) ∧
    about (ofPlayer p.val "bonus_tiles") l = ((meldsOf p [m]).filter (fun m => decide (m.cls = .kita))).map
      (fun x => pcmd .openHand p.val "bonus_tiles" .add (strs (x.selfTiles.map tileName))) := by
  cases m with
  | deal s hh more => cases hd
  | draw q n =>
    rw [gen_draw ctx q n hmt] at h
    cases h
    rw [about_pcmd_ne (by decide +kernel) pn_public (by decide), about_pcmd_ne (by decide +kernel) pn_bonus (by decide)]
    exact ⟨rfl, rfl⟩
  | discard q n =>
    rw [gen_discard ctx q n hmt] at h
    split at h
    · cases h
    · cases h
      simp only [discardCmds]
      constructor
      · rw [about_pcmd_ne (by decide +kernel) pn_public (by decide), about_pcmd_ne (by decide +kernel) pn_public (by decide),
          about_pcmd_ne (by decide +kernel) pn_public (by decide), about_pcmd_ne (by decide +kernel) pn_public (by decide)]
        rfl
      · rw [about_pcmd_ne (by decide +kernel) pn_bonus (by decide), about_pcmd_ne (by decide +kernel) pn_bonus (by decide),
          about_pcmd_ne (by decide +kernel) pn_bonus (by decide), about_pcmd_ne (by decide +kernel) pn_bonus (by decide)]
        rfl
  | meld q c =>
    obtain ⟨x, hx⟩ := hm
    obtain ⟨rfl, own, all, k1, k2, rfl⟩ := gen_meld_inv hx h
    by_cases hq : q = p
    · subst hq
      have e : meldsOf q [.meld q c] = [x] := by simp [meldsOf, hx]
      rw [e, own_names hx k1]
      simp only [meldCmds]
      by_cases hk : x.cls = .kita
      · rw [all_names_kita hx hk k2]
        rw [if_neg (by simp [hk])]
        constructor
        · rw [about_pcmd_self, about_pcmd_ne (by decide +kernel) pn_public (by decide),
            about_pcmd_ne (by decide +kernel) pn_public (by decide), about_nil]
          rfl
        · rw [about_pcmd_ne (by decide +kernel) pn_bonus (by decide), about_pcmd_self,
            about_pcmd_ne (by decide +kernel) pn_bonus (by decide), about_nil]
          simp [hk]
      · rw [if_pos hk]
        constructor
        · rw [about_pcmd_self, about_pcmd_ne (by decide +kernel) pn_public (by decide),
            about_pcmd_ne (by decide +kernel) pn_public (by decide), about_nil]
          rfl
        · rw [about_pcmd_ne (by decide +kernel) pn_bonus (by decide), about_pcmd_ne (by decide +kernel) pn_bonus (by decide),
            about_pcmd_ne (by decide +kernel) pn_bonus (by decide), about_nil]
          simp [hk]
    · have hqp : ((q.val : Int)) ≠ ((p.val : Nat) : Int) := by
        intro x; exact hq (Fin.ext (by omega))
      have e : meldsOf p [.meld q c] = [] := by simp [meldsOf, hq]
      rw [e]
      simp only [meldCmds]
      rw [about_pcmd_q hqp, about_pcmd_q hqp]
      split
      · rw [about_pcmd_q hqp, about_pcmd_q hqp, about_pcmd_q hqp, about_pcmd_q hqp]; exact ⟨rfl, rfl⟩
      · rw [about_pcmd_q hqp, about_pcmd_q hqp, about_pcmd_q hqp, about_pcmd_q hqp]; exact ⟨rfl, rfl⟩
  | dora n =>
    obtain ⟨rfl, nm, rfl⟩ := gen_dora_inv h
    rw [about_gcmd, about_gcmd]; exact ⟨rfl, rfl⟩
  | other e =>
    have hQ : Quiet e := hm
    rw [show (Move.other e).event = e from rfl, gen_quiet hQ] at h
    by_cases hA : e.tag = "AGARI".toList
    · rw [named_agari ctx hA] at h
      rw [agari_about h _ pn_public (by decide) (by decide), agari_about h _ pn_bonus (by decide) (by decide)]
      exact ⟨rfl, rfl⟩
    · obtain ⟨e1, e2, e3⟩ := named_quiet hQ.1 hQ.2.1 hQ.2.2.1 hA h
      rw [about_quiet e3 _ pn_public (by decide), about_quiet e3 _ pn_bonus (by decide)]
      exact ⟨rfl, rfl⟩

def OpenSim (p : Fin 4) (ctx : Ctx) (ms : List Move) : Prop :=
  ctx.vals.get (ofPlayer p.val "meld_public_tiles") = strs ((laidOf p ms).map tileName) ∧
  ctx.vals.get (ofPlayer p.val "bonus_tiles") = strs ((northsOf p ms).map tileName)

theorem meldsOf_short (p : Fin 4) (m : Move) : (meldsOf p [m]).length ≤ 1 := by
  cases m with
  | meld q c => simp only [meldsOf]; split <;> [split <;> simp; simp]
  | _ => simp [meldsOf]

theorem apply_adds {a : String} (ha : (Scope.player, a, PropKind.tiles) ∈ kindTable) (p : Nat) (l : List Str) (x : List Meld)
    (v : Val) (h : applyAll (strs l) (x.map (fun x => pcmd .openHand p a .add (strs (x.selfTiles.map tileName)))) = .ok v) :
    v = strs (l ++ (x.flatMap Meld.selfTiles).map tileName) := by
  induction x generalizing l with
  | nil => simpa [applyAll] using (Except.ok.inj h).symm
  | cons m x ih =>
    rw [List.map_cons] at h
    simp only [applyAll, new_add ha, bind, Except.bind, strs, Val.add, ← List.map_append] at h
    have := ih _ h
    rw [this]
    simp

theorem open_step {strict : Bool} {ctx ctx' : Ctx} {m : Move} {ms : List Move} {p : Fin 4} {t : TEvent} {out : List Cmd}
    (hs : OpenSim p ctx ms) (hm : LegalMove m) (hmt : MoveTiles m) (hd : m.isDeal = false) (ht : t.ev = m.event)
    (h : callTranslator strict ctx t = .ok (ctx', out)) : OpenSim p ctx' (ms ++ [m]) := by
  obtain ⟨ctx1, cs, hg, _⟩ := call_inv h
  have g1 := call_get h hg (ofPlayer p.val "meld_public_tiles")
  have g2 := call_get h hg (ofPlayer p.val "bonus_tiles")
  rw [gen_vals hg] at g1 g2
  rw [ht] at hg
  obtain ⟨o1, o2⟩ := gen_open hm hmt hd hg p
  rw [o1, hs.1] at g1
  rw [o2, hs.2] at g2
  refine ⟨?_, ?_⟩
  · rw [apply_adds (by decide) _ _ _ _ g1, laidOf, laidOf, meldsOf_append, List.flatMap_append, List.map_append]
  · rw [apply_adds (by decide) _ _ _ _ g2, northsOf, northsOf, meldsOf_append, List.filter_append, List.flatMap_append,
      List.map_append]

theorem deal_open {strict : Bool} {ctx ctx' : Ctx} {n : Nat} {p : Fin 4} {seed : List Int} {hands : Fin 4 → List Int}
    {more : List (Str × Str)} {t : TEvent} {out : List Cmd} (hn : ctx.playerCount = .ok n) (hp : p.val < n)
    (ht : t.ev = (Move.deal seed hands more).event) (h : callTranslator strict ctx t = .ok (ctx', out)) :
    OpenSim p ctx' [] := by
  obtain ⟨ctx1, cs, hg, hpost, hr, _⟩ := call_inv h
  have g1 := call_get h hg (ofPlayer p.val "meld_public_tiles")
  have g2 := call_get h hg (ofPlayer p.val "bonus_tiles")
  rw [ht, gen_init rfl] at hg
  obtain ⟨n', e1, e2, e3, e4⟩ := init_inv hg
  rw [hn] at e1
  cases e1
  obtain ⟨raw, names, scores, score, s, tt, k1, k2, k3, k4, k5, k6, k7⟩ := e4 p.val hp
  rw [k7 _ (by decide +kernel) (by decide)] at g1 g2
  simp only [dealCmds] at g1 g2
  rw [about_pcmd_ne (by decide +kernel) pn_public (by decide), about_pcmd_ne (by decide +kernel) pn_public (by decide),
    about_pcmd_self, about_pcmd_ne (by decide +kernel) pn_public (by decide),
    about_pcmd_ne (by decide +kernel) pn_public (by decide), about_pcmd_ne (by decide +kernel) pn_public (by decide),
    about_pcmd_ne (by decide +kernel) pn_public (by decide), about_pcmd_ne (by decide +kernel) pn_public (by decide),
    about_pcmd_ne (by decide +kernel) pn_public (by decide),
    about_nil, apply_one, new_reset (k := .tiles) (by decide)] at g1
  rw [about_pcmd_ne (by decide +kernel) pn_bonus (by decide), about_pcmd_ne (by decide +kernel) pn_bonus (by decide),
    about_pcmd_ne (by decide +kernel) pn_bonus (by decide), about_pcmd_self,
    about_pcmd_ne (by decide +kernel) pn_bonus (by decide), about_pcmd_ne (by decide +kernel) pn_bonus (by decide),
    about_pcmd_ne (by decide +kernel) pn_bonus (by decide), about_pcmd_ne (by decide +kernel) pn_bonus (by decide),
    about_pcmd_ne (by decide +kernel) pn_bonus (by decide),
    about_nil, apply_one, new_reset (k := .tiles) (by decide)] at g2
  exact ⟨(Except.ok.inj g1).symm, (Except.ok.inj g2).symm⟩

/-! ### Nothing is lost -/

theorem listRemove_str_inv {l : List Str} {s : Str} {r : List Val} (h : listRemove (l.map Val.str) (.str s) = .ok r) :
    s ∈ l ∧ r = (l.erase s).map Val.str := by
  by_cases hs : s ∈ l
  · rw [listRemove_str l s hs] at h
    exact ⟨hs, (Except.ok.inj h).symm⟩
  · exfalso
    have : ∀ l : List Str, s ∉ l → ∃ e, listRemove (l.map Val.str) (.str s) = .error e := by
      intro l hl
      induction l with
      | nil => exact ⟨_, rfl⟩
      | cons a l ih =>
        simp only [List.mem_cons, not_or] at hl
        obtain ⟨e, he⟩ := ih hl.2
        refine ⟨e, ?_⟩
        simp only [List.map_cons, listRemove, val_str_eq]
        rw [if_neg (by simpa using Ne.symm hl.1), he]
        rfl
    obtain ⟨e, he⟩ := this l hs
    rw [he] at h
    cases h

theorem removeLoop_str_inv (vs : List Str) : ∀ (l : List Str) (r : List Val),
    removeLoop (l.map Val.str) (vs.map Val.str) = .ok r → ∃ r', r = r'.map Val.str ∧ l.Perm (vs ++ r') := by
  induction vs with
  | nil => intro l r h; exact ⟨l, (Except.ok.inj h).symm, .refl _⟩
  | cons v vs ih =>
    intro l r h
    simp only [List.map_cons, removeLoop, bind_ok] at h
    obtain ⟨l', h1, h2⟩ := h
    obtain ⟨hm, rfl⟩ := listRemove_str_inv h1
    obtain ⟨r', rfl, hp⟩ := ih _ _ h2
    exact ⟨r', rfl, (List.perm_cons_erase hm).trans (hp.cons v)⟩

theorem removeAll_strs_inv {l vs : List Str} {v : Val} (h : removeAll (strs l) (strs vs) = .ok v) :
    ∃ r, v = strs r ∧ l.Perm (vs ++ r) := by
  simp only [strs, removeAll, Val.iter, bind_ok, pure_ok, Except.ok.injEq, exists_eq_left'] at h
  obtain ⟨r, h1, rfl⟩ := h
  obtain ⟨r', rfl, hp⟩ := removeLoop_str_inv _ _ _ h1
  exact ⟨r', rfl, hp⟩

/-- the converted hand, the names of the discards and of the tiles laid open are those dealt and drawn -/
def KeptSim (p : Fin 4) (ctx : Ctx) (dealt : List Int) (ms : List Move) : Prop :=
  ∃ names, ctx.vals.get (ofPlayer p.val "hand") = strs names ∧
    (names ++ ((discardsOf p ms).map tileName ++ (laidOf p ms).map tileName)).Perm ((dealt ++ drawsOf p ms).map tileName)

theorem drawsOf_append (p : Fin 4) (a b : List Move) : drawsOf p (a ++ b) = drawsOf p a ++ drawsOf p b := by
  simp [drawsOf]
theorem laidOf_append (p : Fin 4) (a b : List Move) : laidOf p (a ++ b) = laidOf p a ++ laidOf p b := by
  simp [laidOf, meldsOf_append]

theorem kept_step {strict : Bool} {ctx ctx' : Ctx} {p : Fin 4} {dealt : List Int} {ms : List Move} {m : Move} {t : TEvent}
    {out : List Cmd} (hs : KeptSim p ctx dealt ms) (hm : LegalMove m) (hmt : MoveTiles m) (hd : m.isDeal = false)
    (hA : ∀ e, m = .other e → e.tag ≠ "AGARI".toList) (ht : t.ev = m.event)
    (h : callTranslator strict ctx t = .ok (ctx', out)) : KeptSim p ctx' dealt (ms ++ [m]) := by
  obtain ⟨names, hv, hp⟩ := hs
  obtain ⟨ctx1, cs, hg, _⟩ := call_inv h
  have hget := call_get h hg (ofPlayer p.val "hand")
  rw [gen_vals hg, hv] at hget
  rw [ht] at hg
  have same : about (ofPlayer p.val "hand") cs = [] → discardsOf p [m] = [] → laidOf p [m] = [] → drawsOf p [m] = [] →
      KeptSim p ctx' dealt (ms ++ [m]) := by
    intro a b c d
    rw [a] at hget
    simp only [applyAll, Except.ok.injEq] at hget
    refine ⟨names, hget.symm, ?_⟩
    rw [discardsOf_append, drawsOf_append, laidOf_append, b, c, d]
    simpa using hp
  cases m with
  | deal s hh more => cases hd
  | draw q n =>
    rw [gen_draw ctx q n hmt] at hg
    cases hg
    by_cases hq : q = p
    · subst hq
      rw [about_pcmd_self, about_nil, apply_one, new_add (k := .tiles) (by decide)] at hget
      simp only [strs, Val.add, Except.ok.injEq, ← List.map_append] at hget
      refine ⟨names ++ [tileName n], hget.symm, ?_⟩
      rw [discardsOf_append, drawsOf_append, laidOf_append, show discardsOf q [.draw q n] = [] from rfl,
        show laidOf q [.draw q n] = [] from rfl, show drawsOf q [.draw q n] = [(n : Int)] by simp [drawsOf]]
      simp only [List.append_nil, ← List.append_assoc, List.map_append (l₂ := [(n : Int)]), List.map_cons, List.map_nil]
      refine List.Perm.trans ?_ (hp.append_right _)
      rw [List.perm_iff_count]
      intro a
      simp only [List.count_append]
      omega
    · have hqp : ((q.val : Int)) ≠ ((p.val : Nat) : Int) := by
        intro x; exact hq (Fin.ext (by omega))
      exact same (by rw [about_pcmd_q hqp, about_nil]) rfl rfl (by simp [drawsOf, hq])
  | discard q n =>
    rw [gen_discard ctx q n hmt] at hg
    split at hg
    · cases hg
    · cases hg
      by_cases hq : q = p
      · subst hq
        simp only [discardCmds] at hget
        rw [about_pcmd_ne (by decide +kernel) pn_hand (by decide), about_pcmd_ne (by decide +kernel) pn_hand (by decide),
          about_pcmd_self, about_pcmd_ne (by decide +kernel) pn_hand (by decide), about_nil, apply_one,
          new_remove_tiles (by decide)] at hget
        obtain ⟨r, h1, h2⟩ := removeAll_strs_inv hget
        refine ⟨r, h1, ?_⟩
        rw [discardsOf_append, drawsOf_append, laidOf_append,
          show discardsOf q [.discard q n] = [(n : Int)] by simp [discardsOf],
          show laidOf q [.discard q n] = [] from rfl, show drawsOf q [.discard q n] = [] from rfl]
        simp only [List.append_nil]
        refine List.Perm.trans ?_ hp
        refine List.Perm.trans ?_ (h2.symm.append_right _)
        rw [List.map_append, List.perm_iff_count]
        intro a
        simp only [List.map_cons, List.map_nil, List.count_append]
        omega
      · have hqp : ((q.val : Int)) ≠ ((p.val : Nat) : Int) := by
          intro x; exact hq (Fin.ext (by omega))
        exact same (by
          simp only [discardCmds]
          rw [about_pcmd_q hqp, about_pcmd_q hqp, about_pcmd_q hqp, about_pcmd_q hqp, about_nil]) (by simp [discardsOf, hq]) rfl rfl
  | meld q c =>
    obtain ⟨x, hx⟩ := hm
    obtain ⟨rfl, own, all, k1, k2, rfl⟩ := gen_meld_inv hx hg
    by_cases hq : q = p
    · subst hq
      rw [own_names hx k1] at hget
      simp only [meldCmds] at hget
      rw [about_pcmd_ne (by decide +kernel) pn_hand (by decide)] at hget
      have hmid : ∀ rest, about (ofPlayer q.val "hand") ((if x.cls ≠ .kita then
          pcmd .openHand q.val "fixed_meld" .add (.list [strs all])
          else pcmd .openHand q.val "bonus_tiles" .add (strs all)) :: rest) = about (ofPlayer q.val "hand") rest := by
        intro rest
        split
        · exact about_pcmd_ne (by decide +kernel) pn_hand (by decide) ..
        · exact about_pcmd_ne (by decide +kernel) pn_hand (by decide) ..
      rw [hmid, about_pcmd_self, about_nil, apply_one, new_remove_tiles (by decide)] at hget
      obtain ⟨r, h1, h2⟩ := removeAll_strs_inv hget
      refine ⟨r, h1, ?_⟩
      rw [discardsOf_append, drawsOf_append, laidOf_append, show discardsOf q [.meld q c] = [] from rfl,
        show laidOf q [.meld q c] = x.selfTiles by simp [laidOf, meldsOf, hx],
        show drawsOf q [.meld q c] = [] from rfl]
      simp only [List.append_nil]
      refine List.Perm.trans ?_ hp
      refine List.Perm.trans ?_ (h2.symm.append_right _)
      rw [List.map_append, List.perm_iff_count]
      intro a
      simp only [List.count_append]
      omega
    · have hqp : ((q.val : Int)) ≠ ((p.val : Nat) : Int) := by
        intro x; exact hq (Fin.ext (by omega))
      refine same ?_ rfl (by simp [laidOf, meldsOf, hq]) rfl
      simp only [meldCmds]
      rw [about_pcmd_q hqp]
      split
      · rw [about_pcmd_q hqp, about_pcmd_q hqp, about_nil]
      · rw [about_pcmd_q hqp, about_pcmd_q hqp, about_nil]
  | dora n =>
    obtain ⟨rfl, nm, rfl⟩ := gen_dora_inv hg
    exact same (by rw [about_gcmd, about_nil]) rfl rfl rfl
  | other e =>
    have hQ : Quiet e := hm
    rw [show (Move.other e).event = e from rfl, gen_quiet hQ] at hg
    obtain ⟨e1, e2, e3⟩ := named_quiet hQ.1 hQ.2.1 hQ.2.2.1 (hA e rfl) hg
    exact same (about_quiet e3 _ pn_hand (by decide)) rfl rfl rfl

theorem deal_kept {strict : Bool} {ctx ctx' : Ctx} {n : Nat} {p : Fin 4} {seed : List Int} {hands : Fin 4 → List Int}
    {more : List (Str × Str)} {t : TEvent} {out : List Cmd} (hn : ctx.playerCount = .ok n) (hp : p.val < n)
    (hne : hands p ≠ []) (hT : ∀ t ∈ hands p, IsTile t)
    (ht : t.ev = (Move.deal seed hands more).event) (h : callTranslator strict ctx t = .ok (ctx', out)) :
    KeptSim p ctx' (hands p) [] := by
  obtain ⟨ctx1, cs, hg, hpost, _⟩ := call_inv h
  have hget := call_get h hg (ofPlayer p.val "hand")
  rw [ht, gen_init rfl] at hg
  obtain ⟨n', e1, e2, e3, e4⟩ := init_inv hg
  rw [hn] at e1
  cases e1
  obtain ⟨raw, names, scores, score, s, tt, k1, k2, k3, k4, k5, k6, k7⟩ := e4 p.val hp
  rw [hai_name, get_hai] at k1
  cases k1
  rw [intList_comma _ hne] at k2
  cases k2
  rw [tileNames_eq hT] at k3
  cases k3
  rw [k7 "hand" pn_hand (by decide)] at hget
  simp only [dealCmds] at hget
  rw [about_pcmd_ne (by decide +kernel) pn_hand (by decide), about_pcmd_ne (by decide +kernel) pn_hand (by decide),
      about_pcmd_ne (by decide +kernel) pn_hand (by decide), about_pcmd_ne (by decide +kernel) pn_hand (by decide),
      about_pcmd_ne (by decide +kernel) pn_hand (by decide), about_pcmd_ne (by decide +kernel) pn_hand (by decide),
      about_pcmd_ne (by decide +kernel) pn_hand (by decide), about_pcmd_self,
      about_pcmd_ne (by decide +kernel) pn_hand (by decide), about_nil, apply_one, new_replace] at hget
  refine ⟨(hands p).map tileName, (Except.ok.inj hget).symm, ?_⟩
  simp [discardsOf, laidOf, meldsOf, drawsOf]

theorem open_sim {strict : Bool} {ctx ctx' : Ctx} {n : Nat} {p : Fin 4} {seed : List Int} {hands : Fin 4 → List Int}
    {more : List (Str × Str)} {ms : List Move} {ts : List TEvent} {out : List Cmd}
    (hn : ctx.playerCount = .ok n) (hp : p.val < n)
    (hm : ∀ m ∈ ms, LegalMove m) (hd : ∀ m ∈ ms, m.isDeal = false) (hmt : ∀ m ∈ ms, MoveTiles m)
    (ht : ts.map TEvent.ev = (Move.deal seed hands more :: ms).map Move.event)
    (h : translateAll strict ctx ts = .ok (ctx', out)) :
    OpenSim p ctx' ms ∧ ((∀ e, Move.other e ∈ ms → e.tag ≠ "AGARI".toList) → hands p ≠ [] → (∀ t ∈ hands p, IsTile t) →
      KeptSim p ctx' (hands p) ms) := by
  induction ms using List.reverseRecOn generalizing ts ctx' out with
  | nil =>
    cases ts with
    | nil => simp at ht
    | cons t ts =>
      simp only [List.map_cons, List.map_nil, List.cons.injEq, List.map_eq_nil_iff] at ht
      obtain ⟨ht, rfl⟩ := ht
      simp only [translateAll, bind_ok, pure_ok, Prod.exists, Prod.mk.injEq, Except.ok.injEq] at h
      obtain ⟨c1, l1, h1, c2, l2, ⟨rfl, rfl⟩, rfl, rfl⟩ := h
      exact ⟨deal_open hn hp ht h1, fun _ a b => deal_kept hn hp a b ht h1⟩
  | append_singleton ms m ih =>
    rcases List.eq_nil_or_concat ts with rfl | ⟨ts, t, rfl⟩
    · simp at ht
    rw [List.concat_eq_append] at ht h
    rw [← List.cons_append, List.map_append, List.map_append] at ht
    have ht1 := List.append_inj_left' ht (by simp)
    have ht2 := List.append_inj_right' ht (by simp)
    simp only [List.map_cons, List.map_nil, List.cons.injEq, and_true] at ht2
    obtain ⟨c1, o1, o2, t1, t2, rfl⟩ := translateAll_append.1 h
    simp only [translateAll, bind_ok, pure_ok, Prod.exists, Prod.mk.injEq, Except.ok.injEq] at t2
    obtain ⟨c2, l2, t2, c3, l3, ⟨rfl, rfl⟩, rfl, rfl⟩ := t2
    have i := ih (fun x hx => hm x (by simp [hx])) (fun x hx => hd x (by simp [hx]))
      (fun x hx => hmt x (by simp [hx])) ht1 t1
    refine ⟨open_step i.1 (hm m (by simp)) (hmt m (by simp)) (hd m (by simp)) ht2 t2, ?_⟩
    intro hA hne hT
    refine kept_step (i.2 (fun e he => hA e (by simp [he])) hne hT) (hm m (by simp)) (hmt m (by simp)) (hd m (by simp)) ?_ ht2 t2
    rintro e rfl
    exact hA e (by simp)

end Verif.Proofs
