import Verif.Proofs.TranslateDiscard

namespace Verif.Proofs
open Verif.Py Verif.Model Verif.Spec

theorem eraseDups_nodup {l : List Int} (h : l.Nodup) : l.eraseDups = l := by
  induction l with
  | nil => rfl
  | cons a l ih =>
    rw [List.eraseDups_cons]
    have h1 := List.nodup_cons.1 h
    have : l.filter (fun b => !b == a) = l := by
      rw [List.filter_eq_self]
      intro b hb
      have : b ≠ a := fun x => h1.1 (x ▸ hb)
      simpa using this
    rw [this, ih h1.2]

theorem meldsOf_append (p : Fin 4) (a b : List Move) : meldsOf p (a ++ b) = meldsOf p a ++ meldsOf p b := by
  induction a with
  | nil => rfl
  | cons m a ih =>
    cases m with
    | meld q c =>
      simp only [List.cons_append, meldsOf]
      split
      · split
        · simp [ih]
        · exact ih
      · exact ih
    | _ => simpa [meldsOf] using ih

/-- the entry of a meld in the converted list -/
def meldEntry (m : Meld) : Val := strs ((m.selfTiles ++ m.borrowedTiles).map tileName)

def MeldSim (p : Fin 4) (ctx : Ctx) (ms : List Move) : Prop :=
  ctx.vals.get (ofPlayer p.val "fixed_meld") =
    .list (((meldsOf p ms).filter (fun m => decide (m.cls ≠ .kita))).map meldEntry)

theorem pn_fixed : "fixed_meld" ∈ propertyNames .player := by decide +kernel

theorem gen_fixed {ctx ctx1 : Ctx} {m : Move} {l : List Cmd} (hm : LegalMove m) (hmt : MoveTiles m)
    (hd : m.isDeal = false) (h : generate ctx m.event = .ok (ctx1, l)) (p : Fin 4) :
    about (ofPlayer p.val "fixed_meld") l = ((meldsOf p [m]).filter (fun m => decide (m.cls ≠ .kita))).map
      (fun x => pcmd .openHand p.val "fixed_meld" .add (.list [meldEntry x])) := by
  cases m with
  | deal s hh more => cases hd
  | draw q n =>
    rw [gen_draw ctx q n hmt] at h
    cases h
    rw [about_pcmd_ne (by decide +kernel) pn_fixed (by decide), about_nil]; rfl
  | discard q n =>
    rw [gen_discard ctx q n hmt] at h
    split at h
    · cases h
    · cases h
      simp only [discardCmds]
      rw [about_pcmd_ne (by decide +kernel) pn_fixed (by decide), about_pcmd_ne (by decide +kernel) pn_fixed (by decide),
        about_pcmd_ne (by decide +kernel) pn_fixed (by decide), about_pcmd_ne (by decide +kernel) pn_fixed (by decide),
        about_nil]; rfl
  | meld q c =>
    obtain ⟨x, hx⟩ := hm
    obtain ⟨rfl, own, all, k1, k2, rfl⟩ := gen_meld_inv hx h
    by_cases hq : q = p
    · subst hq
      have e : meldsOf q [.meld q c] = [x] := by simp [meldsOf, hx]
      rw [e]
      simp only [meldCmds]
      rw [about_pcmd_ne (by decide +kernel) pn_fixed (by decide)]
      by_cases hk : x.cls = .kita
      · rw [if_neg (by simp [hk]), about_pcmd_ne (by decide +kernel) pn_fixed (by decide),
          about_pcmd_ne (by decide +kernel) pn_fixed (by decide), about_nil]
        simp [hk]
      · have sh := (Verif.Props.C28_shape _ _ _ hx).1
        rw [eraseDups_nodup sh.distinct, tileNames_eq (fun t ht => sh.real hk t ht)] at k2
        cases k2
        rw [if_pos hk, about_pcmd_self, about_pcmd_ne (by decide +kernel) pn_fixed (by decide), about_nil]
        simp [hk, meldEntry]
    · have hqp : ((q.val : Int)) ≠ ((p.val : Nat) : Int) := by
        intro x; exact hq (Fin.ext (by omega))
      have e : meldsOf p [.meld q c] = [] := by simp [meldsOf, hq]
      rw [e]
      simp only [meldCmds]
      rw [about_pcmd_q hqp]
      split
      · rw [about_pcmd_q hqp, about_pcmd_q hqp, about_nil]; rfl
      · rw [about_pcmd_q hqp, about_pcmd_q hqp, about_nil]; rfl
  | dora n =>
    obtain ⟨rfl, nm, rfl⟩ := gen_dora_inv h
    rw [about_gcmd, about_nil]; rfl
  | other e =>
    have hQ : Quiet e := hm
    rw [show (Move.other e).event = e from rfl, gen_quiet hQ] at h
    by_cases hA : e.tag = "AGARI".toList
    · rw [named_agari ctx hA] at h
      rw [agari_about h _ pn_fixed (by decide) (by decide)]; rfl
    · obtain ⟨e1, e2, e3⟩ := named_quiet hQ.1 hQ.2.1 hQ.2.2.1 hA h
      rw [about_quiet e3 _ pn_fixed (by decide)]; rfl

theorem meld_step {strict : Bool} {ctx ctx' : Ctx} {m : Move} {ms : List Move} {p : Fin 4} {t : TEvent} {out : List Cmd}
    (hs : MeldSim p ctx ms) (hm : LegalMove m) (hmt : MoveTiles m) (hd : m.isDeal = false) (ht : t.ev = m.event)
    (h : callTranslator strict ctx t = .ok (ctx', out)) : MeldSim p ctx' (ms ++ [m]) := by
  obtain ⟨ctx1, cs, hg, _⟩ := call_inv h
  have hget := call_get h hg (ofPlayer p.val "fixed_meld")
  rw [gen_vals hg] at hget
  rw [ht] at hg
  rw [gen_fixed hm hmt hd hg p] at hget
  unfold MeldSim at hs ⊢
  rw [meldsOf_append, List.filter_append, List.map_append]
  rw [hs] at hget
  have hl : (meldsOf p [m]).length ≤ 1 := by
    cases m with
    | meld q c => simp only [meldsOf]; split <;> [split <;> simp; simp]
    | _ => simp [meldsOf]
  match hx : (meldsOf p [m]).filter (fun m => decide (m.cls ≠ .kita)), hget with
  | [], hget => 
    rw [hx, List.map_nil] at hget
    rw [hx, List.map_nil, List.append_nil]
    exact (Except.ok.inj hget).symm
  | [x], hget =>
    rw [hx, List.map_cons, List.map_nil, apply_one, new_add (k := .melds) (by decide)] at hget
    rw [hx]
    exact (Except.ok.inj hget).symm
  | _ :: _ :: _, _ =>
    have : ((meldsOf p [m]).filter (fun m => decide (m.cls ≠ .kita))).length ≤ 1 :=
      Nat.le_trans (List.length_filter_le _ _) hl
    rw [hx] at this
    simp at this

theorem deal_melds {strict : Bool} {ctx ctx' : Ctx} {n : Nat} {p : Fin 4} {seed : List Int} {hands : Fin 4 → List Int}
    {more : List (Str × Str)} {t : TEvent} {out : List Cmd} (hn : ctx.playerCount = .ok n) (hp : p.val < n)
    (ht : t.ev = (Move.deal seed hands more).event) (h : callTranslator strict ctx t = .ok (ctx', out)) :
    MeldSim p ctx' [] := by
  obtain ⟨ctx1, cs, hg, hpost, hr, _⟩ := call_inv h
  have g := call_get h hg (ofPlayer p.val "fixed_meld")
  rw [ht, gen_init rfl] at hg
  obtain ⟨n', e1, e2, e3, e4⟩ := init_inv hg
  rw [hn] at e1
  cases e1
  obtain ⟨raw, names, scores, score, s, tt, k1, k2, k3, k4, k5, k6, k7⟩ := e4 p.val hp
  rw [k7 _ (by decide +kernel) (by decide)] at g
  simp only [dealCmds] at g
  rw [about_pcmd_ne (by decide +kernel) pn_fixed (by decide), about_pcmd_self,
    about_pcmd_ne (by decide +kernel) pn_fixed (by decide), about_pcmd_ne (by decide +kernel) pn_fixed (by decide),
    about_pcmd_ne (by decide +kernel) pn_fixed (by decide), about_pcmd_ne (by decide +kernel) pn_fixed (by decide),
    about_pcmd_ne (by decide +kernel) pn_fixed (by decide), about_pcmd_ne (by decide +kernel) pn_fixed (by decide),
    about_pcmd_ne (by decide +kernel) pn_fixed (by decide),
    about_nil, apply_one, new_reset (k := .melds) (by decide)] at g
  exact (Except.ok.inj g).symm

theorem melds_sim {strict : Bool} {ctx ctx' : Ctx} {n : Nat} {p : Fin 4} {seed : List Int} {hands : Fin 4 → List Int}
    {more : List (Str × Str)} {ms : List Move} {ts : List TEvent} {out : List Cmd}
    (hn : ctx.playerCount = .ok n) (hp : p.val < n)
    (hm : ∀ m ∈ ms, LegalMove m) (hd : ∀ m ∈ ms, m.isDeal = false) (hmt : ∀ m ∈ ms, MoveTiles m)
    (ht : ts.map TEvent.ev = (Move.deal seed hands more :: ms).map Move.event)
    (h : translateAll strict ctx ts = .ok (ctx', out)) : MeldSim p ctx' ms := by
  induction ms using List.reverseRecOn generalizing ts ctx' out with
  | nil =>
    cases ts with
    | nil => simp at ht
    | cons t ts =>
      simp only [List.map_cons, List.map_nil, List.cons.injEq, List.map_eq_nil_iff] at ht
      obtain ⟨ht, rfl⟩ := ht
      simp only [translateAll, bind_ok, pure_ok, Prod.exists, Prod.mk.injEq, Except.ok.injEq] at h
      obtain ⟨c1, l1, h1, c2, l2, ⟨rfl, rfl⟩, rfl, rfl⟩ := h
      exact deal_melds hn hp ht h1
  | append_singleton ms m ih =>
    rcases List.eq_nil_or_concat ts with rfl | ⟨ts, t, rfl⟩
    · simp at ht
    rw [List.concat_eq_append] at ht h
    rw [← List.cons_append, List.map_append, List.map_append] at ht
    have ht1 := List.append_inj_left' ht (by simp)
    have ht2 := List.append_inj_right' ht (by simp)
    simp only [List.map_cons, List.map_nil, List.cons.injEq, and_true] at ht2
    obtain ⟨c1, o1, o2, t1, t2, rfl⟩ := translateAll_append.1 h
    simp only [translateAll, bind_ok, pure_ok, Prod.exists, Prod.mk.injEq, Except.ok.injEq] at t2
    obtain ⟨c2, l2, t2, c3, l3, ⟨rfl, rfl⟩, rfl, rfl⟩ := t2
    have i := ih (fun x hx => hm x (by simp [hx])) (fun x hx => hd x (by simp [hx]))
      (fun x hx => hmt x (by simp [hx])) ht1 t1
    exact meld_step i (hm m (by simp)) (hmt m (by simp)) (hd m (by simp)) ht2 t2

/-- entries of the converted list: those of the tracked melds and one more for every added kan -/
theorem entries_count (l : List Meld) :
    (l.filter (fun m => decide (m.cls ≠ .kita))).length =
      ((finalMelds l).filter (fun m => decide (m.cls ≠ .kita))).length +
      (l.filter (fun m => decide (m.cls = .addedKan))).length := by
  induction l with
  | nil => rfl
  | cons m l ih =>
    have hu : (decide ((upgraded m l).cls ≠ .kita)) = decide (m.cls ≠ .kita) := by
      unfold upgraded
      split
      · rename_i hc
        split
        · simp [hc, kanOf]
        · rfl
      · rfl
    rw [finalMelds, List.filter_cons, List.filter_cons]
    by_cases hA : m.cls = .addedKan
    · rw [if_pos hA, if_pos (by simp [hA]), if_pos (by simp [hA])]
      simp only [List.length_cons, ih]; omega
    · rw [if_neg hA, if_neg (show ¬ (decide (m.cls = .addedKan) = true) by simpa using hA), List.filter_cons, hu]
      split
      · simp only [List.length_cons, ih]; omega
      · exact ih

end Verif.Proofs
