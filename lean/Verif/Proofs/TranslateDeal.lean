import Verif.Proofs.TranslateQuiet

namespace Verif.Proofs
open Verif.Py Verif.Model Verif.Spec

/-- the commands of a deal for player `p` -/
def dealCmds (p : Nat) (names : List Str) (score : Num) : List Cmd :=
  [pcmd .gameInit p "discard_tiles" .resetDefault, pcmd .gameInit p "fixed_meld" .resetDefault,
    pcmd .gameInit p "meld_public_tiles" .resetDefault, pcmd .gameInit p "bonus_tiles" .resetDefault,
    pcmd .gameInit p "round" .resetDefault, pcmd .gameInit p "in_richii" .replace (.bool false),
    pcmd .gameInit p "discard_from_hand" .resetDefault, pcmd .gameInit p "hand" .replace (strs names),
    pcmd .gameInit p "score" .assertEqualOrSet (.num (score.times 100))]

theorem initPlayer_inv {e : Event} {p : Nat} {ctx ctx1 : Ctx} {l : List Cmd} (h : initPlayer e p ctx = .ok (ctx1, l)) :
    ctx1 = { ctx with right := putKey ctx.right (p : Int) none } ∧
    ∃ raw names scores score s t, e.get ("hai".toList ++ natDigits p) = .ok s ∧ intList s = .ok raw ∧
      tileNames raw = .ok names ∧ e.get "ten".toList = .ok t ∧ numberList t = .ok scores ∧
      pyIdx scores (p : Int) = .ok score ∧ l = dealCmds p names score := by
  simp only [initPlayer, bind_ok, pure_ok, Prod.exists, Prod.mk.injEq] at h
  obtain ⟨t, h1, scores, h2, s, h3, raw, h4, c, hand, h5, score, h6, rfl, rfl⟩ := h
  simp only [handUpdate, bind_ok, pure_ok, Prod.exists, Prod.mk.injEq] at h5
  obtain ⟨a, b, ⟨rfl, rfl⟩, names, h7, rfl, rfl⟩ := h5
  exact ⟨rfl, raw, names, scores, score, s, t, h3, h4, h7, h1, h2, h6, rfl⟩

theorem about_other_sub {l : List Cmd} {q p : Nat} (h : ∀ c ∈ l, c.sub = .num (q : Int)) (hne : q ≠ p) (b : String) :
    about (ofPlayer p b) l = [] := by
  unfold about
  rw [List.filter_eq_nil_iff]
  intro c hc
  simp only [decide_eq_true_eq]
  intro e
  have h1 := congrArg Prod.fst e
  have h2 := h c hc
  simp only [keyOf, ofPlayer] at h1
  rw [h2] at h1
  simp only [Sub.num.injEq] at h1
  omega

theorem dealCmds_sub (p : Nat) (names : List Str) (score : Num) : ∀ c ∈ dealCmds p names score, c.sub = .num (p : Int) := by
  intro c hc
  simp only [dealCmds, List.mem_cons, List.not_mem_nil, or_false] at hc
  rcases hc with rfl | rfl | rfl | rfl | rfl | rfl | rfl | rfl | rfl <;> rfl

theorem initPlayers_none {e : Event} {ps : List Nat} {p : Nat} (hp : p ∉ ps) {ctx ctx1 : Ctx} {l : List Cmd}
    (h : forPlayers (initPlayer e) ps ctx = .ok (ctx1, l)) (b : String) : about (ofPlayer p b) l = [] := by
  induction ps generalizing ctx l with
  | nil => simp only [forPlayers, Except.ok.injEq, Prod.mk.injEq] at h; rw [← h.2]; rfl
  | cons q ps ih =>
    simp only [forPlayers, bind_ok, pure_ok, Prod.exists, Prod.mk.injEq] at h
    obtain ⟨c1, l1, h1, c2, l2, h2, rfl, rfl⟩ := h
    obtain ⟨_, _, names, _, score, _, _, _, _, _, _, _, _, rfl⟩ := initPlayer_inv h1
    simp only [List.mem_cons, not_or] at hp
    rw [about_append, about_other_sub (dealCmds_sub q names score) (fun x => hp.1 x.symm)]
    exact ih hp.2 h2

theorem initPlayers_inv {e : Event} {ps : List Nat} (hn : ps.Nodup) {ctx ctx1 : Ctx} {l : List Cmd}
    (h : forPlayers (initPlayer e) ps ctx = .ok (ctx1, l)) :
    ctx1.vals = ctx.vals ∧ ctx1.indexer = ctx.indexer ∧
    (∀ p : Int, ctx1.right.lookup p = if ∃ q ∈ ps, (q : Int) = p then some none else ctx.right.lookup p) ∧
    ∀ p ∈ ps, ∃ raw names scores score s t, e.get ("hai".toList ++ natDigits p) = .ok s ∧ intList s = .ok raw ∧
      tileNames raw = .ok names ∧ e.get "ten".toList = .ok t ∧ numberList t = .ok scores ∧
      pyIdx scores (p : Int) = .ok score ∧ ∀ b, about (ofPlayer p b) l = about (ofPlayer p b) (dealCmds p names score) := by
  induction ps generalizing ctx l with
  | nil => simp only [forPlayers, Except.ok.injEq, Prod.mk.injEq] at h; rw [← h.1]; simp
  | cons q ps ih =>
    simp only [forPlayers, bind_ok, pure_ok, Prod.exists, Prod.mk.injEq] at h
    obtain ⟨c1, l1, h1, c2, l2, h2, rfl, rfl⟩ := h
    obtain ⟨hq, hn'⟩ := List.nodup_cons.1 hn
    obtain ⟨e1, raw, names, scores, score, s, t, k1, k2, k3, k4, k5, k6, k7⟩ := initPlayer_inv h1
    obtain ⟨i1, i2, i3, i4⟩ := ih hn' h2
    refine ⟨by rw [i1, e1], by rw [i2, e1], ?_, ?_⟩
    · intro p
      rw [i3, e1]
      rw [lookup_putKey]
      by_cases hp : ∃ r ∈ ps, (r : Int) = p
      · obtain ⟨r, hr, rfl⟩ := hp
        rw [if_pos ⟨r, hr, rfl⟩, if_pos ⟨r, List.mem_cons_of_mem _ hr, rfl⟩]
      · rw [if_neg hp]
        by_cases hqp : p = (q : Int)
        · rw [if_pos hqp, if_pos ⟨q, List.mem_cons_self, hqp.symm⟩]
        · rw [if_neg hqp, if_neg]
          rintro ⟨r, hr, hx⟩
          rcases List.mem_cons.1 hr with rfl | hr
          · exact hqp hx.symm
          · exact hp ⟨r, hr, hx⟩
    · intro p hp
      rcases List.mem_cons.1 hp with rfl | hp'
      · refine ⟨raw, names, scores, score, s, t, k1, k2, k3, k4, k5, k6, ?_⟩
        intro b
        rw [about_append, k7]
        rw [initPlayers_none hq h2 b, List.append_nil]
      · obtain ⟨raw', names', scores', score', s', t', k1', k2', k3', k4', k5', k6', k7'⟩ := i4 p hp'
        refine ⟨raw', names', scores', score', s', t', k1', k2', k3', k4', k5', k6', ?_⟩
        intro b
        have hne : q ≠ p := fun x => hq (x ▸ hp')
        rw [about_append, k7, about_other_sub (dealCmds_sub q names score) hne, List.nil_append]
        exact k7' b

end Verif.Proofs

namespace Verif.Proofs
open Verif.Py Verif.Model Verif.Spec

theorem init_nonempty {ctx ctx1 : Ctx} {e : Event} {l : List Cmd} (h : initCommand ctx e = .ok (ctx1, l)) : l ≠ [] := by
  unfold initCommand at h
  simp only [bind_ok] at h
  obtain ⟨_, _, seed, _, h⟩ := h
  split at h
  · cases h
  · simp only [bind_ok, pure_ok, Prod.exists, Prod.mk.injEq] at h
    obtain ⟨_, _, _, _, _, _, _, _, _, _, _, _, _, _, _, _, _, _, _, _, _, _, _, _, _, _, _, _, _, _, _, _, rfl⟩ := h
    simp

theorem gen_init {ctx : Ctx} {e : Event} (h : e.tag = "INIT".toList) : generate ctx e = initCommand ctx e := by
  unfold generate
  rw [named_init ctx h]
  cases hx : initCommand ctx e with
  | error x => rfl
  | ok r =>
    obtain ⟨c, l⟩ := r
    have := init_nonempty hx
    simp only [bind, Except.bind, pure, Except.pure, ne_eq, this, not_false_eq_true, if_true]

theorem init_inv {ctx ctx1 : Ctx} {e : Event} {l : List Cmd} (h : initCommand ctx e = .ok (ctx1, l)) :
    ∃ n, ctx.playerCount = .ok n ∧ ctx1.vals = ctx.vals ∧
    (∀ p : Int, ctx1.right.lookup p = if ∃ q ∈ List.range n, (q : Int) = p then some none else ctx.right.lookup p) ∧
    ∀ p < n, ∃ raw names scores score s t, e.get ("hai".toList ++ natDigits p) = .ok s ∧ intList s = .ok raw ∧
      tileNames raw = .ok names ∧ e.get "ten".toList = .ok t ∧ numberList t = .ok scores ∧
      pyIdx scores (p : Int) = .ok score ∧
      ∀ b ∈ propertyNames .player, b ≠ "is_dealer" →
        about (ofPlayer p b) l = about (ofPlayer p b) (dealCmds p names score) := by
  unfold initCommand at h
  simp only [bind_ok] at h
  obtain ⟨_, _, seed, _, h⟩ := h
  split at h
  · cases h
  · simp only [bind_ok, pure_ok, Prod.exists, Prod.mk.injEq] at h
    obtain ⟨_, _, _, _, _, _, _, _, _, _, _, _, _, _, _, _, _, _, _, dealers, hd, _, _, dn, _, n, hn, c, rest, hr, rfl, rfl⟩ := h
    obtain ⟨i1, i2, i3, i4⟩ := initPlayers_inv (List.nodup_range) hr
    refine ⟨n, hn, i1, i3, ?_⟩
    intro p hp
    obtain ⟨raw, names, scores, score, s, t, k1, k2, k3, k4, k5, k6, k7⟩ := i4 p (List.mem_range.2 hp)
    refine ⟨raw, names, scores, score, s, t, k1, k2, k3, k4, k5, k6, ?_⟩
    intro b hb hne
    rw [← k7 b, about_append, about_append, about_append]
    have hdl : about (ofPlayer p b) dealers = [] := by
      simp only [setOya, bind_ok, pure_ok] at hd
      obtain ⟨m, _, rfl⟩ := hd
      unfold about
      rw [List.filter_eq_nil_iff]
      intro c hc
      obtain ⟨q, _, rfl⟩ := List.mem_map.1 hc
      simp only [decide_eq_true_eq, keyOf_pcmd, pkey_iff (a := "is_dealer") (b := b) (by decide +kernel) hb]
      rintro ⟨_, rfl⟩
      exact hne rfl
    rw [hdl]
    simp only [about_cons, keyOf_gcmd, gkey_ne, if_false]
    simp [about]

end Verif.Proofs
