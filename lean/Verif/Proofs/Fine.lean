import Verif.Proofs.TranslateHand
import Verif.Proofs.Flatten
import Verif.Spec.Frame

/-! Every command the Tenhou translator makes is well addressed and carries values of the kind of its property. -/
namespace Verif.Proofs
open Verif.Py Verif.Model Verif.Spec

/-- numbers in normal form -/
theorem norm_ok (k : Nat) (m : Int) : NumOk (Num.norm m k) := by
  induction k generalizing m with
  | zero => simp [Num.norm, NumOk]
  | succ k ih =>
    rw [Num.norm]
    split
    · exact ih _
    · rename_i h; exact ⟨by omega, h⟩

theorem parsePlain_ok {s : Str} {n : Num} (h : parsePlain s = .ok n) : NumOk n := by
  unfold parsePlain at h
  simp only at h
  split at h
  · split at h
    · cases h
    · cases h; trivial
  · split at h
    · cases h; exact norm_ok _ _
    · cases h

theorem shift_ok (n : Num) (e : Int) : NumOk (n.shift e) := by
  unfold Num.shift
  cases n <;> simp only <;> split <;> first | trivial | exact norm_ok _ _

theorem parseNum_ok {s : Str} {n : Num} (h : parseNum s = .ok n) : NumOk n := by
  unfold parseNum at h
  split at h
  · rename_i m e
    cases h
    exact parsePlain_ok e
  · unfold parseWide at h
    split at h
    · cases h
    · split at h
      · unfold parseExp at h
        split at h
        · exact parsePlain_ok h
        · simp only [bind, Except.bind] at h
          split at h
          · cases h
          · split at h
            · cases h
            · cases h
              exact shift_ok _ _
      · cases h

theorem numberList_ok {s : Str} {l : List Num} (h : numberList s = .ok l) : ∀ n ∈ l, NumOk n := by
  intro n hn
  obtain ⟨x, _, e⟩ := mapM_inv _ h n hn
  exact parseNum_ok e

theorem pyIdx_mem {α : Type} {l : List α} {i : Int} {a : α} (h : pyIdx l i = .ok a) : a ∈ l := by
  unfold pyIdx at h
  split at h
  · split at h
    · rename_i x hx; cases h; exact List.mem_of_getElem? hx
    · cases h
  · split at h
    · split at h
      · rename_i x hx; cases h; exact List.mem_of_getElem? hx
      · cases h
    · cases h

theorem mem_everyOther {α : Type} {l : List α} {a : α} (h : a ∈ everyOther l) : a ∈ l := by
  obtain ⟨i, hi⟩ := List.getElem?_of_mem h
  rw [everyOther_get] at hi
  exact List.mem_of_getElem? hi

theorem times_ok (x : Num) (n : Int) : NumOk (x.times n) := norm_ok _ _
theorem mul100_ok (x : Num) : NumOk x.mul100 := by
  cases x <;> simp only [Num.mul100] <;> first | trivial | exact norm_ok _ _

/-- what the updates of a property may carry -/
def Shape (n : String) (k : PropKind) (u : Update) (v : Val) : Prop :=
  (k = .text → (u = .replace ∨ u = .assertEqualOrSet) ∧ (n ≠ "extra_level" → ∃ s, v = .str s)) ∧
  (n = "player_count" → u = .replace ∧ (v = .num (.int 3) ∨ v = .num (.int 4))) ∧
  (n = "hand" → ∃ l, v = strs l) ∧
  (u = .assertEqualOrSet → k = .tiles → n = "hand") ∧
  (k.isList = true → u = .resetDefault ∨ ∃ l, v = .list l) ∧
  (k = .score ∨ k = .index → u = .resetDefault ∨ ∃ m, v = .num m)

/-- a list of texts is a list -/
theorem strs_list (l : List Str) : ∃ x, strs l = .list x := ⟨_, rfl⟩

/-- a command as the translator makes them -/
def Fine (c : Cmd) : Prop :=
  ValOk c.value ∧ ∃ s n k, (s, n, k) ∈ kindTable ∧ c.prop = view s n ∧ Shape n k c.update c.value ∧
    ((s = .player ∧ ∃ p : Fin 4, c.sub = .num (p.val : Int)) ∨ (s ≠ .player ∧ c.sub = Sub.all))

theorem view_scope : ∀ r ∈ kindTable, (view r.1 r.2.1).scope = r.1 := by decide +kernel

theorem Fine.addressed {c : Cmd} (h : Fine c) : Addressed c := by
  obtain ⟨_, s, n, k, hm, hp, _, hs⟩ := h
  refine ⟨⟨k, s, n, hm, hp⟩, ?_⟩
  rw [hp, view_scope _ hm]
  rcases hs with ⟨rfl, hs⟩ | ⟨hne, hs⟩
  · exact hs
  · cases s <;> first | exact absurd rfl hne | exact hs

theorem valsOk_iff (l : List Val) : ValsOk l ↔ ∀ v ∈ l, ValOk v := by
  induction l with
  | nil => simp [ValsOk]
  | cons a l ih => simp [ValsOk, ih]

theorem strs_ok (l : List Str) : ValOk (strs l) := by
  rw [strs, ValOk, valsOk_iff]
  intro v hv
  obtain ⟨s, _, rfl⟩ := List.mem_map.1 hv
  trivial

theorem fine_p (ev : EventType) {p : Int} (hp : 0 ≤ p ∧ p < 4) {n : String} {k : PropKind}
    (hm : (Scope.player, n, k) ∈ kindTable) {u : Update} {v : Val} (hv : ValOk v) (hs : Shape n k u v) :
    Fine (pcmd ev p n u v) :=
  ⟨hv, .player, n, k, hm, rfl, hs, .inl ⟨rfl, ⟨⟨p.toNat, by omega⟩, by show Sub.num p = _; simp; omega⟩⟩⟩

theorem fine_g (ev : EventType) {n : String} {k : PropKind} (hm : (Scope.game, n, k) ∈ kindTable) {u : Update} {v : Val}
    (hv : ValOk v) (hs : Shape n k u v) : Fine (gcmd ev n u v) :=
  ⟨hv, .game, n, k, hm, rfl, hs, .inr ⟨by decide, rfl⟩⟩

theorem fine_r (ev : EventType) {n : String} {k : PropKind} (hm : (Scope.record, n, k) ∈ kindTable) {u : Update} {v : Val}
    (hv : ValOk v) (hs : Shape n k u v) : Fine (rcmd ev n u v) :=
  ⟨hv, .record, n, k, hm, rfl, hs, .inr ⟨by decide, rfl⟩⟩

macro "shape" : tactic => `(tactic| (simp [Shape, PropKind.isList, strs_list]; done))
macro "value" : tactic => `(tactic| first | trivial | exact strs_ok _ | exact times_ok _ _ | (simp [ValOk, ValsOk, NumOk]; done))
/-- a command whose value is a literal, a list of texts or a product -/
macro "fineP" k:term "," hp:term : tactic =>
  `(tactic| exact fine_p (k := $k) _ $hp (by decide +kernel) (by value) (by shape))
macro "fineG" k:term : tactic => `(tactic| exact fine_g (k := $k) _ (by decide +kernel) (by value) (by shape))
macro "fineR" k:term : tactic => `(tactic| exact fine_r (k := $k) _ (by decide +kernel) (by value) (by shape))

/-! ### The handlers -/

/-- all commands are fine -/
def Fines (l : List Cmd) : Prop := ∀ c ∈ l, Fine c

theorem fines_nil : Fines [] := by intro c h; cases h
theorem fines_cons {c : Cmd} {l : List Cmd} (h : Fine c) (hl : Fines l) : Fines (c :: l) := by
  intro x hx
  rcases List.mem_cons.1 hx with rfl | hx
  · exact h
  · exact hl x hx
theorem fines_append {a b : List Cmd} (ha : Fines a) (hb : Fines b) : Fines (a ++ b) := by
  intro x hx
  rcases List.mem_append.1 hx with hx | hx
  · exact ha x hx
  · exact hb x hx
theorem fines_flatten {ls : List (List Cmd)} (h : ∀ l ∈ ls, Fines l) : Fines ls.flatten := by
  intro x hx
  obtain ⟨l, hl, hxl⟩ := List.mem_flatten.1 hx
  exact h l hl x hxl

theorem handUpdate_fine {ev : EventType} {u : Update} {p : Int} {raw : List Int} {ctx ctx' : Ctx} {l : List Cmd}
    (hp : 0 ≤ p ∧ p < 4) (h : handUpdate ev u p raw ctx = .ok (ctx', l)) : Fines l := by
  unfold handUpdate at h
  have one : ∀ names, Fine (pcmd ev p "hand" u (strs names)) := fun names => by fineP .tiles, hp
  cases u with
  | add =>
    simp only at h
    split at h
    all_goals
      simp only [bind_ok, pure_ok, Prod.exists, Prod.mk.injEq] at h
      obtain ⟨a, b, hb, names, _, _, rfl⟩ := h
    · rw [← hb.2]; exact fines_cons (one _) fines_nil
    · cases hb
  | replace =>
    simp only [bind_ok, pure_ok, Prod.exists, Prod.mk.injEq] at h
    obtain ⟨a, b, hb, names, _, _, rfl⟩ := h
    rw [← hb.2]; exact fines_cons (by fineP .list, hp) (fines_cons (one _) fines_nil)
  | _ =>
    simp only [bind_ok, pure_ok, Prod.exists, Prod.mk.injEq] at h
    obtain ⟨a, b, hb, names, _, _, rfl⟩ := h
    rw [← hb.2]; exact fines_cons (one _) fines_nil

theorem tileChange_seat {ind : List Char} (hi : ind.length = 4) {e : Event} {t p : Int} (h : Model.tileChange ind e = some (t, p)) :
    0 ≤ p ∧ p < 4 := by
  unfold Model.tileChange at h
  obtain ⟨⟨d, n⟩, hw, e⟩ := Option.map_eq_some_iff.1 h
  simp only [Prod.mk.injEq] at e
  obtain ⟨rfl, rfl⟩ := e
  have hd : d ∈ ind := by
    unfold wholeNumber at hw
    split at hw
    · cases hw
    · split at hw
      · rename_i hd
        simp only at hw
        split at hw
        · cases hw; exact hd
        · cases hw
      · cases hw
  have := List.idxOf_lt_length_of_mem hd
  omega

theorem draw_fine {ctx ctx' : Ctx} {e : Event} {l : List Cmd} (h : drawCommand ctx e = .ok (ctx', l)) : Fines l := by
  unfold drawCommand at h
  split at h
  · cases h; exact fines_nil
  · rename_i t p hc
    exact handUpdate_fine (tileChange_seat (by decide) hc) h

theorem discard_fine {ctx ctx' : Ctx} {e : Event} {l : List Cmd} (h : discardCommand ctx e = .ok (ctx', l)) : Fines l := by
  unfold discardCommand at h
  split at h
  · cases h; exact fines_nil
  · rename_i t p hc
    have hp := tileChange_seat (by decide) hc
    simp only [bind_ok] at h
    obtain ⟨names, _, h⟩ := h
    split at h
    · cases h
    · simp only [bind_ok, pure_ok, Prod.exists, Prod.mk.injEq] at h
      obtain ⟨c1, hand, h1, _, rfl⟩ := h
      refine fines_append (fines_append (fines_cons (by fineP .index, hp) (fines_cons (by fineP .list, hp) fines_nil))
        (handUpdate_fine hp h1)) (fines_cons (by fineP .tiles, hp) fines_nil)

/-- the number of players is unset, 3 or 4 -/
def CountOk (s : IState) : Prop :=
  ∀ x, s.lookup (Sub.all, view .record "player_count") = some x → x = .num (.int 3) ∨ x = .num (.int 4)

theorem count_le {ctx : Ctx} (hc : CountOk ctx.vals) {n : Nat} (h : ctx.playerCount = .ok n) : n ≤ 4 := by
  unfold Ctx.playerCount at h
  split at h
  · cases h
  · rename_i m hm
    cases h
    rcases hc _ hm with h | h <;> · cases h; decide
  · rename_i m hm
    rcases hc _ hm with h | h <;> cases h
  · cases h

theorem seat_range {n p : Nat} (hn : n ≤ 4) (hp : p ∈ List.range n) : 0 ≤ (p : Int) ∧ (p : Int) < 4 := by
  have := List.mem_range.1 hp
  omega

theorem setOya_fine {ctx : Ctx} (hc : CountOk ctx.vals) {oya : Int} {l : List Cmd} (h : setOya ctx oya = .ok l) : Fines l := by
  simp only [setOya, bind_ok, pure_ok] at h
  obtain ⟨n, hn, rfl⟩ := h
  intro c hm
  obtain ⟨p, hp, rfl⟩ := List.mem_map.1 hm
  have := seat_range (count_le hc hn) hp
  fineP .bool, this

theorem forPlayers_fine {body : Nat → Ctx → CmdGen} {ps : List Nat}
    (hb : ∀ q ∈ ps, ∀ c c' l, body q c = .ok (c', l) → Fines l) {ctx ctx' : Ctx} {l : List Cmd}
    (h : forPlayers body ps ctx = .ok (ctx', l)) : Fines l := by
  induction ps generalizing ctx l with
  | nil => simp only [forPlayers, Except.ok.injEq, Prod.mk.injEq] at h; rw [← h.2]; exact fines_nil
  | cons p ps ih =>
    simp only [forPlayers, bind_ok, pure_ok, Prod.exists, Prod.mk.injEq] at h
    obtain ⟨c1, l1, h1, c2, l2, h2, rfl, rfl⟩ := h
    exact fines_append (hb p (by simp) _ _ _ h1) (ih (fun q hq => hb q (by simp [hq])) h2)

theorem initPlayer_fine {e : Event} {p : Nat} (hp : 0 ≤ (p : Int) ∧ (p : Int) < 4) {ctx ctx' : Ctx} {l : List Cmd}
    (h : initPlayer e p ctx = .ok (ctx', l)) : Fines l := by
  simp only [initPlayer, bind_ok, pure_ok, Prod.exists, Prod.mk.injEq] at h
  obtain ⟨t, _, scores, _, s, _, raw, _, c, hand, h5, score, _, _, rfl⟩ := h
  refine fines_append (fines_append ?_ (handUpdate_fine hp h5)) (fines_cons (by fineP .score, hp) fines_nil)
  refine fines_cons (by fineP .tiles, hp) (fines_cons (by fineP .melds, hp) (fines_cons (by fineP .tiles, hp)
    (fines_cons (by fineP .tiles, hp) (fines_cons (by fineP .index, hp) (fines_cons (by fineP .bool, hp) fines_nil)))))

theorem init_fine {ctx ctx' : Ctx} (hc : CountOk ctx.vals) {e : Event} {l : List Cmd} (h : initCommand ctx e = .ok (ctx', l)) :
    Fines l := by
  unfold initCommand at h
  simp only [bind_ok] at h
  obtain ⟨_, _, seed, hseed, h⟩ := h
  split at h
  · cases h
  · simp only [bind_ok, pure_ok, Prod.exists, Prod.mk.injEq] at h
    obtain ⟨sub, hsub, richii, _, _, _, _, _, _, _, _, _, _, _, _, _, _, _, _, dealers, hd, _, _, dn, _, n, hn, c, rest, hr, rfl, rfl⟩ := h
    refine fines_append (fines_append (fines_append ?_ (setOya_fine hc hd)) (fines_cons (by fineG .tiles) fines_nil))
      (forPlayers_fine (fun q hq _ _ _ hx => initPlayer_fine (seat_range (count_le hc hn) hq) hx) hr)
    refine fines_cons (by fineG .index) (fines_cons (by fineG .index) (fines_cons ?_ (fines_cons (by fineG .score) fines_nil)))
    exact fine_g (k := .index) _ (by decide +kernel) (numberList_ok hseed _ (pyIdx_mem hsub)) (by shape)



theorem who_seat {e : Event} (h : Seated e) {w : Str} {n : Int} (h1 : e.get "who".toList = .ok w) (h2 : pyInt w = .ok n) :
    0 ≤ n ∧ n < 4 := by
  refine h w n ?_ h2
  unfold Event.get at h1
  split at h1
  · rename_i v hv; cases h1; exact hv
  · cases h1

theorem openHand_fine {ctx ctx' : Ctx} {e : Event} (hs : Seated e) {l : List Cmd} (h : openHandCommand ctx e = .ok (ctx', l)) :
    Fines l := by
  simp only [openHandCommand, bind_ok, pure_ok, Prod.exists, Prod.mk.injEq] at h
  obtain ⟨m, _, w, hw, who, hwho, own, _, all, _, c1, hand, hh, _, rfl⟩ := h
  have hp := who_seat hs hw hwho
  refine fines_append (fines_cons (by fineP .tiles, hp) (fines_cons ?_ fines_nil)) (handUpdate_fine hp hh)
  split
  · exact fine_p (k := .melds) _ hp (by decide +kernel) ⟨strs_ok _, trivial⟩ (by shape)
  · fineP .tiles, hp

theorem go_fine {ctx ctx' : Ctx} {e : Event} {l : List Cmd} (h : goCommand ctx e = .ok (ctx', l)) : Fines l := by
  simp only [goCommand, bind_ok, pure_ok, Prod.mk.injEq] at h
  obtain ⟨_, _, _, _, g, _, winds, _, _, _, _, _, _, _, level, _, _, _, _, _, _, _, count, hc, _, _, rfl, rfl⟩ := h
  simp only [GameType.playerCount, bind_ok, pure_ok] at hc
  obtain ⟨b, _, rfl⟩ := hc
  refine fines_cons (by fineR .text) (fines_cons (by fineR .bool) (fines_cons (by fineR .index) (fines_cons (by fineR .bool)
    (fines_cons (by fineR .bool) (fines_cons ?_ (fines_cons (by fineR .list) fines_nil))))))
  cases b <;> fineR .index

theorem taikyoku_fine {ctx ctx' : Ctx} (hc : CountOk ctx.vals) {e : Event} {l : List Cmd}
    (h : taikyokuCommand ctx e = .ok (ctx', l)) : Fines l := by
  simp only [taikyokuCommand, bind_ok, pure_ok, Prod.mk.injEq] at h
  obtain ⟨_, _, _, _, _, h1, rfl, rfl⟩ := h
  exact setOya_fine hc h1

theorem unPlayer_fine {e : Event} {dan rate : List Num} (hr : ∀ n ∈ rate, NumOk n) {sex : List Str} {p : Nat}
    (hp : 0 ≤ (p : Int) ∧ (p : Int) < 4) {ctx ctx' : Ctx} {l : List Cmd} (h : unPlayer e dan rate sex p ctx = .ok (ctx', l)) :
    Fines l := by
  unfold unPlayer at h
  split at h
  · cases h; exact fines_nil
  · split at h
    · cases h; exact fines_nil
    · simp only [bind_ok, pure_ok, Prod.mk.injEq] at h
      obtain ⟨lv, _, r, h2, _, _, levels, h4, _, rfl⟩ := h
      refine fines_append (fines_append (fines_cons (by fineP .bool, hp) (fines_cons (by fineP .text, hp) fines_nil)) ?_) ?_
      · unfold levelCmds at h4
        split at h4
        · cases h4; exact fines_nil
        · simp only [bind_ok, pure_ok] at h4
          obtain ⟨_, _, s, _, rfl⟩ := h4
          exact fines_cons (by fineP .text, hp) fines_nil
      · unfold rateCmds
        split
        · exact fines_nil
        · exact fines_cons (fine_p (k := .text) _ hp (by decide +kernel) (hr _ (pyIdx_mem h2)) (by shape)) fines_nil

theorem un_fine {ctx ctx' : Ctx} {e : Event} {l : List Cmd} (h : unCommand ctx e = .ok (ctx', l)) : Fines l := by
  simp only [unCommand, bind_ok] at h
  obtain ⟨_, _, rate, hr, h1⟩ := h
  exact forPlayers_fine (fun q hq _ _ _ hx => unPlayer_fine (numberList_ok hr) (seat_range (by omega) hq) hx) h1

theorem dora_fine {ctx ctx' : Ctx} {e : Event} {l : List Cmd} (h : doraCommand ctx e = .ok (ctx', l)) : Fines l := by
  simp only [doraCommand, bind_ok, pure_ok, Prod.mk.injEq] at h
  obtain ⟨_, _, _, _, _, rfl⟩ := h
  exact fines_cons (by fineG .tiles) fines_nil

theorem reach_fine {ctx ctx' : Ctx} {e : Event} (hs : Seated e) {l : List Cmd} (h : reachCommand ctx e = .ok (ctx', l)) :
    Fines l := by
  simp only [reachCommand, bind_ok] at h
  obtain ⟨w, hw, who, hwho, _, _, h1⟩ := h
  have hp := who_seat hs hw hwho
  split at h1
  · simp only [pure_ok, Prod.mk.injEq] at h1; rw [← h1.2]; exact fines_cons (by fineP .bool, hp) fines_nil
  · split at h1
    · simp only [pure_ok, Prod.mk.injEq] at h1; rw [← h1.2]; exact fines_cons (by fineP .score, hp) fines_nil
    · simp only [pure_ok, Prod.mk.injEq] at h1; rw [← h1.2]; exact fines_nil

theorem gameFinish_fine {ctx : Ctx} (hc : CountOk ctx.vals) {win : Option (Int × Int)} {sc : Option (List Num)} {yaku : List Str}
    {e : Event} {l : List Cmd} (h : gameFinish ctx win sc yaku e = .ok l) : Fines l := by
  simp only [gameFinish, bind_ok, pure_ok] at h
  obtain ⟨n, hn, parts, h1, ends, h2, rfl⟩ := h
  have h4 := count_le hc hn
  refine fines_append (fines_flatten ?_) (fines_flatten ?_)
  · intro part hpart
    obtain ⟨p, hpn, e⟩ := mapM_inv _ h1 part hpart
    have hp := seat_range h4 hpn
    simp only [bind_ok, pure_ok] at e
    obtain ⟨s, hs, rfl⟩ := e
    refine fines_append ?_ ?_
    · cases sc with
      | none => simp only [finishScores, Except.ok.injEq] at hs; rw [← hs]; exact fines_nil
      | some sc =>
        simp only [finishScores, bind_ok, pure_ok] at hs
        obtain ⟨_, _, _, _, rfl⟩ := hs
        exact fines_cons (by fineP .score, hp) (fines_cons (by fineP .score, hp) fines_nil)
    · unfold finishFlags
      simp only
      refine fines_cons (by fineP .bool, hp) (fines_cons (by fineP .bool, hp) (fines_cons (by fineP .bool, hp) (fines_cons ?_ fines_nil)))
      generalize ((_ : Bool) || _) = b
      cases b
      · fineP .list, hp
      · fineP .list, hp
  · intro part hpart
    unfold finishEnds at h2
    split at h2
    · simp only [Except.ok.injEq] at h2; rw [← h2] at hpart; cases hpart
    · simp only [bind_ok] at h2
      obtain ⟨finals, hf, h3⟩ := h2
      obtain ⟨p, hpn, e⟩ := mapM_inv _ h3 part hpart
      have hp := seat_range h4 hpn
      simp only [finishRecord, bind_ok, pure_ok] at e
      obtain ⟨s, hs, q, hq, r, _, rfl⟩ := e
      refine fines_cons (fine_p (k := .score) _ hp (by decide +kernel) ?_ (by shape))
        (fines_cons (fine_p (k := .float) _ hp (by decide +kernel) ?_ (by shape)) (fines_cons (by fineP .int, hp) fines_nil))
      · obtain ⟨x, _, rfl⟩ := List.mem_map.1 (pyIdx_mem hs)
        exact mul100_ok x
      · exact numberList_ok hf _ (List.mem_of_mem_tail (mem_everyOther (pyIdx_mem hq)))

theorem agari_fine {ctx ctx' : Ctx} (hc : CountOk ctx.vals) {e : Event} (hs : Seated e) {l : List Cmd}
    (h : agariCommand ctx e = .ok (ctx', l)) : Fines l := by
  simp only [agariCommand, bind_ok, pure_ok, Prod.mk.injEq] at h
  obtain ⟨w, hw, who, hwho, _, _, _, _, _, _, sc, _, _, _, hai, _, expected, _, yaku, _, rest, hr, _, rfl⟩ := h
  have hp := who_seat hs hw hwho
  exact fines_append (fines_cons (by fineP .tiles, hp) (fines_cons (by fineG .bool) fines_nil)) (gameFinish_fine hc hr)

theorem shuffle_fine {ctx ctx' : Ctx} {e : Event} {l : List Cmd} (h : shuffleCommand ctx e = .ok (ctx', l)) : Fines l := by
  simp only [shuffleCommand, bind_ok, pure_ok, Prod.mk.injEq] at h
  obtain ⟨_, _, _, rfl⟩ := h
  exact fines_cons (by fineR .text) fines_nil

theorem bye_fine {ctx ctx' : Ctx} {e : Event} (hs : Seated e) {l : List Cmd} (h : byeCommand ctx e = .ok (ctx', l)) : Fines l := by
  simp only [byeCommand, bind_ok, pure_ok, Prod.mk.injEq] at h
  obtain ⟨w, hw, who, hwho, _, rfl⟩ := h
  have hp := who_seat hs hw hwho
  exact fines_cons (by fineP .bool, hp) fines_nil

theorem ryuukyoku_fine {ctx ctx' : Ctx} (hc : CountOk ctx.vals) {e : Event} {l : List Cmd}
    (h : ryuukyokuCommand ctx e = .ok (ctx', l)) : Fines l := by
  simp only [ryuukyokuCommand, bind_ok, pure_ok, Prod.mk.injEq] at h
  obtain ⟨_, _, _, _, rest, h1, _, rfl⟩ := h
  exact fines_append (fines_cons (by fineG .bool) (fines_cons (by fineG .text) fines_nil)) (gameFinish_fine hc h1)

theorem named_fine {ctx ctx' : Ctx} (hc : CountOk ctx.vals) {e : Event} (hs : Seated e) {l : List Cmd}
    (h : translateNamed ctx e = .ok (ctx', l)) : Fines l := by
  unfold translateNamed at h
  split at h
  · rename_i hd heq
    have hm := List.mem_of_find?_eq_some heq
    simp only [nameMatch, List.mem_cons, List.not_mem_nil, or_false] at hm
    rcases hm with rfl | rfl | rfl | rfl | rfl | rfl | rfl | rfl | rfl | rfl | rfl
    · exact init_fine hc h
    · exact openHand_fine hs h
    · exact go_fine h
    · exact taikyoku_fine hc h
    · exact un_fine h
    · exact dora_fine h
    · exact reach_fine hs h
    · exact agari_fine hc hs h
    · exact shuffle_fine h
    · exact bye_fine hs h
    · exact ryuukyoku_fine hc h
  · cases h; exact fines_nil

theorem gen_fine {ctx ctx' : Ctx} (hc : CountOk ctx.vals) {e : Event} (hs : Seated e) {l : List Cmd}
    (h : generate ctx e = .ok (ctx', l)) : Fines l := by
  simp only [generate, bind_ok, Prod.exists] at h
  obtain ⟨c1, l1, h1, h⟩ := h
  split at h
  · simp only [pure_ok, Prod.mk.injEq] at h; rw [← h.2]; exact named_fine hc hs h1
  · simp only [bind_ok, Prod.exists] at h
    obtain ⟨c2, l2, h2, h⟩ := h
    split at h
    · simp only [pure_ok, Prod.mk.injEq] at h; rw [← h.2]; exact draw_fine h2
    · exact discard_fine h

/-! ### States -/

/-- the interpreter's values: a sensible number of players, hands are lists of names, numbers in normal form -/
def Sound (s : IState) : Prop :=
  CountOk s ∧ (∀ sub x, s.lookup (sub, view .player "hand") = some x → ∃ l, x = strs l) ∧
    ∀ k x, s.lookup k = some x → ValOk x

theorem sound_nil : Sound [] := by
  refine ⟨?_, ?_, ?_⟩ <;> intros <;> simp_all [CountOk]

theorem hand_only : ∀ r ∈ kindTable, view r.1 r.2.1 = view .player "hand" → r.2.1 = "hand" ∧ r.2.2 = .tiles := by decide +kernel
theorem count_only : ∀ r ∈ kindTable, view r.1 r.2.1 = view .record "player_count" → r.2.1 = "player_count" := by decide +kernel
theorem rate_only : ∀ r ∈ kindTable, r.2.1 = "extra_level" → r.1 = .player := by decide +kernel

theorem kind_unique {v : View} {k k' : PropKind} (h : HasKind v k) (h' : HasKind v k') : k = k' := by
  have e := (type_of_kind h).symm.trans (type_of_kind h')
  revert e
  cases k <;> cases k' <;> decide +kernel

theorem valOk_add {a b x : Val} (ha : ValOk a) (hb : ValOk b) (h : a.add b = .ok x) : ValOk x := by
  unfold Val.add at h
  split at h
  · cases h; trivial
  · cases h
    rw [ValOk, valsOk_iff] at *
    intro v hv
    rcases List.mem_append.1 hv with hv | hv
    · exact ha v hv
    · exact hb v hv
  · split at h
    · cases h; exact norm_ok _ _
    · cases h

theorem valOk_sub {a b x : Val} (h : a.sub b = .ok x) : ValOk x := by
  unfold Val.sub at h
  split at h
  · cases h; exact norm_ok _ _
  · cases h

theorem listRemove_sub {l r : List Val} {v : Val} (h : listRemove l v = .ok r) : ∀ x ∈ r, x ∈ l := by
  induction l generalizing r with
  | nil => cases h
  | cons a l ih =>
    rw [listRemove] at h
    split at h
    · cases h; intro x hx; simp [hx]
    · cases hr : listRemove l v with
      | error e => rw [hr] at h; cases h
      | ok r' =>
        rw [hr] at h
        cases h
        intro x hx
        rcases List.mem_cons.1 hx with rfl | hx
        · simp
        · simp [ih hr x hx]

theorem removeLoop_sub {l r vs : List Val} (h : removeLoop l vs = .ok r) : ∀ x ∈ r, x ∈ l := by
  induction vs generalizing l with
  | nil => cases h; intro x hx; exact hx
  | cons v vs ih =>
    simp only [removeLoop, bind_ok] at h
    obtain ⟨l', h1, h2⟩ := h
    intro x hx
    exact listRemove_sub h1 x (ih h2 x hx)

theorem removeAll_list {a b x : Val} (h : removeAll a b = .ok x) : ∃ l r, a = .list l ∧ x = .list r ∧ ∀ v ∈ r, v ∈ l := by
  unfold removeAll at h
  split at h
  · simp only [bind_ok, pure_ok] at h
    obtain ⟨vs, _, r, hr, rfl⟩ := h
    exact ⟨_, r, rfl, rfl, removeLoop_sub hr⟩
  · cases h

theorem strs_iff (l : List Val) : (∃ t, Val.list l = strs t) ↔ ∀ v ∈ l, ∃ s, v = .str s := by
  constructor
  · rintro ⟨t, ht⟩ v hv
    injection ht with ht
    rw [ht] at hv
    obtain ⟨s, _, rfl⟩ := List.mem_map.1 hv
    exact ⟨s, rfl⟩
  · intro h
    induction l with
    | nil => exact ⟨[], rfl⟩
    | cons a l ih =>
      obtain ⟨s, rfl⟩ := h a (by simp)
      obtain ⟨t, ht⟩ := ih (fun v hv => h v (by simp [hv]))
      injection ht with ht
      exact ⟨s :: t, by simp [strs, ht]⟩

theorem newValue_ok {c : Cmd} (hc : Fine c) {old x : Val} (ho : ValOk old) (h : newValue c old = .ok x) : ValOk x := by
  obtain ⟨hv, s, n, k, hm, hp, hs, _⟩ := hc
  have hk : HasKind c.prop k := ⟨s, n, hm, hp⟩
  unfold newValue at h
  split at h
  · cases h; exact hv
  · rw [add_kind hk] at h; exact valOk_add ho hv h
  · rw [remove_kind hk] at h
    split at h
    · obtain ⟨l, r, rfl, rfl, hr⟩ := removeAll_list h
      rw [ValOk, valsOk_iff] at *
      exact fun v hv => ho v (hr v hv)
    · exact valOk_sub h
  · rw [default_kind hk] at h
    split at h
    · cases h; trivial
    · split at h
      · cases h; trivial
      · cases h
  · cases h; exact hv
  · cases h

theorem newValue_hand {c : Cmd} (hc : Fine c) (hh : c.prop = view .player "hand") {old x : Val}
    (ho : old = .none ∨ ∃ l, old = strs l) (h : newValue c old = .ok x) : ∃ l, x = strs l := by
  obtain ⟨hv, s, n, k, hm, hp, hs, _⟩ := hc
  have hk : HasKind c.prop k := ⟨s, n, hm, hp⟩
  obtain ⟨hn, rfl⟩ := hand_only _ hm (hp.symm.trans hh)
  obtain ⟨l, hl⟩ := hs.2.2.1 hn
  unfold newValue at h
  split at h
  · cases h; exact ⟨l, hl⟩
  · rw [add_kind hk, hl] at h
    rcases ho with rfl | ⟨l0, rfl⟩
    · simp [Val.add, strs, Val.asNum] at h
    · simp only [Val.add, strs, Except.ok.injEq] at h
      exact ⟨l0 ++ l, by rw [← h]; simp [strs]⟩
  · rw [remove_kind hk] at h
    split at h
    · obtain ⟨l1, r, e1, rfl, hr⟩ := removeAll_list h
      rcases ho with rfl | ⟨l0, rfl⟩
      · cases e1
      · rw [strs_iff]
        have := (strs_iff l1).1 ⟨l0, e1.symm⟩
        exact fun v hv => this v (hr v hv)
    · rename_i hx; exact absurd rfl hx
  · rw [default_kind hk] at h
    split at h
    · rename_i hx; cases hx
    · split at h
      · cases h; exact ⟨[], rfl⟩
      · cases h
  · cases h; exact ⟨l, hl⟩
  · cases h

theorem interpret_sound {s s1 : IState} {c : Cmd} {v : Val} (hs : Sound s) (hc : Fine c) (h : interpret s c = .ok (v, s1)) :
    Sound s1 ∧ ValOk v ∧ s1.lookup (c.sub, c.prop) = some v := by
  rw [interpret] at h
  simp only [bind_ok, pure_ok, Prod.mk.injEq] at h
  obtain ⟨x, hx, rfl, rfl⟩ := h
  have hold : ValOk (s.get (c.sub, c.prop)) := by
    unfold IState.get
    cases hl : s.lookup (c.sub, c.prop) with
    | none => trivial
    | some y => exact hs.2.2 _ _ hl
  have hok := newValue_ok hc hold hx
  refine ⟨⟨?_, ?_, ?_⟩, hok, ?_⟩
  · intro y hy
    rw [lookup_iset] at hy
    split at hy
    · rename_i e
      injection e with e1 e2
      obtain ⟨_, sc, n, k, hm, hp, hsh, _⟩ := hc
      obtain ⟨hu, hv⟩ := hsh.2.1 (count_only _ hm (hp.symm.trans e2.symm))
      rw [newValue, hu] at hx
      cases hx
      cases hy
      exact hv
    · exact hs.1 y hy
  · intro sub y hy
    rw [lookup_iset] at hy
    split at hy
    · rename_i e
      injection e with e1 e2
      cases hy
      refine newValue_hand hc e2.symm ?_ hx
      unfold IState.get
      cases hl : s.lookup (c.sub, c.prop) with
      | none => exact .inl rfl
      | some y => exact .inr (hs.2.1 c.sub y (by rw [e2]; exact hl))
    · exact hs.2.1 sub y hy
  · intro k y hy
    rw [lookup_iset] at hy
    split at hy
    · cases hy; exact hok
    · exact hs.2.2 k y hy
  · rw [lookup_iset]; simp

/-- commands that carry the states they lead to -/
def Carried : IState → List Cmd → IState → Prop
  | s, [], s' => s = s'
  | s, c :: cs, s' => Fine c ∧ ∃ s1, interpret s c = .ok (c.state, s1) ∧ Carried s1 cs s'

theorem carried_append {a b : List Cmd} {s s' s'' : IState} (h1 : Carried s a s') (h2 : Carried s' b s'') : Carried s (a ++ b) s'' := by
  induction a generalizing s with
  | nil => cases h1; exact h2
  | cons c a ih =>
    obtain ⟨hf, s1, hi, hr⟩ := h1
    exact ⟨hf, s1, hi, ih hr⟩

theorem carried_post {ts : Option Int} {s s' : IState} {cs out : List Cmd} (hf : Fines cs)
    (h : postprocess ts s cs = .ok (s', out)) : Carried s out s' := by
  induction cs generalizing s out with
  | nil => simp only [postprocess, Except.ok.injEq, Prod.mk.injEq] at h; obtain ⟨rfl, rfl⟩ := h; rfl
  | cons c cs ih =>
    simp only [postprocess, bind_ok, pure_ok] at h
    obtain ⟨⟨v, s1⟩, h1, ⟨s2, l⟩, h2, h3⟩ := h
    simp only [Prod.mk.injEq] at h3
    obtain ⟨rfl, rfl⟩ := h3
    exact ⟨hf c (by simp), s1, h1, ih (fun x hx => hf x (by simp [hx])) h2⟩

theorem carried_sound {cs : List Cmd} {s s' : IState} (hs : Sound s) (h : Carried s cs s') : Sound s' := by
  induction cs generalizing s with
  | nil => cases h; exact hs
  | cons c cs ih =>
    obtain ⟨hf, s1, hi, hr⟩ := h
    exact ih (interpret_sound hs hf hi).1 hr

theorem carried_all (left : Ctx → TEvent → Ctx) (strict : Bool) (ts : List TEvent) (hseat : ∀ t ∈ ts, Seated t.ev) (ctx : Ctx)
    (hs : Sound ctx.vals) (cs : List Cmd) (h : (listAll left strict ctx ts).2 = .ok cs) : ∃ s', Carried ctx.vals cs s' := by
  induction ts generalizing ctx cs with
  | nil => simp only [listAll, Except.ok.injEq] at h; subst h; exact ⟨_, rfl⟩
  | cons t ts ih =>
    simp only [listAll] at h
    split at h
    · cases h
    · rename_i ctx1 l hcall
      obtain ⟨c0, gl, hg, hp, _, _⟩ := call_inv hcall
      have hv := gen_vals hg
      have hf := gen_fine hs.1 (hseat t (by simp)) hg
      rw [hv] at hp
      have h1 := carried_post hf hp
      split at h
      · rename_i c2 r hr
        simp only [Except.ok.injEq] at h
        subst h
        obtain ⟨s', h2⟩ := ih (fun x hx => hseat x (by simp [hx])) ctx1 (carried_sound hs h1) r (by rw [hr])
        exact ⟨s', carried_append h1 h2⟩
      · cases h

theorem carried_take {cs : List Cmd} {s s' : IState} (hs : Sound s) (h : Carried s cs s') (k : Nat) :
    ∃ sk, interpretAll s (cs.take k) = .ok sk ∧ Sound sk ∧ Carried sk (cs.drop k) s' := by
  induction k generalizing s cs with
  | zero => exact ⟨s, rfl, hs, h⟩
  | succ k ih =>
    cases cs with
    | nil => exact ⟨s, rfl, hs, h⟩
    | cons c cs =>
      obtain ⟨hf, s1, hi, hr⟩ := h
      obtain ⟨sk, a, b, d⟩ := ih (interpret_sound hs hf hi).1 hr
      refine ⟨sk, ?_, b, d⟩
      rw [List.take_succ_cons, interpretAll, hi]
      exact a

theorem carried_fines {cs : List Cmd} {s s' : IState} (h : Carried s cs s') : Fines cs := by
  induction cs generalizing s with
  | nil => exact fines_nil
  | cons c cs ih =>
    obtain ⟨hf, s1, hi, hr⟩ := h
    exact fines_cons hf (ih hr)

/-- a lenient executor gets through all of them -/
theorem carried_run {cs : List Cmd} {s' : IState} (h : Carried [] cs s') :
    (execute false cs).2 = none ∧ (execute false cs).1.length = cs.length := by
  have hf := carried_fines h
  obtain ⟨r1, _, r3⟩ := run_from false cs (fun c hc => (hf c hc).addressed) initialTree [] agree_initial
  have hn : (execute false cs).2 = none := by
    cases he : (execute false cs).2 with
    | none => rfl
    | some e =>
      exfalso
      obtain ⟨c, sk, hc, hk, hx⟩ := r3 e he
      obtain ⟨sk', a, b, d⟩ := carried_take sound_nil h (executeFrom false initialTree cs).1.length
      rw [a] at hk
      injection hk with hk
      subst hk
      have hd : cs.drop (executeFrom false initialTree cs).1.length = c :: cs.drop ((executeFrom false initialTree cs).1.length + 1) := by
        rw [List.getElem?_eq_some_iff] at hc
        obtain ⟨hl, rfl⟩ := hc
        exact List.drop_eq_getElem_cons hl
      rw [hd] at d
      obtain ⟨hfc, s1, hi, _⟩ := d
      have hi' := hi
      rw [interpret] at hi'
      simp only [bind_ok, pure_ok, Prod.mk.injEq] at hi'
      obtain ⟨x, hx', _, _⟩ := hi'
      rcases hx with hx | ⟨v, hv, hu, old, ho, hx | ⟨hx, _⟩⟩
      · rw [hx'] at hx; cases hx
      · rw [newValue, hu] at hv
        cases hv
        obtain ⟨_, sc, n, k, hm, hp, hsh, _⟩ := hfc
        have hk : HasKind c.prop k := ⟨sc, n, hm, hp⟩
        rw [equal_kind hk] at hx
        split at hx
        · rename_i hkt
          have hn := hsh.2.2.2.1 hu hkt
          obtain ⟨l, hl⟩ := hsh.2.2.1 hn
          have hp' : c.prop = view .player "hand" := by
            have : ∀ r ∈ kindTable, r.2.1 = "hand" → r.1 = .player := by decide +kernel
            have e := this _ hm hn
            simp only at e
            rw [hp, hn, e]
          obtain ⟨l', hl'⟩ := b.2.1 c.sub old (by rw [← hp']; exact ho)
          rw [hl, hl', tilesEqual_eq] at hx
          have ti : ∀ l : List Str, ∃ y, tileItems (strs l) = some y := by
            intro l
            refine ⟨l.map Val.str, ?_⟩
            rw [strs, tileItems, if_pos]
            simp [Val.hashable]
          obtain ⟨y1, e1⟩ := ti l
          obtain ⟨y2, e2⟩ := ti l'
          rw [e1, e2] at hx
          cases hx
        · cases hx
      · cases hx
  exact ⟨hn, r1 hn⟩

end Verif.Proofs
