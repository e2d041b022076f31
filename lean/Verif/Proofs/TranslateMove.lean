import Verif.Proofs.Translate

namespace Verif.Proofs
open Verif.Py Verif.Model Verif.Spec

/-! ### Finding the handler -/

theorem named_init (ctx : Ctx) {e : Event} (h : e.tag = "INIT".toList) : translateNamed ctx e = initCommand ctx e := by
  unfold translateNamed; rw [h]; rfl
theorem named_n (ctx : Ctx) {e : Event} (h : e.tag = "N".toList) : translateNamed ctx e = openHandCommand ctx e := by
  unfold translateNamed; rw [h]; rfl
theorem named_dora (ctx : Ctx) {e : Event} (h : e.tag = "DORA".toList) : translateNamed ctx e = doraCommand ctx e := by
  unfold translateNamed; rw [h]; rfl
theorem named_agari (ctx : Ctx) {e : Event} (h : e.tag = "AGARI".toList) : translateNamed ctx e = agariCommand ctx e := by
  unfold translateNamed; rw [h]; rfl
theorem named_reach (ctx : Ctx) {e : Event} (h : e.tag = "REACH".toList) : translateNamed ctx e = reachCommand ctx e := by
  unfold translateNamed; rw [h]; rfl
theorem named_ryuukyoku (ctx : Ctx) {e : Event} (h : e.tag = "RYUUKYOKU".toList) :
    translateNamed ctx e = ryuukyokuCommand ctx e := by
  unfold translateNamed; rw [h]; rfl

/-- the second character of a tag with a handler is no digit -/
theorem nameMatch_second : (nameMatch.map (fun h => h.1.toList)).all
    (fun s => match s with | _ :: d :: _ => !isDigit d | _ => true) = true := by decide +kernel

theorem named_letter (ctx : Ctx) (c : Char) (t : Nat) (a : List (Str × Str)) :
    translateNamed ctx ⟨c :: natDigits t, a⟩ = .ok (ctx, []) := by
  unfold translateNamed
  have : nameMatch.find? (fun h => decide (h.1.toList = c :: natDigits t)) = none := by
    rw [List.find?_eq_none]
    intro h hh
    simp only [decide_eq_true_eq]
    intro e
    have h1 := List.all_eq_true.1 nameMatch_second (h.1.toList) (List.mem_map.2 ⟨h, hh, rfl⟩)
    rw [e] at h1
    cases hd : natDigits t with
    | nil => exact natDigits_ne_nil t hd
    | cons d r =>
      rw [hd] at h1
      have := natDigits_all t d (by rw [hd]; simp)
      simp [this] at h1
  rw [this]

theorem tileChange_letter (ind : List Char) (c : Char) (t : Nat) (a : List (Str × Str)) :
    tileChange ind ⟨c :: natDigits t, a⟩ = if c ∈ ind then some ((t : Int), (ind.idxOf c : Int)) else none := by
  unfold tileChange
  rw [wholeNumber_number]
  by_cases h : c ∈ ind <;> simp [h]

theorem draw_idx : ∀ q : Fin 4, DRAW_INDICATOR.idxOf (drawLetter q) = q.val := by decide
theorem draw_in : ∀ q : Fin 4, drawLetter q ∈ DRAW_INDICATOR := by decide
theorem discard_idx : ∀ q : Fin 4, DISCARD_INDICATOR.idxOf (discardLetter q) = q.val := by decide
theorem discard_not_draw : ∀ q : Fin 4, discardLetter q ∉ DRAW_INDICATOR := by decide

/-! ### Draws and discards -/

theorem handUpdate_add (ev : EventType) (q : Int) (t : Int) (ctx : Ctx) (ht : IsTile t) :
    handUpdate ev .add q [t] ctx = .ok ({ ctx with right := putKey ctx.right q (some t) },
      [pcmd ev q "hand" .add (strs [tileName t])]) := by
  unfold handUpdate
  rw [tileNames_eq (by simpa using ht)]
  rfl

theorem handUpdate_remove (ev : EventType) (q : Int) (l : List Int) (ctx : Ctx) (ht : ∀ t ∈ l, IsTile t) :
    handUpdate ev .remove q l ctx = .ok ({ ctx with right := putKey ctx.right q none },
      [pcmd ev q "hand" .remove (strs (l.map tileName))]) := by
  unfold handUpdate
  rw [tileNames_eq ht]
  rfl

theorem gen_draw (ctx : Ctx) (q : Fin 4) (t : Nat) (ht : t < 136) :
    generate ctx (Move.draw q t).event = .ok ({ ctx with right := putKey ctx.right (q.val : Int) (some (t : Int)) },
      [pcmd .draw q.val "hand" .add (strs [tileName t])]) := by
  unfold generate
  rw [show (Move.draw q t).event = ⟨drawLetter q :: natDigits t, []⟩ from rfl, named_letter]
  show (do let (ctx2, l2) ← drawCommand ctx _; _) = _
  unfold drawCommand
  rw [tileChange_letter, if_pos (draw_in q), draw_idx]
  simp only []
  rw [handUpdate_add _ _ _ _ ⟨by omega, by omega⟩]
  rfl

/-- the commands of a discard -/
def discardCmds (q : Fin 4) (t : Nat) (last : Option Int) : List Cmd :=
  [pcmd .discard q.val "round" .add (.num (.int 1)),
   pcmd .discard q.val "discard_from_hand" .add (.list [.bool (decide (some (t : Int) ≠ last))]),
   pcmd .discard q.val "hand" .remove (strs [tileName t]),
   pcmd .discard q.val "discard_tiles" .add (strs [tileName t])]

theorem gen_discard (ctx : Ctx) (q : Fin 4) (t : Nat) (ht : t < 136) :
    generate ctx (Move.discard q t).event =
      match ctx.right.lookup (q.val : Int) with
      | none => .error .keyError
      | some last => .ok ({ ctx with right := putKey ctx.right (q.val : Int) none }, discardCmds q t last) := by
  have hT : IsTile (t : Int) := ⟨by omega, by omega⟩
  unfold generate
  rw [show (Move.discard q t).event = ⟨discardLetter q :: natDigits t, []⟩ from rfl, named_letter]
  show (do let (ctx2, l2) ← drawCommand ctx _; _) = _
  unfold drawCommand
  rw [tileChange_letter, if_neg (discard_not_draw q)]
  show discardCommand ctx _ = _
  unfold discardCommand
  rw [tileChange_letter, if_pos (discardLetter_in q), discard_idx]
  simp only []
  rw [tileNames_eq (l := [(t : Int)]) (by simpa using hT), handUpdate_remove _ _ _ _ (by simpa using hT)]
  cases ctx.right.lookup (q.val : Int) <;> rfl

/-! ### Melds and doras -/

theorem handUpdate_remove_inv {ev : EventType} {q : Int} {l : List Int} {ctx ctx1 : Ctx} {cs : List Cmd}
    (h : handUpdate ev .remove q l ctx = .ok (ctx1, cs)) :
    ctx1 = { ctx with right := putKey ctx.right q none } ∧
    ∃ names, tileNames l = .ok names ∧ cs = [pcmd ev q "hand" .remove (strs names)] := by
  simp only [handUpdate, bind_ok, pure_ok, Prod.exists, Prod.mk.injEq] at h
  obtain ⟨a, b, ⟨rfl, rfl⟩, names, h7, rfl, rfl⟩ := h
  exact ⟨rfl, names, h7, rfl⟩

/-- the commands of a meld -/
def meldCmds (q : Fin 4) (m : Meld) (own all : List Str) : List Cmd :=
  [pcmd .openHand q.val "meld_public_tiles" .add (strs own),
   if m.cls ≠ .kita then pcmd .openHand q.val "fixed_meld" .add (.list [strs all])
   else pcmd .openHand q.val "bonus_tiles" .add (strs all),
   pcmd .openHand q.val "hand" .remove (strs own)]

theorem gen_meld_inv {ctx ctx1 : Ctx} {q : Fin 4} {code : Nat} {m : Meld} {l : List Cmd}
    (hm : meldOf q.val code = .ok m)
    (h : generate ctx (Move.meld q code).event = .ok (ctx1, l)) :
    ctx1 = { ctx with right := putKey ctx.right (q.val : Int) none } ∧
    ∃ own all, tileNames m.selfTiles = .ok own ∧ tileNames (m.selfTiles ++ m.borrowedTiles).eraseDups = .ok all ∧
      l = meldCmds q m own all := by
  have hw : pyInt (natDigits q.val) = .ok (q.val : Int) := pyInt_natDigits _
  have hg : (Move.meld q code).event.get "who".toList = .ok (natDigits q.val) := rfl
  simp only [generate, named_n ctx (e := (Move.meld q code).event) rfl, openHandCommand, bind_ok, pure_ok,
    meldFrom_move, hm, hg, hw, Except.ok.injEq, Prod.exists,
    Prod.mk.injEq, exists_eq_left'] at h
  obtain ⟨a, b, ⟨own, h0, all, h1, c, d, h5, rfl, rfl⟩, h2⟩ := h
  obtain ⟨rfl, own', h6, rfl⟩ := handUpdate_remove_inv h5
  rw [h0] at h6
  cases h6
  simp only [List.cons_append, List.nil_append, ne_eq, reduceCtorEq, not_false_eq_true, if_true, pure_ok,
    Prod.mk.injEq] at h2
  exact ⟨h2.1.symm, own, all, h0, h1, h2.2.symm⟩

theorem gen_dora_inv {ctx ctx1 : Ctx} {t : Nat} {l : List Cmd}
    (h : generate ctx (Move.dora t).event = .ok (ctx1, l)) :
    ctx1 = ctx ∧ ∃ names, l = [gcmd .newDora "dora_indicators" .add (strs names)] := by
  simp only [generate, named_dora ctx (e := (Move.dora t).event) rfl, doraCommand, bind_ok, pure_ok,
    Prod.exists, Prod.mk.injEq] at h
  obtain ⟨a, b, ⟨s, _, names, _, rfl, rfl⟩, h2⟩ := h
  simp only [ne_eq, reduceCtorEq, not_false_eq_true, if_true, pure_ok, Prod.mk.injEq] at h2
  exact ⟨h2.1.symm, names, h2.2.symm⟩

end Verif.Proofs
