import Verif.Spec.Effects
import Verif.Proofs.TranslateScore2

namespace Verif.Proofs
open Verif.Py Verif.Model Verif.Spec

/-! ### Commands within a list of properties -/

def Within (S : List (Scope × String)) (l : List Cmd) : Prop := ∀ c ∈ l, ∃ x ∈ S, c.prop = Verif.Model.view x.1 x.2

theorem within_nil (S : List (Scope × String)) : Within S [] := by simp [Within]

theorem within_cons {S : List (Scope × String)} {c : Cmd} {l : List Cmd} :
    Within S (c :: l) ↔ (∃ x ∈ S, c.prop = Verif.Model.view x.1 x.2) ∧ Within S l := by simp [Within]

theorem within_append {S : List (Scope × String)} {a b : List Cmd} : Within S (a ++ b) ↔ Within S a ∧ Within S b := by
  simp only [Within, List.mem_append]
  exact ⟨fun h => ⟨fun c hc => h c (.inl hc), fun c hc => h c (.inr hc)⟩, fun h c hc => hc.elim (h.1 c) (h.2 c)⟩

theorem within_pcmd {S : List (Scope × String)} {a : String} (h : (Scope.player, a) ∈ S) (ev : EventType) (q : Int)
    (u : Update) (v : Val) : ∃ x ∈ S, (pcmd ev q a u v).prop = Verif.Model.view x.1 x.2 := ⟨_, h, rfl⟩
theorem within_gcmd {S : List (Scope × String)} {a : String} (h : (Scope.game, a) ∈ S) (ev : EventType)
    (u : Update) (v : Val) : ∃ x ∈ S, (gcmd ev a u v).prop = Verif.Model.view x.1 x.2 := ⟨_, h, rfl⟩
theorem within_rcmd {S : List (Scope × String)} {a : String} (h : (Scope.record, a) ∈ S) (ev : EventType)
    (u : Update) (v : Val) : ∃ x ∈ S, (rcmd ev a u v).prop = Verif.Model.view x.1 x.2 := ⟨_, h, rfl⟩

theorem within_mono {S T : List (Scope × String)} {l : List Cmd} (h : Within S l) (hs : ∀ x ∈ S, x ∈ T) : Within T l :=
  fun c hc => by obtain ⟨x, a, b⟩ := h c hc; exact ⟨x, hs x a, b⟩

theorem within_flatten {S : List (Scope × String)} {ls : List (List Cmd)} (h : ∀ l ∈ ls, Within S l) :
    Within S ls.flatten := by
  intro c hc
  obtain ⟨l, hl, hc⟩ := List.mem_flatten.1 hc
  exact h l hl c hc

/-- all views of all properties are different -/
theorem view_table : ∀ s ∈ [Scope.record, .game, .player], ∀ s' ∈ [Scope.record, .game, .player],
    ∀ a ∈ propertyNames s, ∀ b ∈ propertyNames s', Verif.Model.view s a = Verif.Model.view s' b → s = s' ∧ a = b := by
  decide +kernel

theorem view_inj {s s' : Scope} {a b : String} (ha : a ∈ propertyNames s) (hb : b ∈ propertyNames s')
    (h : Verif.Model.view s a = Verif.Model.view s' b) : s = s' ∧ a = b :=
  view_table s (by cases s <;> simp) s' (by cases s' <;> simp) a ha b hb h

theorem about_within {S : List (Scope × String)} {l : List Cmd} (h : Within S l)
    (hS : ∀ x ∈ S, x.2 ∈ propertyNames x.1) {sc : Scope} {a : String} (ha : a ∈ propertyNames sc) (hn : (sc, a) ∉ S)
    (s : Sub) : about (s, Verif.Model.view sc a) l = [] := by
  refine about_none (fun c hc heq => ?_)
  obtain ⟨⟨s', b⟩, hx, e⟩ := h c hc
  obtain ⟨rfl, rfl⟩ := view_inj (hS _ hx) ha (e.symm.trans heq)
  exact hn hx

/-! ### The handlers -/

theorem handUpdate_within {S : List (Scope × String)} (hh : (Scope.player, "hand") ∈ S) {ev : EventType} {u : Update}
    (hr : u = .replace → (Scope.player, "discard_from_hand") ∈ S) {q : Int} {l : List Int} {ctx ctx1 : Ctx}
    {cs : List Cmd} (h : handUpdate ev u q l ctx = .ok (ctx1, cs)) : Within S cs := by
  unfold handUpdate at h
  cases u with
  | add =>
    match l, h with
    | [], h => cases h
    | [x], h =>
      simp only [bind_ok, pure_ok, Prod.exists, Prod.mk.injEq] at h
      obtain ⟨_, _, ⟨rfl, rfl⟩, _, _, _, rfl⟩ := h
      exact within_cons.2 ⟨within_pcmd hh _ _ _ _, within_nil _⟩
    | _ :: _ :: _, h => cases h
  | replace =>
    simp only [bind_ok, pure_ok, Prod.exists, Prod.mk.injEq] at h
    obtain ⟨_, _, ⟨rfl, rfl⟩, _, _, _, rfl⟩ := h
    exact within_cons.2 ⟨within_pcmd (hr rfl) _ _ _ _, within_cons.2 ⟨within_pcmd hh _ _ _ _, within_nil _⟩⟩
  | _ =>
    simp only [bind_ok, pure_ok, Prod.exists, Prod.mk.injEq] at h
    obtain ⟨_, _, ⟨rfl, rfl⟩, _, _, _, rfl⟩ := h
    exact within_cons.2 ⟨within_pcmd hh _ _ _ _, within_nil _⟩

theorem setOya_within {S : List (Scope × String)} (hS : (Scope.player, "is_dealer") ∈ S) {ctx : Ctx} {oya : Int}
    {l : List Cmd} (h : setOya ctx oya = .ok l) : Within S l := by
  simp only [setOya, bind_ok, pure_ok] at h
  obtain ⟨n, _, rfl⟩ := h
  intro c hc
  obtain ⟨p, _, rfl⟩ := List.mem_map.1 hc
  exact within_pcmd hS _ _ _ _

theorem forPlayers_within {S : List (Scope × String)} {body : Nat → Ctx → CmdGen}
    (hb : ∀ q c c' l, body q c = .ok (c', l) → Within S l)
    {ps : List Nat} {ctx ctx' : Ctx} {l : List Cmd} (h : forPlayers body ps ctx = .ok (ctx', l)) : Within S l := by
  induction ps generalizing ctx l with
  | nil => simp only [forPlayers, Except.ok.injEq, Prod.mk.injEq] at h; rw [← h.2]; exact within_nil _
  | cons p ps ih =>
    simp only [forPlayers, bind_ok, pure_ok, Prod.exists, Prod.mk.injEq] at h
    obtain ⟨c1, l1, h1, c2, l2, h2, rfl, rfl⟩ := h
    exact within_append.2 ⟨hb _ _ _ _ h1, ih h2⟩

theorem initPlayer_within {S : List (Scope × String)} (hS : ∀ a ∈ ["hand", "discard_from_hand", "discard_tiles",
      "fixed_meld", "meld_public_tiles", "bonus_tiles", "round", "in_richii", "score"], (Scope.player, a) ∈ S)
    {e : Event} {p : Nat} {ctx ctx1 : Ctx} {l : List Cmd} (h : initPlayer e p ctx = .ok (ctx1, l)) : Within S l := by
  simp only [initPlayer, bind_ok, pure_ok, Prod.exists, Prod.mk.injEq] at h
  obtain ⟨_, _, _, _, _, _, _, _, c, hand, hh, _, _, rfl, rfl⟩ := h
  refine within_append.2 ⟨within_append.2 ⟨?_, handUpdate_within (hS _ (by decide)) (fun _ => hS _ (by decide)) hh⟩, ?_⟩
  · simp only [within_cons]
    exact ⟨within_pcmd (hS _ (by decide)) _ _ _ _, within_pcmd (hS _ (by decide)) _ _ _ _,
      within_pcmd (hS _ (by decide)) _ _ _ _, within_pcmd (hS _ (by decide)) _ _ _ _,
      within_pcmd (hS _ (by decide)) _ _ _ _, within_pcmd (hS _ (by decide)) _ _ _ _, within_nil _⟩
  · exact within_cons.2 ⟨within_pcmd (hS _ (by decide)) _ _ _ _, within_nil _⟩

theorem gameFinish_within {S : List (Scope × String)} (hS : ∀ a ∈ ["score", "is_win", "is_self_win", "is_discard_lose_game",
      "faans", "final_score", "final_point", "rank"], (Scope.player, a) ∈ S)
    {ctx : Ctx} {win : Option (Int × Int)} {sc : Option (List Num)} {yaku : List Str} {e : Event}
    {l : List Cmd} (h : gameFinish ctx win sc yaku e = .ok l) : Within S l := by
  simp only [gameFinish, bind_ok, pure_ok] at h
  obtain ⟨n, _, parts, h1, ends, h2, rfl⟩ := h
  refine within_append.2 ⟨within_flatten (fun part hp => ?_), within_flatten (fun part hp => ?_)⟩
  · obtain ⟨p, _, e⟩ := mapM_inv _ h1 part hp
    simp only [bind_ok, pure_ok] at e
    obtain ⟨s, hs, rfl⟩ := e
    refine within_append.2 ⟨?_, ?_⟩
    · unfold finishScores at hs
      split at hs
      · simp only [Except.ok.injEq] at hs; rw [← hs]; exact within_nil _
      · simp only [bind_ok, pure_ok] at hs
        obtain ⟨_, _, _, _, rfl⟩ := hs
        simp only [within_cons]
        exact ⟨within_pcmd (hS _ (by decide)) _ _ _ _, within_pcmd (hS _ (by decide)) _ _ _ _, within_nil _⟩
    · simp only [finishFlags, within_cons]
      exact ⟨within_pcmd (hS _ (by decide)) _ _ _ _, within_pcmd (hS _ (by decide)) _ _ _ _,
        within_pcmd (hS _ (by decide)) _ _ _ _, within_pcmd (hS _ (by decide)) _ _ _ _, within_nil _⟩
  · unfold finishEnds at h2
    split at h2
    · simp only [Except.ok.injEq] at h2; rw [← h2] at hp; simp at hp
    · simp only [bind_ok] at h2
      obtain ⟨finals, _, h3⟩ := h2
      obtain ⟨p, _, e⟩ := mapM_inv _ h3 part hp
      simp only [finishRecord, bind_ok, pure_ok] at e
      obtain ⟨_, _, _, _, _, _, rfl⟩ := e
      simp only [within_cons]
      exact ⟨within_pcmd (hS _ (by decide)) _ _ _ _, within_pcmd (hS _ (by decide)) _ _ _ _,
        within_pcmd (hS _ (by decide)) _ _ _ _, within_nil _⟩

theorem unPlayer_within {S : List (Scope × String)} (hS : ∀ a ∈ ["disconnected", "name", "level", "extra_level"],
      (Scope.player, a) ∈ S) (e : Event) (dan rate : List Num) (sex : List Str) (q : Nat) (c c' : Ctx) (l : List Cmd)
    (h : unPlayer e dan rate sex q c = .ok (c', l)) : Within S l := by
  unfold unPlayer at h
  split at h
  · simp only [Except.ok.injEq, Prod.mk.injEq] at h; rw [← h.2]; exact within_nil _
  · split at h
    · simp only [Except.ok.injEq, Prod.mk.injEq] at h; rw [← h.2]; exact within_nil _
    · simp only [bind_ok, pure_ok, Prod.mk.injEq] at h
      obtain ⟨_, _, r, _, _, _, levels, hl, rfl, rfl⟩ := h
      refine within_append.2 ⟨within_append.2 ⟨?_, ?_⟩, ?_⟩
      · simp only [within_cons]
        exact ⟨within_pcmd (hS _ (by decide)) _ _ _ _, within_pcmd (hS _ (by decide)) _ _ _ _, within_nil _⟩
      · unfold levelCmds at hl
        split at hl
        · simp only [Except.ok.injEq] at hl; rw [← hl]; exact within_nil _
        · simp only [bind_ok, pure_ok] at hl
          obtain ⟨_, _, _, _, rfl⟩ := hl
          exact within_cons.2 ⟨within_pcmd (hS _ (by decide)) _ _ _ _, within_nil _⟩
      · unfold rateCmds
        split
        · exact within_nil _
        · exact within_cons.2 ⟨within_pcmd (hS _ (by decide)) _ _ _ _, within_nil _⟩

/-- the named handlers stay within their properties -/
theorem named_within {ctx ctx1 : Ctx} {e : Event} {l : List Cmd} (h : translateNamed ctx e = .ok (ctx1, l)) :
    Within (mayChange e.tag) l := by
  unfold translateNamed at h
  split at h
  · rename_i x heq
    have hm := List.mem_of_find?_eq_some heq
    have ht := List.find?_some heq
    simp only [decide_eq_true_eq] at ht
    rw [← ht]
    simp only [nameMatch, List.mem_cons, List.not_mem_nil, or_false] at hm
    rcases hm with rfl | rfl | rfl | rfl | rfl | rfl | rfl | rfl | rfl | rfl | rfl
    · simp only [initCommand, bind_ok] at h
      obtain ⟨_, _, _, _, h⟩ := h
      split at h
      · cases h
      · simp only [bind_ok, pure_ok, Prod.exists, Prod.mk.injEq] at h
        obtain ⟨_, _, _, _, _, _, _, _, _, _, _, _, _, _, _, _, _, _, _, dealers, hd, _, _, _, _, _, _, c, rest, hr, rfl, rfl⟩ := h
        refine within_append.2 ⟨within_append.2 ⟨within_append.2 ⟨?_, ?_⟩, ?_⟩, ?_⟩
        · simp only [within_cons]
          exact ⟨within_gcmd (by decide) _ _ _, within_gcmd (by decide) _ _ _, within_gcmd (by decide) _ _ _,
            within_gcmd (by decide) _ _ _, within_nil _⟩
        · exact setOya_within (by decide) hd
        · exact within_cons.2 ⟨within_gcmd (by decide) _ _ _, within_nil _⟩
        · exact forPlayers_within (fun q c c' l hq => initPlayer_within (by decide) hq) hr
    · simp only [openHandCommand, bind_ok, pure_ok, Prod.exists, Prod.mk.injEq] at h
      obtain ⟨m, _, _, _, _, _, _, _, _, _, c, l, hh, rfl, rfl⟩ := h
      refine within_append.2 ⟨?_, handUpdate_within (by decide) (fun x => by cases x) hh⟩
      simp only [within_cons]
      refine ⟨within_pcmd (by decide) _ _ _ _, ?_, within_nil _⟩
      split <;> exact within_pcmd (by decide) _ _ _ _
    · simp only [goCommand, bind_ok, pure_ok, Prod.mk.injEq] at h
      obtain ⟨_, _, _, _, _, _, _, _, _, _, _, _, _, _, _, _, _, _, _, _, _, _, _, _, _, _, rfl, rfl⟩ := h
      simp only [within_cons]
      exact ⟨within_rcmd (by decide) _ _ _, within_rcmd (by decide) _ _ _, within_rcmd (by decide) _ _ _,
        within_rcmd (by decide) _ _ _, within_rcmd (by decide) _ _ _, within_rcmd (by decide) _ _ _,
        within_rcmd (by decide) _ _ _, within_nil _⟩
    · simp only [taikyokuCommand, bind_ok, pure_ok, Prod.mk.injEq] at h
      obtain ⟨_, _, _, _, _, h1, rfl, rfl⟩ := h
      exact setOya_within (by decide) h1
    · simp only [unCommand, bind_ok] at h
      obtain ⟨_, _, _, _, h1⟩ := h
      exact forPlayers_within (fun q c c' l hq => unPlayer_within (by decide) e _ _ _ q c c' l hq) h1
    · simp only [doraCommand, bind_ok, pure_ok, Prod.mk.injEq] at h
      obtain ⟨_, _, _, _, rfl, rfl⟩ := h
      exact within_cons.2 ⟨within_gcmd (by decide) _ _ _, within_nil _⟩
    · simp only [reachCommand, bind_ok] at h
      obtain ⟨_, _, _, _, _, _, h1⟩ := h
      split at h1
      · simp only [pure_ok, Prod.mk.injEq] at h1
        obtain ⟨rfl, rfl⟩ := h1
        exact within_cons.2 ⟨within_pcmd (by decide) _ _ _ _, within_nil _⟩
      · split at h1
        · simp only [pure_ok, Prod.mk.injEq] at h1
          obtain ⟨rfl, rfl⟩ := h1
          exact within_cons.2 ⟨within_pcmd (by decide) _ _ _ _, within_nil _⟩
        · simp only [pure_ok, Prod.mk.injEq] at h1
          obtain ⟨rfl, rfl⟩ := h1
          exact within_nil _
    · simp only [agariCommand, bind_ok, pure_ok, Prod.exists, Prod.mk.injEq] at h
      obtain ⟨_, _, _, _, _, _, _, _, _, _, _, _, _, _, _, _, _, _, _, _, rest, hr, rfl, rfl⟩ := h
      refine within_append.2 ⟨?_, gameFinish_within (by decide) hr⟩
      simp only [within_cons]
      exact ⟨within_pcmd (by decide) _ _ _ _, within_gcmd (by decide) _ _ _, within_nil _⟩
    · simp only [shuffleCommand, bind_ok, pure_ok, Prod.mk.injEq] at h
      obtain ⟨_, _, rfl, rfl⟩ := h
      exact within_cons.2 ⟨within_rcmd (by decide) _ _ _, within_nil _⟩
    · simp only [byeCommand, bind_ok, pure_ok, Prod.mk.injEq] at h
      obtain ⟨_, _, _, _, rfl, rfl⟩ := h
      exact within_cons.2 ⟨within_pcmd (by decide) _ _ _ _, within_nil _⟩
    · simp only [ryuukyokuCommand, bind_ok, pure_ok, Prod.mk.injEq] at h
      obtain ⟨_, _, _, _, rest, h1, rfl, rfl⟩ := h
      refine within_append.2 ⟨?_, gameFinish_within (by decide) h1⟩
      simp only [within_cons]
      exact ⟨within_gcmd (by decide) _ _ _, within_gcmd (by decide) _ _ _, within_nil _⟩
  · cases h; exact within_nil _

end Verif.Proofs
