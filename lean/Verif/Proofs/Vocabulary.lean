import Verif.Proofs.Effects2
import Verif.Spec.Vocabulary

/-! Every command an event gives is one of its phrases. -/
namespace Verif.Proofs
open Verif.Py Verif.Model Verif.Spec

def Voc (S : List Phrase) (l : List Cmd) : Prop := ∀ c ∈ l, ∃ x ∈ S, Says c x

theorem voc_nil (S : List Phrase) : Voc S [] := by simp [Voc]

theorem voc_cons {S : List Phrase} {c : Cmd} {l : List Cmd} :
    Voc S (c :: l) ↔ (∃ x ∈ S, Says c x) ∧ Voc S l := by simp [Voc]

theorem voc_append {S : List Phrase} {a b : List Cmd} : Voc S (a ++ b) ↔ Voc S a ∧ Voc S b := by
  simp only [Voc, List.mem_append]
  exact ⟨fun h => ⟨fun c hc => h c (.inl hc), fun c hc => h c (.inr hc)⟩, fun h c hc => hc.elim (h.1 c) (h.2 c)⟩

theorem voc_pcmd {S : List Phrase} {a : String} {ev : EventType} {u : Update} (h : (Scope.player, a, u, ev) ∈ S) (q : Int)
    (v : Val) : ∃ x ∈ S, Says (pcmd ev q a u v) x := ⟨_, h, rfl, rfl, rfl⟩
theorem voc_gcmd {S : List Phrase} {a : String} {ev : EventType} {u : Update} (h : (Scope.game, a, u, ev) ∈ S)
    (v : Val) : ∃ x ∈ S, Says (gcmd ev a u v) x := ⟨_, h, rfl, rfl, rfl⟩
theorem voc_rcmd {S : List Phrase} {a : String} {ev : EventType} {u : Update} (h : (Scope.record, a, u, ev) ∈ S)
    (v : Val) : ∃ x ∈ S, Says (rcmd ev a u v) x := ⟨_, h, rfl, rfl, rfl⟩

theorem voc_flatten {S : List Phrase} {ls : List (List Cmd)} (h : ∀ l ∈ ls, Voc S l) :
    Voc S ls.flatten := by
  intro c hc
  obtain ⟨l, hl, hc⟩ := List.mem_flatten.1 hc
  exact h l hl c hc

theorem phrases_numbered {letters : String} {tag : Str} {c : Char} {n : Nat} (h : Numbered letters tag c n) :
    phrases tag = if c ∈ "TUVW".toList then [(.player, "hand", .add, .draw)]
      else if c ∈ "DEFG".toList then
        [(.player, "round", .add, .discard), (.player, "discard_from_hand", .add, .discard),
         (.player, "hand", .remove, .discard), (.player, "discard_tiles", .add, .discard)]
      else [] := by
  obtain ⟨d, r, rfl, _⟩ := numbered_second h
  unfold phrases
  rw [show namedPhrases.find? (fun x => decide (x.1.toList = c :: d :: r)) = none from ?_]
  rw [List.find?_eq_none]
  intro x hx
  simp only [decide_eq_true_eq]
  intro e
  refine numbered_not_named h x.1 ?_ e.symm
  simp only [namedPhrases, List.mem_cons, List.not_mem_nil, or_false] at hx
  rcases hx with rfl | rfl | rfl | rfl | rfl | rfl | rfl | rfl | rfl | rfl | rfl <;> simp

/-! ### The handlers -/

theorem handUpdate_voc {S : List Phrase} {ev : EventType} {u : Update} (hh : (Scope.player, "hand", u, ev) ∈ S)
    (hr : u = .replace → (Scope.player, "discard_from_hand", Update.resetDefault, ev) ∈ S) {q : Int} {l : List Int} {ctx ctx1 : Ctx}
    {cs : List Cmd} (h : handUpdate ev u q l ctx = .ok (ctx1, cs)) : Voc S cs := by
  unfold handUpdate at h
  cases u with
  | add =>
    match l, h with
    | [], h => cases h
    | [x], h =>
      simp only [bind_ok, pure_ok, Prod.exists, Prod.mk.injEq] at h
      obtain ⟨_, _, ⟨rfl, rfl⟩, _, _, _, rfl⟩ := h
      exact voc_cons.2 ⟨voc_pcmd hh _ _, voc_nil _⟩
    | _ :: _ :: _, h => cases h
  | replace =>
    simp only [bind_ok, pure_ok, Prod.exists, Prod.mk.injEq] at h
    obtain ⟨_, _, ⟨rfl, rfl⟩, _, _, _, rfl⟩ := h
    exact voc_cons.2 ⟨voc_pcmd (hr rfl) _ _, voc_cons.2 ⟨voc_pcmd hh _ _, voc_nil _⟩⟩
  | _ =>
    simp only [bind_ok, pure_ok, Prod.exists, Prod.mk.injEq] at h
    obtain ⟨_, _, ⟨rfl, rfl⟩, _, _, _, rfl⟩ := h
    exact voc_cons.2 ⟨voc_pcmd hh _ _, voc_nil _⟩

theorem setOya_voc {S : List Phrase} (hS : (Scope.player, "is_dealer", Update.replace, EventType.gameInit) ∈ S) {ctx : Ctx} {oya : Int}
    {l : List Cmd} (h : setOya ctx oya = .ok l) : Voc S l := by
  simp only [setOya, bind_ok, pure_ok] at h
  obtain ⟨n, _, rfl⟩ := h
  intro c hc
  obtain ⟨p, _, rfl⟩ := List.mem_map.1 hc
  exact voc_pcmd hS _ _

theorem forPlayers_voc {S : List Phrase} {body : Nat → Ctx → CmdGen}
    (hb : ∀ q c c' l, body q c = .ok (c', l) → Voc S l)
    {ps : List Nat} {ctx ctx' : Ctx} {l : List Cmd} (h : forPlayers body ps ctx = .ok (ctx', l)) : Voc S l := by
  induction ps generalizing ctx l with
  | nil => simp only [forPlayers, Except.ok.injEq, Prod.mk.injEq] at h; rw [← h.2]; exact voc_nil _
  | cons p ps ih =>
    simp only [forPlayers, bind_ok, pure_ok, Prod.exists, Prod.mk.injEq] at h
    obtain ⟨c1, l1, h1, c2, l2, h2, rfl, rfl⟩ := h
    exact voc_append.2 ⟨hb _ _ _ _ h1, ih h2⟩

theorem initPlayer_voc {S : List Phrase} (hS : ∀ a ∈ (["hand", "in_richii"].map (fun n => (.player, n, .replace, .gameInit)) ++
      [(.player, "score", .assertEqualOrSet, .gameInit)] ++
      ["round", "discard_tiles", "discard_from_hand", "fixed_meld", "meld_public_tiles", "bonus_tiles"].map
        (fun n => (.player, n, .resetDefault, .gameInit)) : List Phrase), a ∈ S)
    {e : Event} {p : Nat} {ctx ctx1 : Ctx} {l : List Cmd} (h : initPlayer e p ctx = .ok (ctx1, l)) : Voc S l := by
  simp only [initPlayer, bind_ok, pure_ok, Prod.exists, Prod.mk.injEq] at h
  obtain ⟨_, _, _, _, _, _, _, _, c, hand, hh, _, _, rfl, rfl⟩ := h
  refine voc_append.2 ⟨voc_append.2 ⟨?_, handUpdate_voc (hS _ (by decide)) (fun _ => hS _ (by decide)) hh⟩, ?_⟩
  · simp only [voc_cons]
    exact ⟨voc_pcmd (hS _ (by decide)) _ _, voc_pcmd (hS _ (by decide)) _ _,
      voc_pcmd (hS _ (by decide)) _ _, voc_pcmd (hS _ (by decide)) _ _,
      voc_pcmd (hS _ (by decide)) _ _, voc_pcmd (hS _ (by decide)) _ _, voc_nil _⟩
  · exact voc_cons.2 ⟨voc_pcmd (hS _ (by decide)) _ _, voc_nil _⟩

theorem gameFinish_voc {S : List Phrase} (hS : ∀ a ∈ endPhrases, a ∈ S)
    {ctx : Ctx} {win : Option (Int × Int)} {sc : Option (List Num)} {yaku : List Str} {e : Event}
    {l : List Cmd} (h : gameFinish ctx win sc yaku e = .ok l) : Voc S l := by
  simp only [gameFinish, bind_ok, pure_ok] at h
  obtain ⟨n, _, parts, h1, ends, h2, rfl⟩ := h
  refine voc_append.2 ⟨voc_flatten (fun part hp => ?_), voc_flatten (fun part hp => ?_)⟩
  · obtain ⟨p, _, e⟩ := mapM_inv _ h1 part hp
    simp only [bind_ok, pure_ok] at e
    obtain ⟨s, hs, rfl⟩ := e
    refine voc_append.2 ⟨?_, ?_⟩
    · unfold finishScores at hs
      split at hs
      · simp only [Except.ok.injEq] at hs; rw [← hs]; exact voc_nil _
      · simp only [bind_ok, pure_ok] at hs
        obtain ⟨_, _, _, _, rfl⟩ := hs
        simp only [voc_cons]
        exact ⟨voc_pcmd (hS _ (by decide)) _ _, voc_pcmd (hS _ (by decide)) _ _, voc_nil _⟩
    · simp only [finishFlags, voc_cons]
      exact ⟨voc_pcmd (hS _ (by decide)) _ _, voc_pcmd (hS _ (by decide)) _ _,
        voc_pcmd (hS _ (by decide)) _ _, voc_pcmd (hS _ (by decide)) _ _, voc_nil _⟩
  · unfold finishEnds at h2
    split at h2
    · simp only [Except.ok.injEq] at h2; rw [← h2] at hp; simp at hp
    · simp only [bind_ok] at h2
      obtain ⟨finals, _, h3⟩ := h2
      obtain ⟨p, _, e⟩ := mapM_inv _ h3 part hp
      simp only [finishRecord, bind_ok, pure_ok] at e
      obtain ⟨_, _, _, _, _, _, rfl⟩ := e
      simp only [voc_cons]
      exact ⟨voc_pcmd (hS _ (by decide)) _ _, voc_pcmd (hS _ (by decide)) _ _,
        voc_pcmd (hS _ (by decide)) _ _, voc_nil _⟩

theorem unPlayer_voc {S : List Phrase} (hS : ∀ a ∈ ([(.player, "disconnected", .replace, .connectChange),
      (.player, "name", .assertEqualOrSet, .recordInit), (.player, "level", .replace, .recordInit),
      (.player, "extra_level", .replace, .recordInit)] : List Phrase), a ∈ S) (e : Event) (dan rate : List Num) (sex : List Str) (q : Nat) (c c' : Ctx) (l : List Cmd)
    (h : unPlayer e dan rate sex q c = .ok (c', l)) : Voc S l := by
  unfold unPlayer at h
  split at h
  · simp only [Except.ok.injEq, Prod.mk.injEq] at h; rw [← h.2]; exact voc_nil _
  · split at h
    · simp only [Except.ok.injEq, Prod.mk.injEq] at h; rw [← h.2]; exact voc_nil _
    · simp only [bind_ok, pure_ok, Prod.mk.injEq] at h
      obtain ⟨_, _, r, _, _, _, levels, hl, rfl, rfl⟩ := h
      refine voc_append.2 ⟨voc_append.2 ⟨?_, ?_⟩, ?_⟩
      · simp only [voc_cons]
        exact ⟨voc_pcmd (hS _ (by decide)) _ _, voc_pcmd (hS _ (by decide)) _ _, voc_nil _⟩
      · unfold levelCmds at hl
        split at hl
        · simp only [Except.ok.injEq] at hl; rw [← hl]; exact voc_nil _
        · simp only [bind_ok, pure_ok] at hl
          obtain ⟨_, _, _, _, rfl⟩ := hl
          exact voc_cons.2 ⟨voc_pcmd (hS _ (by decide)) _ _, voc_nil _⟩
      · unfold rateCmds
        split
        · exact voc_nil _
        · exact voc_cons.2 ⟨voc_pcmd (hS _ (by decide)) _ _, voc_nil _⟩

/-- the named handlers stay voc their properties -/
theorem named_voc {ctx ctx1 : Ctx} {e : Event} {l : List Cmd} (h : translateNamed ctx e = .ok (ctx1, l)) :
    Voc (phrases e.tag) l := by
  unfold translateNamed at h
  split at h
  · rename_i x heq
    have hm := List.mem_of_find?_eq_some heq
    have ht := List.find?_some heq
    simp only [decide_eq_true_eq] at ht
    rw [← ht]
    simp only [nameMatch, List.mem_cons, List.not_mem_nil, or_false] at hm
    rcases hm with rfl | rfl | rfl | rfl | rfl | rfl | rfl | rfl | rfl | rfl | rfl
    · simp only [initCommand, bind_ok] at h
      obtain ⟨_, _, _, _, h⟩ := h
      split at h
      · cases h
      · simp only [bind_ok, pure_ok, Prod.exists, Prod.mk.injEq] at h
        obtain ⟨_, _, _, _, _, _, _, _, _, _, _, _, _, _, _, _, _, _, _, dealers, hd, _, _, _, _, _, _, c, rest, hr, rfl, rfl⟩ := h
        refine voc_append.2 ⟨voc_append.2 ⟨voc_append.2 ⟨?_, ?_⟩, ?_⟩, ?_⟩
        · simp only [voc_cons]
          exact ⟨voc_gcmd (by decide) _, voc_gcmd (by decide) _, voc_gcmd (by decide) _,
            voc_gcmd (by decide) _, voc_nil _⟩
        · exact setOya_voc (by decide) hd
        · exact voc_cons.2 ⟨voc_gcmd (by decide) _, voc_nil _⟩
        · exact forPlayers_voc (fun q c c' l hq => initPlayer_voc (by decide) hq) hr
    · simp only [openHandCommand, bind_ok, pure_ok, Prod.exists, Prod.mk.injEq] at h
      obtain ⟨m, _, _, _, _, _, _, _, _, _, c, l, hh, rfl, rfl⟩ := h
      refine voc_append.2 ⟨?_, handUpdate_voc (by decide) (fun x => by cases x) hh⟩
      simp only [voc_cons]
      refine ⟨voc_pcmd (by decide) _ _, ?_, voc_nil _⟩
      split <;> exact voc_pcmd (by decide) _ _
    · simp only [goCommand, bind_ok, pure_ok, Prod.mk.injEq] at h
      obtain ⟨_, _, _, _, _, _, _, _, _, _, _, _, _, _, _, _, _, _, _, _, _, _, _, _, _, _, rfl, rfl⟩ := h
      simp only [voc_cons]
      exact ⟨voc_rcmd (by decide) _, voc_rcmd (by decide) _, voc_rcmd (by decide) _,
        voc_rcmd (by decide) _, voc_rcmd (by decide) _, voc_rcmd (by decide) _,
        voc_rcmd (by decide) _, voc_nil _⟩
    · simp only [taikyokuCommand, bind_ok, pure_ok, Prod.mk.injEq] at h
      obtain ⟨_, _, _, _, _, h1, rfl, rfl⟩ := h
      exact setOya_voc (by decide) h1
    · simp only [unCommand, bind_ok] at h
      obtain ⟨_, _, _, _, h1⟩ := h
      exact forPlayers_voc (fun q c c' l hq => unPlayer_voc (by decide) e _ _ _ q c c' l hq) h1
    · simp only [doraCommand, bind_ok, pure_ok, Prod.mk.injEq] at h
      obtain ⟨_, _, _, _, rfl, rfl⟩ := h
      exact voc_cons.2 ⟨voc_gcmd (by decide) _, voc_nil _⟩
    · simp only [reachCommand, bind_ok] at h
      obtain ⟨_, _, _, _, _, _, h1⟩ := h
      split at h1
      · simp only [pure_ok, Prod.mk.injEq] at h1
        obtain ⟨rfl, rfl⟩ := h1
        exact voc_cons.2 ⟨voc_pcmd (by decide) _ _, voc_nil _⟩
      · split at h1
        · simp only [pure_ok, Prod.mk.injEq] at h1
          obtain ⟨rfl, rfl⟩ := h1
          exact voc_cons.2 ⟨voc_pcmd (by decide) _ _, voc_nil _⟩
        · simp only [pure_ok, Prod.mk.injEq] at h1
          obtain ⟨rfl, rfl⟩ := h1
          exact voc_nil _
    · simp only [agariCommand, bind_ok, pure_ok, Prod.exists, Prod.mk.injEq] at h
      obtain ⟨_, _, _, _, _, _, _, _, _, _, _, _, _, _, _, _, _, _, _, _, rest, hr, rfl, rfl⟩ := h
      refine voc_append.2 ⟨?_, gameFinish_voc (by decide) hr⟩
      simp only [voc_cons]
      exact ⟨voc_pcmd (by decide) _ _, voc_gcmd (by decide) _, voc_nil _⟩
    · simp only [shuffleCommand, bind_ok, pure_ok, Prod.mk.injEq] at h
      obtain ⟨_, _, rfl, rfl⟩ := h
      exact voc_cons.2 ⟨voc_rcmd (by decide) _, voc_nil _⟩
    · simp only [byeCommand, bind_ok, pure_ok, Prod.mk.injEq] at h
      obtain ⟨_, _, _, _, rfl, rfl⟩ := h
      exact voc_cons.2 ⟨voc_pcmd (by decide) _ _, voc_nil _⟩
    · simp only [ryuukyokuCommand, bind_ok, pure_ok, Prod.mk.injEq] at h
      obtain ⟨_, _, _, _, rest, h1, rfl, rfl⟩ := h
      refine voc_append.2 ⟨?_, gameFinish_voc (by decide) h1⟩
      simp only [voc_cons]
      exact ⟨voc_gcmd (by decide) _, voc_gcmd (by decide) _, voc_nil _⟩
  · cases h; exact voc_nil _

theorem draw_voc {ctx ctx1 : Ctx} {e : Event} {l : List Cmd} (h : drawCommand ctx e = .ok (ctx1, l)) :
    Voc (phrases e.tag) l := by
  unfold drawCommand at h
  split at h
  · cases h; exact voc_nil _
  · rename_i tile player ht
    obtain ⟨n, c, hn, rfl, rfl⟩ := tileChange_numbered (letters := "TUVW") ht
    rw [phrases_numbered hn, if_pos hn.1]
    exact handUpdate_voc (by simp) (fun x => by cases x) h

theorem discard_voc {ctx ctx1 : Ctx} {e : Event} {l : List Cmd} (h : discardCommand ctx e = .ok (ctx1, l)) :
    Voc (phrases e.tag) l := by
  unfold discardCommand at h
  split at h
  · cases h; exact voc_nil _
  · rename_i tile player ht
    obtain ⟨n, c, hn, rfl, rfl⟩ := tileChange_numbered (letters := "DEFG") ht
    have hc : c ∉ "TUVW".toList := by
      have := hn.1
      simp at this
      rcases this with rfl | rfl | rfl | rfl <;> decide
    rw [phrases_numbered hn, if_neg hc, if_pos hn.1]
    simp only [bind_ok] at h
    obtain ⟨names, _, h⟩ := h
    split at h
    · cases h
    · simp only [bind_ok, pure_ok, Prod.exists, Prod.mk.injEq] at h
      obtain ⟨c', hand, hh, rfl, rfl⟩ := h
      refine voc_append.2 ⟨voc_append.2 ⟨?_, handUpdate_voc (by simp) (fun x => by cases x) hh⟩, ?_⟩
      · simp only [voc_cons]
        exact ⟨voc_pcmd (by simp) _ _, voc_pcmd (by simp) _ _, voc_nil _⟩
      · exact voc_cons.2 ⟨voc_pcmd (by simp) _ _, voc_nil _⟩

theorem generate_voc {ctx ctx1 : Ctx} {e : Event} {l : List Cmd} (h : generate ctx e = .ok (ctx1, l)) :
    Voc (phrases e.tag) l := by
  unfold generate at h
  simp only [bind_ok, Prod.exists] at h
  obtain ⟨a, b, h1, h⟩ := h
  split at h
  · simp only [pure_ok, Prod.mk.injEq] at h; rw [← h.2]; exact named_voc h1
  · simp only [bind_ok, Prod.exists] at h
    obtain ⟨c, d, h2, h⟩ := h
    split at h
    · simp only [pure_ok, Prod.mk.injEq] at h; rw [← h.2]; exact draw_voc h2
    · exact discard_voc h


end Verif.Proofs
