import Verif.Props.Header
import Verif.Spec.Strict

/-! Which events give commands. -/
namespace Verif.Proofs
open Verif.Py Verif.Model Verif.Spec Verif.Props

/-- the record is not one of no players -/
def Peopled (ctx : Ctx) : Prop := ctx.playerCount ≠ .ok 0

theorem peopled_empty : Peopled {} := by
  intro h; cases h

/-- the number of players in terms of the value -/
def countOf : Val → Option Nat
  | .num (.int n) => some n.toNat
  | .bool b => some (if b then 1 else 0)
  | _ => none

theorem count_iff (ctx : Ctx) (n : Nat) : ctx.playerCount = .ok n ↔ countOf (ctx.vals.get (ofRecord "player_count")) = some n := by
  unfold Ctx.playerCount IState.get ofRecord
  cases ctx.vals.lookup (Sub.all, Verif.Model.view .record "player_count") with
  | none => simp [countOf]
  | some v =>
    simp only [Option.getD_some]
    cases v with
    | num m => cases m <;> simp [countOf]
    | bool b => cases b <;> simp [countOf]
    | _ => simp [countOf]

theorem go_count {ctx ctx1 : Ctx} {e : Event} {l : List Cmd} (h : goCommand ctx e = .ok (ctx1, l)) :
    ∃ a b c, l = a ++ c :: b ∧ keyOf c = ofRecord "player_count" ∧ about (ofRecord "player_count") b = [] ∧
      c.update = .replace ∧ (c.value = .num (.int 3) ∨ c.value = .num (.int 4)) := by
  simp only [goCommand, bind_ok, pure_ok, Prod.mk.injEq] at h
  obtain ⟨_, _, _, _, g, _, winds, _, _, _, _, _, _, _, level, _, _, _, _, _, _, _, count, hc, _, _, rfl, rfl⟩ := h
  simp only [GameType.playerCount, bind_ok, pure_ok] at hc
  obtain ⟨b, _, rfl⟩ := hc
  refine ⟨[_, _, _, _, _], [_], _, rfl, rfl, ?_, rfl, ?_⟩
  · rw [about_rcmd_ne (by decide +kernel) (by decide +kernel) (by decide)]; rfl
  · cases b
    · right; rfl
    · left; rfl

theorem peopled_call {strict : Bool} {ctx ctx' : Ctx} {t : TEvent} {out : List Cmd} (hp : Peopled ctx)
    (h : callTranslator strict ctx t = .ok (ctx', out)) : Peopled ctx' := by
  by_cases hgo : t.ev.tag = "GO".toList
  · obtain ⟨ctx1, l, hg, _⟩ := call_inv h
    have hh := gen_handler hg (name := "GO") (f := goCommand) (by simp [nameMatch]) hgo
    obtain ⟨a, b, c, rfl, h1, h2, h3, h4⟩ := go_count hh
    have := call_set h hg h1 h2 (.inl h3)
    intro he
    rw [count_iff, this] at he
    rcases h4 with h4 | h4 <;> rw [h4] at he <;> cases he
  · have := (C81_only strict ctx ctx' t out h).1 .record "player_count" (by decide +kernel)
      (not_mayChange ["GO"] (by decide +kernel) (by decide) (by simpa using hgo)) .all
    intro he
    rw [count_iff] at he
    apply hp
    rw [count_iff]
    rw [show ctx.vals.get (ofRecord "player_count") = ctx'.vals.get (ofRecord "player_count") from this.symm]
    exact he

theorem unknown_gen {ctx : Ctx} {e : Event} (h : Unknown e) : generate ctx e = .ok (ctx, []) := by
  have e1 : tileChange DRAW_INDICATOR e = none := by
    have : wholeNumber DRAW_INDICATOR e.tag = none := wholeNumber_none h.2.1
    unfold tileChange; rw [this]; rfl
  have e2 : tileChange DISCARD_INDICATOR e = none := by
    have : wholeNumber DISCARD_INDICATOR e.tag = none := wholeNumber_none h.2.2
    unfold tileChange; rw [this]; rfl
  unfold generate drawCommand discardCommand
  rw [translateNamed_other h.1]
  simp [e1, e2, bind, Except.bind]

theorem handUpdate_nonempty {ev : EventType} {u : Update} {q : Int} {l : List Int} {ctx ctx1 : Ctx} {m : List Cmd}
    (h : handUpdate ev u q l ctx = .ok (ctx1, m)) : m ≠ [] := by
  unfold handUpdate at h
  split at h
  · split at h
    · simp only [bind_ok, pure_ok, Prod.exists, Prod.mk.injEq] at h
      grind
    · cases h
  all_goals
    simp only [bind_ok, pure_ok, Prod.exists, Prod.mk.injEq] at h
    grind

theorem gen_numbered {ctx ctx1 : Ctx} {e : Event} {l : List Cmd} (h : generate ctx e = .ok (ctx1, l))
    (hn : (∃ c n, Numbered "TUVW" e.tag c n) ∨ ∃ c n, Numbered "DEFG" e.tag c n) : l ≠ [] := by
  have hnamed : translateNamed ctx e = .ok (ctx, []) := by
    apply translateNamed_other
    rcases hn with ⟨c, n, hn⟩ | ⟨c, n, hn⟩ <;> exact numbered_not_named hn
  unfold generate at h
  rw [hnamed] at h
  simp only [bind_ok, Prod.exists, Except.ok.injEq, Prod.mk.injEq] at h
  obtain ⟨_, _, ⟨rfl, rfl⟩, h⟩ := h
  simp only [ne_eq, not_true_eq_false, if_false, bind_ok, Prod.exists] at h
  obtain ⟨c2, l2, h2, h⟩ := h
  split at h
  · rename_i hne
    simp only [pure_ok, Prod.mk.injEq] at h
    rw [← h.2]; exact hne
  · rename_i hne
    have hne : l2 = [] := by simpa using hne
    rcases hn with ⟨c, n, hn⟩ | ⟨c, n, hn⟩
    · exfalso
      have hw := (wholeNumber_iff "TUVW" e.tag c n).2 ⟨n, rfl, hn⟩
      unfold drawCommand tileChange at h2
      rw [show wholeNumber DRAW_INDICATOR e.tag = some (c, (n : Int)) from hw] at h2
      exact handUpdate_nonempty h2 hne
    · have hw := (wholeNumber_iff "DEFG" e.tag c n).2 ⟨n, rfl, hn⟩
      unfold discardCommand tileChange at h
      rw [show wholeNumber DISCARD_INDICATOR e.tag = some (c, (n : Int)) from hw] at h
      simp only [Option.map_some, bind_ok] at h
      obtain ⟨_, _, h⟩ := h
      split at h
      · cases h
      · simp only [bind_ok, pure_ok, Prod.exists, Prod.mk.injEq] at h
        obtain ⟨_, _, _, _, rfl⟩ := h
        simp

theorem setOya_nonempty {ctx : Ctx} (hp : Peopled ctx) {oya : Int} {l : List Cmd} (h : setOya ctx oya = .ok l) : l ≠ [] := by
  simp only [setOya, bind_ok, pure_ok] at h
  obtain ⟨n, hn, rfl⟩ := h
  have : n ≠ 0 := by rintro rfl; exact hp hn
  simpa using this

theorem forPlayers_empty {body : Nat → Ctx → CmdGen} {ps : List Nat} {ctx ctx1 : Ctx}
    (hb : ∀ p c c' l, body p c = .ok (c', l) → c' = c) (h : forPlayers body ps ctx = .ok (ctx1, [])) :
    ∀ p ∈ ps, body p ctx = .ok (ctx, []) := by
  induction ps generalizing ctx with
  | nil => simp
  | cons p ps ih =>
    simp only [forPlayers, bind_ok, pure_ok, Prod.exists, Prod.mk.injEq] at h
    obtain ⟨c1, l1, h1, c2, l2, h2, rfl, h3⟩ := h
    obtain ⟨rfl, rfl⟩ := List.append_eq_nil_iff.1 h3
    obtain rfl := hb _ _ _ _ h1
    intro q hq
    rcases List.mem_cons.1 hq with rfl | hq
    · exact h1
    · exact ih h2 q hq

theorem forPlayers_of_empty {body : Nat → Ctx → CmdGen} {ps : List Nat} {ctx : Ctx}
    (h : ∀ p ∈ ps, body p ctx = .ok (ctx, [])) : forPlayers body ps ctx = .ok (ctx, []) := by
  induction ps with
  | nil => rfl
  | cons p ps ih =>
    unfold forPlayers
    rw [h p (by simp)]
    simp only [bind, Except.bind]
    rw [ih (fun q hq => h q (by simp [hq]))]
    rfl

theorem un_empty {ctx ctx1 : Ctx} {e : Event} {l : List Cmd} (ht : e.tag = "UN".toList) (h : unCommand ctx e = .ok (ctx1, l)) :
    l = [] ↔ ∀ p, p < 4 → ¬ Enters p e := by
  simp only [unCommand, bind_ok] at h
  obtain ⟨dan, h1, rate, h2, h3⟩ := h
  constructor
  · rintro rfl p hp ⟨_, name, n1, n2⟩
    have := forPlayers_empty (fun p c c' l hb => (unPlayer_sub p c c' l hb).1) h3 p (List.mem_range.2 hp)
    obtain ⟨_, _, _, _, _, _, _, _, hm⟩ := un_enters this n1 n2
    cases hm
  · intro hno
    have : forPlayers (unPlayer e dan rate (splitOn ',' (getListAttr "sx".toList e))) (List.range 4) ctx = .ok (ctx, []) := by
      apply forPlayers_of_empty
      intro p hp
      unfold unPlayer
      split
      · rfl
      · rename_i name hn
        split
        · rfl
        · rename_i hs
          exact absurd ⟨ht, name, hn, by simpa using hs⟩ (hno p (List.mem_range.1 hp))
    rw [this] at h3
    cases h3
    rfl

/-- an event gives no commands exactly if it is silent, and then changes nothing -/
theorem gen_silent {ctx ctx1 : Ctx} {e : Event} {l : List Cmd} (hp : Peopled ctx) (h : generate ctx e = .ok (ctx1, l)) :
    (l = [] ↔ Silent e) ∧ (l = [] → ctx1 = ctx) := by
  by_cases hu : Unknown e
  · rw [unknown_gen hu] at h
    cases h
    exact ⟨⟨fun _ => .inl hu, fun _ => rfl⟩, fun _ => rfl⟩
  · have nosil : ∀ s ∈ ["INIT", "N", "GO", "TAIKYOKU", "DORA", "AGARI", "SHUFFLE", "BYE", "RYUUKYOKU"],
        e.tag = s.toList → ¬ Silent e := by
      intro s hs ht hsil
      rcases hsil with h | ⟨h, _⟩ | ⟨h, _⟩
      · exact hu h
      all_goals
        have h := ht.symm.trans h
        simp only [List.mem_cons, List.not_mem_nil, or_false] at hs
        rcases hs with rfl | rfl | rfl | rfl | rfl | rfl | rfl | rfl | rfl <;> exact absurd h (by decide)
    by_cases hnamed : ∀ s ∈ ["INIT", "N", "GO", "TAIKYOKU", "UN", "DORA", "REACH", "AGARI", "SHUFFLE", "BYE", "RYUUKYOKU"],
        e.tag ≠ s.toList
    · have hnum : (∃ c n, Numbered "TUVW" e.tag c n) ∨ ∃ c n, Numbered "DEFG" e.tag c n := by
        by_cases h1 : ∃ c n, Numbered "TUVW" e.tag c n
        · exact .inl h1
        · by_cases h2 : ∃ c n, Numbered "DEFG" e.tag c n
          · exact .inr h2
          · exact absurd ⟨hnamed, fun c n hc => h1 ⟨c, n, hc⟩, fun c n hc => h2 ⟨c, n, hc⟩⟩ hu
      have hne := gen_numbered h hnum
      refine ⟨⟨fun h => absurd h hne, ?_⟩, fun h => absurd h hne⟩
      rintro (h | ⟨h, _⟩ | ⟨h, _⟩)
      · exact absurd h hu
      · exact absurd h (hnamed "REACH" (by simp))
      · exact absurd h (hnamed "UN" (by simp))
    · have : ∃ s ∈ ["INIT", "N", "GO", "TAIKYOKU", "UN", "DORA", "REACH", "AGARI", "SHUFFLE", "BYE", "RYUUKYOKU"],
          e.tag = s.toList := by
        apply Classical.byContradiction
        intro hc
        exact hnamed (fun s hs he => hc ⟨s, hs, he⟩)
      obtain ⟨s, hs, ht⟩ := this
      have fin : l ≠ [] → ¬ Silent e → (l = [] ↔ Silent e) ∧ (l = [] → ctx1 = ctx) :=
        fun a b => ⟨⟨fun h => absurd h a, fun h => absurd h b⟩, fun h => absurd h a⟩
      simp only [List.mem_cons, List.not_mem_nil, or_false] at hs
      rcases hs with rfl | rfl | rfl | rfl | rfl | rfl | rfl | rfl | rfl | rfl | rfl
      · have hh := gen_handler h (name := "INIT") (f := initCommand) (by simp [nameMatch]) ht
        refine fin ?_ (nosil _ (by simp) ht)
        simp only [initCommand, bind_ok] at hh
        obtain ⟨_, _, _, _, hh⟩ := hh
        split at hh
        · cases hh
        · simp only [bind_ok, pure_ok, Prod.exists, Prod.mk.injEq] at hh
          grind
      · have hh := gen_handler h (name := "N") (f := openHandCommand) (by simp [nameMatch]) ht
        refine fin ?_ (nosil _ (by simp) ht)
        simp only [openHandCommand, bind_ok, pure_ok, Prod.exists, Prod.mk.injEq] at hh
        grind
      · have hh := gen_handler h (name := "GO") (f := goCommand) (by simp [nameMatch]) ht
        refine fin ?_ (nosil _ (by simp) ht)
        obtain ⟨a, b, c, rfl, _⟩ := go_count hh
        simp
      · have hh := gen_handler h (name := "TAIKYOKU") (f := taikyokuCommand) (by simp [nameMatch]) ht
        refine fin ?_ (nosil _ (by simp) ht)
        simp only [taikyokuCommand, bind_ok, pure_ok, Prod.exists, Prod.mk.injEq] at hh
        obtain ⟨_, _, _, _, _, h1, rfl, rfl⟩ := hh
        exact setOya_nonempty hp h1
      · have hh := gen_handler h (name := "UN") (f := unCommand) (by simp [nameMatch]) ht
        have key := un_empty ht hh
        refine ⟨?_, ?_⟩
        · rw [key]
          constructor
          · intro hx; exact .inr (.inr ⟨ht, hx⟩)
          · rintro (hx | ⟨hx, _⟩ | ⟨_, hx⟩)
            · exact absurd hx hu
            · exact absurd (ht.symm.trans hx) (by decide)
            · exact hx
        · rintro rfl
          simp only [unCommand, bind_ok] at hh
          obtain ⟨dan, _, rate, _, h3⟩ := hh
          have := forPlayers_empty (fun p c c' l hb => (unPlayer_sub p c c' l hb).1) h3
          rw [forPlayers_of_empty this] at h3
          cases h3
          rfl
      · have hh := gen_handler h (name := "DORA") (f := doraCommand) (by simp [nameMatch]) ht
        refine fin ?_ (nosil _ (by simp) ht)
        simp only [doraCommand, bind_ok, pure_ok, Prod.exists, Prod.mk.injEq] at hh
        grind
      · have hh := gen_handler h (name := "REACH") (f := reachCommand) (by simp [nameMatch]) ht
        simp only [reachCommand, bind_ok] at hh
        obtain ⟨_, _, _, _, step, hst, hh⟩ := hh
        have hsil : Silent e ↔ step ≠ "1".toList ∧ step ≠ "2".toList := by
          constructor
          · rintro (hx | ⟨_, h1, h2⟩ | ⟨hx, _⟩)
            · exact absurd hx hu
            · rw [hst] at h1 h2
              exact ⟨fun e => h1 (by rw [e]), fun e => h2 (by rw [e])⟩
            · exact absurd (ht.symm.trans hx) (by decide)
          · rintro ⟨h1, h2⟩
            refine .inr (.inl ⟨ht, ?_, ?_⟩) <;> rw [hst] <;> intro e <;> injection e with e
            · exact h1 e
            · exact h2 e
        rw [hsil]
        split at hh
        · rename_i h1
          simp only [pure_ok, Prod.mk.injEq] at hh
          obtain ⟨rfl, rfl⟩ := hh
          simp [h1]
        · rename_i h1
          split at hh
          · rename_i h2
            simp only [pure_ok, Prod.mk.injEq] at hh
            obtain ⟨rfl, rfl⟩ := hh
            simp [h2]
          · rename_i h2
            simp only [pure_ok, Prod.mk.injEq] at hh
            obtain ⟨rfl, rfl⟩ := hh
            exact ⟨⟨fun _ => ⟨h1, h2⟩, fun _ => rfl⟩, fun _ => rfl⟩
      · have hh := gen_handler h (name := "AGARI") (f := agariCommand) (by simp [nameMatch]) ht
        refine fin ?_ (nosil _ (by simp) ht)
        simp only [agariCommand, bind_ok, pure_ok, Prod.exists, Prod.mk.injEq] at hh
        grind
      · have hh := gen_handler h (name := "SHUFFLE") (f := shuffleCommand) (by simp [nameMatch]) ht
        refine fin ?_ (nosil _ (by simp) ht)
        simp only [shuffleCommand, bind_ok, pure_ok, Prod.exists, Prod.mk.injEq] at hh
        grind
      · have hh := gen_handler h (name := "BYE") (f := byeCommand) (by simp [nameMatch]) ht
        refine fin ?_ (nosil _ (by simp) ht)
        simp only [byeCommand, bind_ok, pure_ok, Prod.exists, Prod.mk.injEq] at hh
        grind
      · have hh := gen_handler h (name := "RYUUKYOKU") (f := ryuukyokuCommand) (by simp [nameMatch]) ht
        refine fin ?_ (nosil _ (by simp) ht)
        simp only [ryuukyokuCommand, bind_ok, pure_ok, Prod.exists, Prod.mk.injEq] at hh
        grind

end Verif.Proofs
