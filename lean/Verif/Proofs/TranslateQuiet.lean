import Verif.Proofs.TranslateMove

namespace Verif.Proofs
open Verif.Py Verif.Model Verif.Spec

/-- the properties that other events write -/
def quietNames : List String :=
  ["is_dealer", "disconnected", "name", "level", "extra_level", "in_richii", "score", "is_win", "is_self_win",
   "is_discard_lose_game", "faans", "final_score", "final_point", "rank"]

/-- a command of another event: about game or record, or one of these properties of a player -/
def QuietCmd (c : Cmd) : Prop :=
  c.sub = Sub.all ∨ ∃ q : Int, ∃ a ∈ quietNames, c.sub = .num q ∧ c.prop = Verif.Model.view .player a

theorem quiet_pcmd (ev : EventType) (q : Int) (a : String) (u : Update) (v : Val) (h : a ∈ quietNames) :
    QuietCmd (pcmd ev q a u v) := .inr ⟨q, a, h, rfl, rfl⟩
theorem quiet_gcmd (ev : EventType) (a : String) (u : Update) (v : Val) : QuietCmd (gcmd ev a u v) := .inl rfl
theorem quiet_rcmd (ev : EventType) (a : String) (u : Update) (v : Val) : QuietCmd (rcmd ev a u v) := .inl rfl

theorem quietNames_sub : ∀ a ∈ quietNames, a ∈ propertyNames .player := by decide +kernel

theorem about_quiet {l : List Cmd} (h : ∀ c ∈ l, QuietCmd c) (p : Nat) {b : String} (hb : b ∈ propertyNames .player)
    (hq : b ∉ quietNames) : about (ofPlayer p b) l = [] := by
  unfold about
  rw [List.filter_eq_nil_iff]
  intro c hc
  simp only [decide_eq_true_eq]
  show ¬ (c.sub, c.prop) = _
  rcases h c hc with h1 | ⟨q, a, ha, h1, h2⟩
  · rw [h1, gkey_ne]; exact not_false
  · rw [h1, h2, pkey_iff (quietNames_sub a ha) hb]
    rintro ⟨_, rfl⟩
    exact hq ha

theorem setOya_quiet {ctx : Ctx} {oya : Int} {l : List Cmd} (h : setOya ctx oya = .ok l) : ∀ c ∈ l, QuietCmd c := by
  simp only [setOya, bind_ok, pure_ok] at h
  obtain ⟨n, _, rfl⟩ := h
  intro c hc
  obtain ⟨p, _, rfl⟩ := List.mem_map.1 hc
  exact quiet_pcmd _ _ _ _ _ (by decide)

theorem forPlayers_quiet {body : Nat → Ctx → CmdGen} (hb : ∀ q c c' l, body q c = .ok (c', l) → c' = c ∧ ∀ x ∈ l, QuietCmd x)
    {ps : List Nat} {ctx ctx' : Ctx} {l : List Cmd} (h : forPlayers body ps ctx = .ok (ctx', l)) :
    ctx' = ctx ∧ ∀ x ∈ l, QuietCmd x := by
  induction ps generalizing ctx l with
  | nil => simp only [forPlayers, Except.ok.injEq, Prod.mk.injEq] at h; rw [← h.1, ← h.2]; simp
  | cons p ps ih =>
    simp only [forPlayers, bind_ok, pure_ok, Prod.exists, Prod.mk.injEq] at h
    obtain ⟨c1, l1, h1, c2, l2, h2, rfl, rfl⟩ := h
    obtain ⟨rfl, e1⟩ := hb _ _ _ _ h1
    obtain ⟨rfl, e2⟩ := ih h2
    refine ⟨rfl, ?_⟩
    intro x hx
    rcases List.mem_append.1 hx with hx | hx
    · exact e1 x hx
    · exact e2 x hx

theorem unPlayer_quiet (e : Event) (dan rate : List Num) (sex : List Str) (q : Nat) (c c' : Ctx) (l : List Cmd)
    (h : unPlayer e dan rate sex q c = .ok (c', l)) : c' = c ∧ ∀ x ∈ l, QuietCmd x := by
  unfold unPlayer at h
  split at h
  · simp only [Except.ok.injEq, Prod.mk.injEq] at h; rw [← h.1, ← h.2]; simp
  · split at h
    · simp only [Except.ok.injEq, Prod.mk.injEq] at h; rw [← h.1, ← h.2]; simp
    · simp only [bind_ok, pure_ok, Prod.mk.injEq] at h
      obtain ⟨level, _, r, _, _, _, levels, hl, rfl, rfl⟩ := h
      refine ⟨rfl, ?_⟩
      intro x hx
      simp only [List.mem_append, List.mem_cons, List.not_mem_nil, or_false] at hx
      rcases hx with ((rfl | rfl) | hx) | hx
      · exact quiet_pcmd _ _ _ _ _ (by decide)
      · exact quiet_pcmd _ _ _ _ _ (by decide)
      · unfold levelCmds at hl
        split at hl
        · simp only [Except.ok.injEq] at hl; rw [← hl] at hx; simp at hx
        · simp only [bind_ok, pure_ok] at hl
          obtain ⟨_, _, _, _, rfl⟩ := hl
          simp only [List.mem_singleton] at hx
          subst hx
          exact quiet_pcmd _ _ _ _ _ (by decide)
      · unfold rateCmds at hx
        split at hx
        · simp at hx
        · simp only [List.mem_singleton] at hx; subst hx; exact quiet_pcmd _ _ _ _ _ (by decide)

theorem mapM_inv {α γ : Type} (f : α → Except PyErr γ) {l : List α} {r : List γ} (h : l.mapM f = .ok r) :
    ∀ y ∈ r, ∃ x ∈ l, f x = .ok y := by
  induction l generalizing r with
  | nil => simp only [List.mapM_nil, pure_ok] at h; rw [← h]; simp
  | cons a l ih =>
    simp only [List.mapM_cons, bind_ok, pure_ok] at h
    obtain ⟨y, h1, ys, h2, rfl⟩ := h
    intro z hz
    rcases List.mem_cons.1 hz with rfl | hz
    · exact ⟨a, by simp, h1⟩
    · obtain ⟨x, hx, e⟩ := ih h2 z hz
      exact ⟨x, by simp [hx], e⟩

theorem finishScores_quiet {sc : Option (List Num)} {p : Nat} {l : List Cmd} (h : finishScores sc p = .ok l) :
    ∀ c ∈ l, QuietCmd c := by
  cases sc with
  | none => simp only [finishScores, Except.ok.injEq] at h; rw [← h]; simp
  | some sc =>
    simp only [finishScores, bind_ok, pure_ok] at h
    obtain ⟨_, _, _, _, rfl⟩ := h
    intro c hc
    simp only [List.mem_cons, List.not_mem_nil, or_false] at hc
    rcases hc with rfl | rfl <;> exact quiet_pcmd _ _ _ _ _ (by decide)

theorem finishFlags_quiet (win : Option (Int × Int)) (yaku : List Str) (p : Nat) :
    ∀ c ∈ finishFlags win yaku p, QuietCmd c := by
  intro c hc
  simp only [finishFlags, List.mem_cons, List.not_mem_nil, or_false] at hc
  rcases hc with rfl | rfl | rfl | rfl <;> exact quiet_pcmd _ _ _ _ _ (by decide)

theorem finishRecord_quiet {finals : List Num} {n p : Nat} {l : List Cmd} (h : finishRecord finals n p = .ok l) :
    ∀ c ∈ l, QuietCmd c := by
  simp only [finishRecord, bind_ok, pure_ok] at h
  obtain ⟨_, _, _, _, _, _, rfl⟩ := h
  intro c hc
  simp only [List.mem_cons, List.not_mem_nil, or_false] at hc
  rcases hc with rfl | rfl | rfl <;> exact quiet_pcmd _ _ _ _ _ (by decide)

theorem gameFinish_quiet {ctx : Ctx} {win : Option (Int × Int)} {sc : Option (List Num)} {yaku : List Str} {e : Event}
    {l : List Cmd} (h : gameFinish ctx win sc yaku e = .ok l) : ∀ c ∈ l, QuietCmd c := by
  simp only [gameFinish, bind_ok, pure_ok] at h
  obtain ⟨n, _, parts, h1, ends, h2, rfl⟩ := h
  intro c hc
  rcases List.mem_append.1 hc with hc | hc
  · obtain ⟨part, hp, hcp⟩ := List.mem_flatten.1 hc
    obtain ⟨p, _, e⟩ := mapM_inv _ h1 part hp
    simp only [bind_ok, pure_ok] at e
    obtain ⟨s, hs, rfl⟩ := e
    rcases List.mem_append.1 hcp with hx | hx
    · exact finishScores_quiet hs c hx
    · exact finishFlags_quiet _ _ _ c hx
  · unfold finishEnds at h2
    split at h2
    · simp only [Except.ok.injEq] at h2; rw [← h2] at hc; simp at hc
    · simp only [bind_ok] at h2
      obtain ⟨finals, _, h3⟩ := h2
      obtain ⟨part, hp, hcp⟩ := List.mem_flatten.1 hc
      obtain ⟨p, _, e⟩ := mapM_inv _ h3 part hp
      exact finishRecord_quiet e c hcp

theorem named_cases (ctx : Ctx) (e : Event) :
    e.tag = "INIT".toList ∨ e.tag = "N".toList ∨ e.tag = "DORA".toList ∨ e.tag = "AGARI".toList ∨
    translateNamed ctx e = .ok (ctx, []) ∨ translateNamed ctx e = goCommand ctx e ∨
    translateNamed ctx e = taikyokuCommand ctx e ∨ translateNamed ctx e = unCommand ctx e ∨
    translateNamed ctx e = reachCommand ctx e ∨ translateNamed ctx e = shuffleCommand ctx e ∨
    translateNamed ctx e = byeCommand ctx e ∨ translateNamed ctx e = ryuukyokuCommand ctx e := by
  unfold translateNamed
  split
  · rename_i h heq
    have hm := List.mem_of_find?_eq_some heq
    have ht := List.find?_some heq
    simp only [decide_eq_true_eq] at ht
    simp only [nameMatch, List.mem_cons, List.not_mem_nil, or_false] at hm
    rcases hm with rfl | rfl | rfl | rfl | rfl | rfl | rfl | rfl | rfl | rfl | rfl <;> simp [← ht]
  · simp

theorem named_quiet {ctx ctx1 : Ctx} {e : Event} {l : List Cmd} (hI : e.tag ≠ "INIT".toList) (hN : e.tag ≠ "N".toList)
    (hD : e.tag ≠ "DORA".toList) (hA : e.tag ≠ "AGARI".toList) (h : translateNamed ctx e = .ok (ctx1, l)) :
    ctx1.vals = ctx.vals ∧ ctx1.right = ctx.right ∧ ∀ c ∈ l, QuietCmd c := by
  rcases named_cases ctx e with x | x | x | x | x | x | x | x | x | x | x | x
  · exact absurd x hI
  · exact absurd x hN
  · exact absurd x hD
  · exact absurd x hA
  · rw [x] at h; cases h; simp
  · rw [x] at h
    simp only [goCommand, bind_ok, pure_ok, Prod.mk.injEq] at h
    obtain ⟨_, _, _, _, _, _, _, _, _, _, _, _, _, _, _, _, _, _, _, _, _, _, _, _, _, _, rfl, rfl⟩ := h
    refine ⟨rfl, rfl, ?_⟩
    intro c hc
    simp only [List.mem_cons, List.not_mem_nil, or_false] at hc
    rcases hc with rfl | rfl | rfl | rfl | rfl | rfl | rfl <;> exact quiet_rcmd _ _ _ _
  · rw [x] at h
    simp only [taikyokuCommand, bind_ok, pure_ok, Prod.mk.injEq] at h
    obtain ⟨_, _, _, _, _, h1, rfl, rfl⟩ := h
    exact ⟨rfl, rfl, setOya_quiet h1⟩
  · rw [x] at h
    simp only [unCommand, bind_ok] at h
    obtain ⟨_, _, _, _, h1⟩ := h
    obtain ⟨rfl, h2⟩ := forPlayers_quiet (unPlayer_quiet e _ _ _) h1
    exact ⟨rfl, rfl, h2⟩
  · rw [x] at h
    simp only [reachCommand, bind_ok] at h
    obtain ⟨_, _, _, _, _, _, h1⟩ := h
    split at h1
    · simp only [pure_ok, Prod.mk.injEq] at h1
      obtain ⟨rfl, rfl⟩ := h1
      refine ⟨rfl, rfl, ?_⟩
      simp only [List.mem_singleton, forall_eq]
      exact quiet_pcmd _ _ _ _ _ (by decide)
    · split at h1
      · simp only [pure_ok, Prod.mk.injEq] at h1
        obtain ⟨rfl, rfl⟩ := h1
        refine ⟨rfl, rfl, ?_⟩
        simp only [List.mem_singleton, forall_eq]
        exact quiet_pcmd _ _ _ _ _ (by decide)
      · simp only [pure_ok, Prod.mk.injEq] at h1
        obtain ⟨rfl, rfl⟩ := h1
        simp
  · rw [x] at h
    simp only [shuffleCommand, bind_ok, pure_ok, Prod.mk.injEq] at h
    obtain ⟨_, _, rfl, rfl⟩ := h
    refine ⟨rfl, rfl, ?_⟩
    simp only [List.mem_singleton, forall_eq]
    exact quiet_rcmd _ _ _ _
  · rw [x] at h
    simp only [byeCommand, bind_ok, pure_ok, Prod.mk.injEq] at h
    obtain ⟨_, _, _, _, rfl, rfl⟩ := h
    refine ⟨rfl, rfl, ?_⟩
    simp only [List.mem_singleton, forall_eq]
    exact quiet_pcmd _ _ _ _ _ (by decide)
  · rw [x] at h
    simp only [ryuukyokuCommand, bind_ok, pure_ok, Prod.mk.injEq] at h
    obtain ⟨_, _, _, _, rest, h1, rfl, rfl⟩ := h
    refine ⟨rfl, rfl, ?_⟩
    intro c hc
    simp only [List.mem_append, List.mem_cons, List.not_mem_nil, or_false] at hc
    rcases hc with (rfl | rfl) | hc
    · exact quiet_gcmd _ _ _ _
    · exact quiet_gcmd _ _ _ _
    · exact gameFinish_quiet h1 c hc

theorem tileChange_quiet {e : Event} (h : Quiet e) (ind : List Char) (hi : ∀ c ∈ ind, c ∈ "TUVWDEFG".toList) :
    tileChange ind e = none := by
  unfold tileChange
  rw [wholeNumber_quiet h ind hi]
  rfl

/-- an event that is no move has the commands of its tag's handler -/
theorem gen_quiet {ctx : Ctx} {e : Event} (h : Quiet e) : generate ctx e = translateNamed ctx e := by
  unfold generate drawCommand discardCommand
  have h1 := tileChange_quiet h DRAW_INDICATOR (by decide)
  have h2 := tileChange_quiet h DISCARD_INDICATOR (by decide)
  rw [h1, h2]
  simp only [bind, Except.bind, pure, Except.pure]
  cases hx : translateNamed ctx e with
  | error x => rfl
  | ok r =>
    obtain ⟨c, l⟩ := r
    by_cases hl : l = []
    · subst hl; rfl
    · simp [hl]

end Verif.Proofs
