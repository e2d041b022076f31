import Verif.Proofs.TranslateMeld

namespace Verif.Proofs
open Verif.Py Verif.Model Verif.Spec

/-! ### Commands about people -/

def personNames : List String := ["is_dealer", "disconnected", "name", "level", "extra_level"]

def PersonCmd (c : Cmd) : Prop :=
  c.sub = Sub.all ∨ ∃ q : Int, ∃ a ∈ personNames, c.sub = .num q ∧ c.prop = Verif.Model.view .player a

theorem person_pcmd (ev : EventType) (q : Int) (a : String) (u : Update) (v : Val) (h : a ∈ personNames) :
    PersonCmd (pcmd ev q a u v) := .inr ⟨q, a, h, rfl, rfl⟩

theorem personNames_sub : ∀ a ∈ personNames, a ∈ propertyNames .player := by decide +kernel

theorem about_person {l : List Cmd} (h : ∀ c ∈ l, PersonCmd c) (p : Nat) {b : String} (hb : b ∈ propertyNames .player)
    (hq : b ∉ personNames) : about (ofPlayer p b) l = [] := by
  unfold about
  rw [List.filter_eq_nil_iff]
  intro c hc
  simp only [decide_eq_true_eq]
  show ¬ (c.sub, c.prop) = _
  rcases h c hc with hs | ⟨q, a, ha, hs, hv⟩
  · rw [hs, gkey_ne]; exact not_false
  · rw [hs, hv, pkey_iff (personNames_sub a ha) hb]
    rintro ⟨_, rfl⟩
    exact hq ha

theorem setOya_person {ctx : Ctx} {oya : Int} {l : List Cmd} (h : setOya ctx oya = .ok l) : ∀ c ∈ l, PersonCmd c := by
  simp only [setOya, bind_ok, pure_ok] at h
  obtain ⟨n, _, rfl⟩ := h
  intro c hc
  obtain ⟨p, _, rfl⟩ := List.mem_map.1 hc
  exact person_pcmd _ _ _ _ _ (by decide)

theorem forPlayers_person {body : Nat → Ctx → CmdGen} (hb : ∀ q c c' l, body q c = .ok (c', l) → ∀ x ∈ l, PersonCmd x)
    {ps : List Nat} {ctx ctx' : Ctx} {l : List Cmd} (h : forPlayers body ps ctx = .ok (ctx', l)) :
    ∀ x ∈ l, PersonCmd x := by
  induction ps generalizing ctx l with
  | nil => simp only [forPlayers, Except.ok.injEq, Prod.mk.injEq] at h; rw [← h.2]; simp
  | cons p ps ih =>
    simp only [forPlayers, bind_ok, pure_ok, Prod.exists, Prod.mk.injEq] at h
    obtain ⟨c1, l1, h1, c2, l2, h2, rfl, rfl⟩ := h
    have e1 := hb _ _ _ _ h1
    have e2 := ih h2
    intro x hx
    rcases List.mem_append.1 hx with hx | hx
    · exact e1 x hx
    · exact e2 x hx

theorem unPlayer_person (e : Event) (dan rate : List Num) (sex : List Str) (q : Nat) (c c' : Ctx) (l : List Cmd)
    (h : unPlayer e dan rate sex q c = .ok (c', l)) : ∀ x ∈ l, PersonCmd x := by
  unfold unPlayer at h
  split at h
  · simp only [Except.ok.injEq, Prod.mk.injEq] at h; rw [← h.2]; simp
  · split at h
    · simp only [Except.ok.injEq, Prod.mk.injEq] at h; rw [← h.2]; simp
    · simp only [bind_ok, pure_ok, Prod.mk.injEq] at h
      obtain ⟨level, _, r, _, _, _, levels, hl, rfl, rfl⟩ := h
      intro x hx
      simp only [List.mem_append, List.mem_cons, List.not_mem_nil, or_false] at hx
      rcases hx with ((rfl | rfl) | hx) | hx
      · exact person_pcmd _ _ _ _ _ (by decide)
      · exact person_pcmd _ _ _ _ _ (by decide)
      · unfold levelCmds at hl
        split at hl
        · simp only [Except.ok.injEq] at hl; rw [← hl] at hx; simp at hx
        · simp only [bind_ok, pure_ok] at hl
          obtain ⟨_, _, _, _, rfl⟩ := hl
          simp only [List.mem_singleton] at hx
          subst hx
          exact person_pcmd _ _ _ _ _ (by decide)
      · unfold rateCmds at hx
        split at hx
        · simp at hx
        · simp only [List.mem_singleton] at hx; subst hx; exact person_pcmd _ _ _ _ _ (by decide)

theorem named_cases2 (ctx : Ctx) (e : Event) :
    e.tag = "INIT".toList ∨ e.tag = "N".toList ∨ e.tag = "DORA".toList ∨ e.tag = "AGARI".toList ∨
    e.tag = "REACH".toList ∨ e.tag = "RYUUKYOKU".toList ∨
    translateNamed ctx e = .ok (ctx, []) ∨ translateNamed ctx e = goCommand ctx e ∨
    translateNamed ctx e = taikyokuCommand ctx e ∨ translateNamed ctx e = unCommand ctx e ∨
    translateNamed ctx e = shuffleCommand ctx e ∨
    translateNamed ctx e = byeCommand ctx e := by
  unfold translateNamed
  split
  · rename_i h heq
    have hm := List.mem_of_find?_eq_some heq
    have ht := List.find?_some heq
    simp only [decide_eq_true_eq] at ht
    simp only [nameMatch, List.mem_cons, List.not_mem_nil, or_false] at hm
    rcases hm with rfl | rfl | rfl | rfl | rfl | rfl | rfl | rfl | rfl | rfl | rfl <;> simp [← ht]
  · simp

theorem named_person {ctx ctx1 : Ctx} {e : Event} {l : List Cmd} (hI : e.tag ≠ "INIT".toList) (hN : e.tag ≠ "N".toList)
    (hD : e.tag ≠ "DORA".toList) (hA : e.tag ≠ "AGARI".toList) (hR : e.tag ≠ "REACH".toList)
    (hY : e.tag ≠ "RYUUKYOKU".toList) (h : translateNamed ctx e = .ok (ctx1, l)) : ∀ c ∈ l, PersonCmd c := by
  rcases named_cases2 ctx e with x | x | x | x | x | x | x | x | x | x | x | x
  · exact absurd x hI
  · exact absurd x hN
  · exact absurd x hD
  · exact absurd x hA
  · exact absurd x hR
  · exact absurd x hY
  · rw [x] at h; cases h; simp
  · rw [x] at h
    simp only [goCommand, bind_ok, pure_ok, Prod.mk.injEq] at h
    obtain ⟨_, _, _, _, _, _, _, _, _, _, _, _, _, _, _, _, _, _, _, _, _, _, _, _, _, _, rfl, rfl⟩ := h
    intro c hc
    simp only [List.mem_cons, List.not_mem_nil, or_false] at hc
    rcases hc with rfl | rfl | rfl | rfl | rfl | rfl | rfl <;> exact .inl rfl
  · rw [x] at h
    simp only [taikyokuCommand, bind_ok, pure_ok, Prod.mk.injEq] at h
    obtain ⟨_, _, _, _, _, h1, rfl, rfl⟩ := h
    exact setOya_person h1
  · rw [x] at h
    simp only [unCommand, bind_ok] at h
    obtain ⟨_, _, _, _, h1⟩ := h
    exact forPlayers_person (unPlayer_person e _ _ _) h1
  · rw [x] at h
    simp only [shuffleCommand, bind_ok, pure_ok, Prod.mk.injEq] at h
    obtain ⟨_, _, rfl, rfl⟩ := h
    simp only [List.mem_singleton, forall_eq]
    exact .inl rfl
  · rw [x] at h
    simp only [byeCommand, bind_ok, pure_ok, Prod.mk.injEq] at h
    obtain ⟨_, _, _, _, rfl, rfl⟩ := h
    simp only [List.mem_singleton, forall_eq]
    exact person_pcmd _ _ _ _ _ (by decide)

/-! ### The end of a game -/

def endNames : List String := ["score", "is_win", "is_self_win", "is_discard_lose_game", "faans"]

theorem endNames_sub : ∀ a ∈ endNames, a ∈ propertyNames .player := by decide +kernel

theorem parts_sub {sc : Option (List Num)} {win : Option (Int × Int)} {yaku : List Str} {p : Nat} {s : List Cmd}
    (h : finishScores sc p = .ok s) : ∀ c ∈ s ++ finishFlags win yaku p, c.sub = .num (p : Int) := by
  intro c hc
  rcases List.mem_append.1 hc with hc | hc
  · cases sc with
    | none => simp only [finishScores, Except.ok.injEq] at h; rw [← h] at hc; simp at hc
    | some sc =>
      simp only [finishScores, bind_ok, pure_ok] at h
      obtain ⟨_, _, _, _, rfl⟩ := h
      simp only [List.mem_cons, List.not_mem_nil, or_false] at hc
      rcases hc with rfl | rfl <;> rfl
  · simp only [finishFlags, List.mem_cons, List.not_mem_nil, or_false] at hc
    rcases hc with rfl | rfl | rfl | rfl <;> rfl

theorem about_parts {sc : Option (List Num)} {win : Option (Int × Int)} {yaku : List Str} {ps : List Nat}
    (hnd : ps.Nodup) {parts : List (List Cmd)}
    (h : ps.mapM (fun p => do
      let s ← finishScores sc p
      pure (s ++ finishFlags win yaku p)) = .ok parts) (p : Nat) (b : String) :
    (p ∉ ps → about (ofPlayer p b) parts.flatten = []) ∧
    (p ∈ ps → ∃ s, finishScores sc p = .ok s ∧
      about (ofPlayer p b) parts.flatten = about (ofPlayer p b) (s ++ finishFlags win yaku p)) := by
  induction ps generalizing parts with
  | nil => simp only [List.mapM_nil, pure_ok] at h; rw [← h]; simp [about]
  | cons q ps ih =>
    rw [List.mapM_cons] at h
    simp only [bind_ok, pure_ok] at h
    obtain ⟨_, ⟨s, hs, rfl⟩, rest, hr, rfl⟩ := h
    have hnd' := List.nodup_cons.1 hnd
    obtain ⟨i1, i2⟩ := ih hnd'.2 hr
    rw [List.flatten_cons, about_append]
    constructor
    · intro hp
      have hqp : q ≠ p := fun x => hp (x ▸ List.mem_cons_self)
      rw [about_other_sub (parts_sub hs) hqp, i1 (fun x => hp (List.mem_cons_of_mem _ x))]
      rfl
    · intro hp
      by_cases hqp : q = p
      · subst hqp
        exact ⟨s, hs, by rw [i1 hnd'.1, List.append_nil]⟩
      · have hp' : p ∈ ps := by simpa [Ne.symm hqp] using hp
        obtain ⟨s', e1, e2⟩ := i2 hp'
        exact ⟨s', e1, by rw [about_other_sub (parts_sub hs) hqp, e2]; rfl⟩

theorem about_ends {e : Event} {n : Nat} {ends : List (List Cmd)} (h : finishEnds e n = .ok ends) (p : Nat) {b : String}
    (hb : b ∈ endNames) : about (ofPlayer p b) ends.flatten = [] := by
  unfold about
  rw [List.filter_eq_nil_iff]
  intro c hc
  obtain ⟨part, hp, hcp⟩ := List.mem_flatten.1 hc
  unfold finishEnds at h
  split at h
  · simp only [Except.ok.injEq] at h; rw [← h] at hc; simp at hc
  · simp only [bind_ok] at h
    obtain ⟨finals, _, h3⟩ := h
    obtain ⟨q, _, e⟩ := mapM_inv _ h3 part hp
    simp only [finishRecord, bind_ok, pure_ok] at e
    obtain ⟨_, _, _, _, _, _, rfl⟩ := e
    simp only [List.mem_cons, List.not_mem_nil, or_false] at hcp
    have hb' := endNames_sub b hb
    have hne : b ≠ "final_score" ∧ b ≠ "final_point" ∧ b ≠ "rank" :=
      (show ∀ b ∈ endNames, b ≠ "final_score" ∧ b ≠ "final_point" ∧ b ≠ "rank" by decide) b hb
    simp only [decide_eq_true_eq]
    rcases hcp with rfl | rfl | rfl <;> rw [keyOf_pcmd, pkey_iff (by decide +kernel) hb'] <;> rintro ⟨_, rfl⟩
    · exact hne.1 rfl
    · exact hne.2.1 rfl
    · exact hne.2.2 rfl

theorem about_finish {ctx : Ctx} {win : Option (Int × Int)} {sc : Option (List Num)} {yaku : List Str} {e : Event}
    {l : List Cmd} (h : gameFinish ctx win sc yaku e = .ok l) {n : Nat} (hn : ctx.playerCount = .ok n) {p : Nat}
    (hp : p < n) {b : String} (hb : b ∈ endNames) :
    ∃ s, finishScores sc p = .ok s ∧ about (ofPlayer p b) l = about (ofPlayer p b) (s ++ finishFlags win yaku p) := by
  simp only [gameFinish, bind_ok, pure_ok] at h
  obtain ⟨n', e1, parts, h1, ends, h2, rfl⟩ := h
  rw [hn] at e1
  cases e1
  obtain ⟨s, e2, e3⟩ := (about_parts List.nodup_range h1 p b).2 (List.mem_range.2 hp)
  exact ⟨s, e2, by rw [about_append, about_ends h2 p hb, List.append_nil, e3]⟩

/-- the values of the four outcome flags of `p` after a game end with these commands -/
theorem finish_values {ctx : Ctx} {win : Option (Int × Int)} {sc : Option (List Num)} {yaku : List Str} {e : Event}
    {l : List Cmd} (h : gameFinish ctx win sc yaku e = .ok l) {n : Nat} (hn : ctx.playerCount = .ok n) {p : Nat}
    (hp : p < n) (old : Val) :
    applyAll old (about (ofPlayer p "is_win") l) =
      .ok (.bool (match win with | some (w, _) => decide (w = p) | none => false)) ∧
    applyAll old (about (ofPlayer p "is_self_win") l) =
      .ok (.bool (match win with | some (w, f) => decide (w = f) | none => false)) ∧
    applyAll old (about (ofPlayer p "is_discard_lose_game") l) =
      .ok (.bool (match win with | some (w, f) => decide (w ≠ f ∧ (p : Int) = f) | none => false)) ∧
    applyAll old (about (ofPlayer p "faans") l) =
      .ok (match win with
        | some (w, f) => if w = f ∨ (p : Int) = f ∨ w = p then strs yaku else .list []
        | none => .list []) ∧
    applyAll old (about (ofPlayer p "score") l) = (match sc with
      | none => .ok old
      | some l => do
        let a ← pyIdx (everyOther l) p
        let d ← pyIdx (everyOther l.tail) p
        (Val.num (a.times 100)).add (.num (d.times 100))) := by
  have key : ∀ b ∈ endNames, ∃ s, finishScores sc p = .ok s ∧
      about (ofPlayer p b) l = about (ofPlayer p b) s ++ about (ofPlayer p b) (finishFlags win yaku p) := by
    intro b hb
    obtain ⟨s, a1, a2⟩ := about_finish h hn hp hb
    exact ⟨s, a1, by rw [a2, about_append]⟩
  have sc0 : ∀ b ∈ endNames, b ≠ "score" → ∀ s, finishScores sc p = .ok s → about (ofPlayer p b) s = [] := by
    intro b hb hne s hs
    cases sc with
    | none => simp only [finishScores, Except.ok.injEq] at hs; rw [← hs]; rfl
    | some sc =>
      simp only [finishScores, bind_ok, pure_ok] at hs
      obtain ⟨_, _, _, _, rfl⟩ := hs
      rw [about_pcmd_ne (by decide +kernel) (endNames_sub b hb) (Ne.symm hne),
        about_pcmd_ne (by decide +kernel) (endNames_sub b hb) (Ne.symm hne), about_nil]
  have fl : ∀ b ∈ endNames, b ≠ "score" → about (ofPlayer p b) l = about (ofPlayer p b) (finishFlags win yaku p) := by
    intro b hb hne
    obtain ⟨s, a1, a2⟩ := key b hb
    rw [a2, sc0 b hb hne s a1, List.nil_append]
  rw [fl "is_win" (by decide) (by decide), fl "is_self_win" (by decide) (by decide),
    fl "is_discard_lose_game" (by decide) (by decide), fl "faans" (by decide) (by decide)]
  simp only [finishFlags]
  have ne : ∀ {a b : String}, a ∈ endNames → b ∈ endNames → a ≠ b → ∀ ev q u v l,
      about (ofPlayer p b) (pcmd ev q a u v :: l) = about (ofPlayer p b) l :=
    fun ha hb hne _ _ _ _ _ => about_pcmd_ne (endNames_sub _ ha) (endNames_sub _ hb) hne ..
  refine ⟨?_, ?_, ?_, ?_, ?_⟩
  · rw [about_pcmd_self, ne (by decide) (by decide) (by decide), ne (by decide) (by decide) (by decide),
      ne (by decide) (by decide) (by decide), about_nil, apply_one, new_replace]
    cases win <;> rfl
  · rw [ne (by decide) (by decide) (by decide), about_pcmd_self, ne (by decide) (by decide) (by decide),
      ne (by decide) (by decide) (by decide), about_nil, apply_one, new_replace]
    cases win <;> rfl
  · rw [ne (by decide) (by decide) (by decide), ne (by decide) (by decide) (by decide), about_pcmd_self, 
      ne (by decide) (by decide) (by decide), about_nil, apply_one, new_replace]
    cases win with
    | none => rfl
    | some w => obtain ⟨w, f⟩ := w; simp
  · rw [ne (by decide) (by decide) (by decide), ne (by decide) (by decide) (by decide), 
      ne (by decide) (by decide) (by decide), about_pcmd_self, about_nil, apply_one, new_replace]
    cases win with
    | none => rfl
    | some w =>
      obtain ⟨w, f⟩ := w
      simp only [Bool.or_eq_true, Bool.and_eq_true, Bool.not_eq_true', decide_eq_true_eq, decide_eq_false_iff_not]
      congr 1
      by_cases h1 : w = f
      · simp [h1]
      · simp [h1]
  · obtain ⟨s, a1, a2⟩ := key "score" (by decide)
    have : about (ofPlayer p "score") (finishFlags win yaku p) = [] := by
      simp only [finishFlags]
      rw [ne (by decide) (by decide) (by decide), ne (by decide) (by decide) (by decide),
        ne (by decide) (by decide) (by decide), ne (by decide) (by decide) (by decide), about_nil]
    rw [a2, this, List.append_nil]
    cases sc with
    | none => simp only [finishScores, Except.ok.injEq] at a1; rw [← a1]; rfl
    | some sc =>
      simp only [finishScores, bind_ok, pure_ok] at a1
      obtain ⟨a, ha, d, hd, rfl⟩ := a1
      rw [about_pcmd_self, about_pcmd_self, about_nil]
      simp only [ha, hd, applyAll, new_assert, bind, Except.bind]
      rw [new_add (k := .score) (by decide)]
      cases (Val.num (a.times 100)).add (.num (d.times 100)) <;> rfl

end Verif.Proofs
