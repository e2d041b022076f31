import Verif.Proofs.Effects
import Verif.Proofs.Tags

namespace Verif.Proofs
open Verif.Py Verif.Model Verif.Spec

theorem translateNamed_other {ctx : Ctx} {e : Event}
    (h : ∀ s ∈ ["INIT", "N", "GO", "TAIKYOKU", "UN", "DORA", "REACH", "AGARI", "SHUFFLE", "BYE", "RYUUKYOKU"],
      e.tag ≠ s.toList) : translateNamed ctx e = .ok (ctx, []) := by
  unfold translateNamed
  rw [show nameMatch.find? (fun x => decide (x.1.toList = e.tag)) = none from ?_]
  rw [List.find?_eq_none]
  intro x hx
  simp only [decide_eq_true_eq]
  intro ex
  refine h x.1 ?_ ex.symm
  simp only [nameMatch, List.mem_cons, List.not_mem_nil, or_false] at hx
  rcases hx with rfl | rfl | rfl | rfl | rfl | rfl | rfl | rfl | rfl | rfl | rfl <;> simp

theorem effects_none {c : Char} {t : Str} {n : Nat} {letters : String} (h : Numbered letters (c :: t) c n) :
    namedEffects.find? (fun x => decide (x.1.toList = c :: t)) = none := by
  rw [List.find?_eq_none]
  intro x hx
  simp only [decide_eq_true_eq]
  intro e
  have := numbered_not_named h x.1
  refine this ?_ e.symm
  simp only [namedEffects, List.mem_cons, List.not_mem_nil, or_false] at hx
  rcases hx with rfl | rfl | rfl | rfl | rfl | rfl | rfl | rfl | rfl | rfl | rfl <;> simp

theorem mayChange_numbered {letters : String} {tag : Str} {c : Char} {n : Nat} (h : Numbered letters tag c n) :
    mayChange tag = if c ∈ "TUVW".toList then [(.player, "hand")]
      else if c ∈ "DEFG".toList then
        [(.player, "hand"), (.player, "round"), (.player, "discard_from_hand"), (.player, "discard_tiles")]
      else [] := by
  obtain ⟨d, r, rfl, _⟩ := numbered_second h
  unfold mayChange
  rw [effects_none h]

theorem tileChange_numbered {letters : String} {e : Event} {tile player : Int}
    (h : tileChange letters.toList e = some (tile, player)) :
    ∃ (n : Nat) (c : Char), Numbered letters e.tag c n ∧ tile = n ∧ player = (letters.toList.idxOf c : Int) := by
  unfold tileChange at h
  rw [Option.map_eq_some_iff] at h
  obtain ⟨⟨c, m⟩, h1, h2⟩ := h
  obtain ⟨k, rfl, hk⟩ := (wholeNumber_iff letters e.tag c m).1 h1
  simp only [Prod.mk.injEq] at h2
  exact ⟨k, c, hk, h2.1.symm, h2.2.symm⟩

theorem draw_within {ctx ctx1 : Ctx} {e : Event} {l : List Cmd} (h : drawCommand ctx e = .ok (ctx1, l)) :
    Within (mayChange e.tag) l := by
  unfold drawCommand at h
  split at h
  · cases h; exact within_nil _
  · rename_i tile player ht
    obtain ⟨n, c, hn, rfl, rfl⟩ := tileChange_numbered (letters := "TUVW") ht
    rw [mayChange_numbered hn, if_pos hn.1]
    exact handUpdate_within (by simp) (fun x => by cases x) h

theorem discard_within {ctx ctx1 : Ctx} {e : Event} {l : List Cmd} (h : discardCommand ctx e = .ok (ctx1, l)) :
    Within (mayChange e.tag) l := by
  unfold discardCommand at h
  split at h
  · cases h; exact within_nil _
  · rename_i tile player ht
    obtain ⟨n, c, hn, rfl, rfl⟩ := tileChange_numbered (letters := "DEFG") ht
    have hc : c ∉ "TUVW".toList := by
      have := hn.1
      simp at this
      rcases this with rfl | rfl | rfl | rfl <;> decide
    rw [mayChange_numbered hn, if_neg hc, if_pos hn.1]
    simp only [bind_ok] at h
    obtain ⟨names, _, h⟩ := h
    split at h
    · cases h
    · simp only [bind_ok, pure_ok, Prod.exists, Prod.mk.injEq] at h
      obtain ⟨c', hand, hh, rfl, rfl⟩ := h
      refine within_append.2 ⟨within_append.2 ⟨?_, handUpdate_within (by simp) (fun x => by cases x) hh⟩, ?_⟩
      · simp only [within_cons]
        exact ⟨within_pcmd (by simp) _ _ _ _, within_pcmd (by simp) _ _ _ _, within_nil _⟩
      · exact within_cons.2 ⟨within_pcmd (by simp) _ _ _ _, within_nil _⟩

theorem generate_within {ctx ctx1 : Ctx} {e : Event} {l : List Cmd} (h : generate ctx e = .ok (ctx1, l)) :
    Within (mayChange e.tag) l := by
  unfold generate at h
  simp only [bind_ok, Prod.exists] at h
  obtain ⟨a, b, h1, h⟩ := h
  split at h
  · simp only [pure_ok, Prod.mk.injEq] at h; rw [← h.2]; exact named_within h1
  · simp only [bind_ok, Prod.exists] at h
    obtain ⟨c, d, h2, h⟩ := h
    split at h
    · simp only [pure_ok, Prod.mk.injEq] at h; rw [← h.2]; exact draw_within h2
    · exact discard_within h

theorem mayChange_names (tag : Str) : ∀ x ∈ mayChange tag, x.2 ∈ propertyNames x.1 := by
  unfold mayChange
  split
  · rename_i y hy
    have := List.mem_of_find?_eq_some hy
    have table : ∀ y ∈ namedEffects, ∀ x ∈ y.2, x.2 ∈ propertyNames x.1 := by decide +kernel
    exact table y this
  · split
    · simp
    · split
      · decide
      · split
        · decide
        · simp

/-- the commands handed out are the generated ones with state and time filled in -/
theorem postprocess_keys {ts : Option Int} {s s' : IState} {l out : List Cmd} (h : postprocess ts s l = .ok (s', out)) :
    out.map keyOf = l.map keyOf := by
  induction l generalizing s out with
  | nil => simp only [postprocess, Except.ok.injEq, Prod.mk.injEq] at h; rw [← h.2]
  | cons c cs ih =>
    simp only [postprocess, bind_ok, pure_ok, Prod.exists, Prod.mk.injEq] at h
    obtain ⟨v, s1, _, s2, l', h2, rfl, rfl⟩ := h
    simp [ih h2, keyOf]

/-! ### Whose properties -/

theorem numbered_unique {letters : String} {tag : Str} {c c' : Char} {n n' : Nat} (h : Numbered letters tag c n)
    {letters' : String} (h' : Numbered letters' tag c' n') : c = c' := by
  obtain ⟨_, _, e, _⟩ := numbered_second h
  obtain ⟨_, _, e', _⟩ := numbered_second h'
  rw [e] at e'
  exact (List.cons.inj e').1

theorem handUpdate_subs {ev : EventType} {u : Update} {q : Int} {l : List Int} {ctx ctx1 : Ctx}
    {cs : List Cmd} (h : handUpdate ev u q l ctx = .ok (ctx1, cs)) : ∀ c ∈ cs, c.sub = .num q := by
  unfold handUpdate at h
  cases u with
  | add =>
    match l, h with
    | [], h => cases h
    | [x], h =>
      simp only [bind_ok, pure_ok, Prod.exists, Prod.mk.injEq] at h
      obtain ⟨_, _, ⟨rfl, rfl⟩, _, _, _, rfl⟩ := h
      simp [pcmd]
    | _ :: _ :: _, h => cases h
  | replace =>
    simp only [bind_ok, pure_ok, Prod.exists, Prod.mk.injEq] at h
    obtain ⟨_, _, ⟨rfl, rfl⟩, _, _, _, rfl⟩ := h
    simp [pcmd]
  | _ =>
    simp only [bind_ok, pure_ok, Prod.exists, Prod.mk.injEq] at h
    obtain ⟨_, _, ⟨rfl, rfl⟩, _, _, _, rfl⟩ := h
    simp [pcmd]

theorem letter_index_draw : ∀ q : Fin 4, "TUVW".toList.idxOf ("TUVW".toList.getD q.val ' ') = q.val := by decide
theorem letter_index_discard : ∀ q : Fin 4, "DEFG".toList.idxOf ("DEFG".toList.getD q.val ' ') = q.val := by decide
theorem letter_apart_discard : ∀ q : Fin 4, "DEFG".toList.getD q.val ' ' ∉ "TUVW".toList := by decide
theorem letter_apart_draw : ∀ q : Fin 4, "TUVW".toList.getD q.val ' ' ∉ "DEFG".toList := by decide

theorem draw_subs {ctx ctx1 : Ctx} {e : Event} {l : List Cmd} (h : drawCommand ctx e = .ok (ctx1, l)) {q : Fin 4} {n : Nat}
    {letters : String} (hq : Numbered letters e.tag (letters.toList.getD q.val ' ') n)
    (hl : letters = "TUVW" ∨ letters = "DEFG") : ∀ c ∈ l, c.sub = .num (q.val : Int) := by
  unfold drawCommand at h
  split at h
  · cases h; simp
  · rename_i tile player ht
    obtain ⟨k, c, hn, rfl, rfl⟩ := tileChange_numbered (letters := "TUVW") ht
    have := numbered_unique hn hq
    rw [this] at h hn
    have hc := hn.1
    rcases hl with rfl | rfl
    · have := letter_index_draw q
      rw [this] at h
      exact handUpdate_subs h
    · exact absurd hc (letter_apart_discard q)

theorem discard_subs {ctx ctx1 : Ctx} {e : Event} {l : List Cmd} (h : discardCommand ctx e = .ok (ctx1, l)) {q : Fin 4} {n : Nat}
    {letters : String} (hq : Numbered letters e.tag (letters.toList.getD q.val ' ') n)
    (hl : letters = "TUVW" ∨ letters = "DEFG") : ∀ c ∈ l, c.sub = .num (q.val : Int) := by
  unfold discardCommand at h
  split at h
  · cases h; simp
  · rename_i tile player ht
    obtain ⟨k, c, hn, rfl, rfl⟩ := tileChange_numbered (letters := "DEFG") ht
    have := numbered_unique hn hq
    rw [this] at h hn
    have hc := hn.1
    rcases hl with rfl | rfl
    · exact absurd hc (letter_apart_draw q)
    · have := letter_index_discard q
      rw [this] at h
      simp only [bind_ok] at h
      obtain ⟨names, _, h⟩ := h
      split at h
      · cases h
      · simp only [bind_ok, pure_ok, Prod.exists, Prod.mk.injEq] at h
        obtain ⟨c', hand, hh, rfl, rfl⟩ := h
        have := handUpdate_subs hh
        intro c hc
        simp only [List.cons_append, List.nil_append, List.mem_cons, List.mem_append, List.not_mem_nil, or_false] at hc
        rcases hc with rfl | rfl | hc | rfl
        · rfl
        · rfl
        · exact this c hc
        · rfl

theorem named_subs {ctx ctx1 : Ctx} {e : Event} {l : List Cmd} (h : translateNamed ctx e = .ok (ctx1, l)) {q : Int}
    (ht : e.tag = "N".toList ∨ e.tag = "REACH".toList ∨ e.tag = "BYE".toList)
    {w : Str} (hw : e.get "who".toList = .ok w) (hq : pyInt w = .ok q) : ∀ c ∈ l, c.sub = .num q := by
  rcases ht with ht | ht | ht
  · have h' : openHandCommand ctx e = .ok (ctx1, l) := by rw [← h]; unfold translateNamed; rw [ht]; rfl
    simp only [openHandCommand, bind_ok, pure_ok, Prod.exists, Prod.mk.injEq] at h'
    obtain ⟨m, _, w', hw', q', hq', _, _, _, _, c, l, hh, rfl, rfl⟩ := h'
    rw [hw] at hw'
    cases hw'
    rw [hq] at hq'
    cases hq'
    have := handUpdate_subs hh
    intro c hc
    simp only [List.cons_append, List.nil_append, List.mem_cons] at hc
    rcases hc with rfl | rfl | hc
    · rfl
    · split <;> rfl
    · exact this c hc
  · have h' : reachCommand ctx e = .ok (ctx1, l) := by rw [← h]; unfold translateNamed; rw [ht]; rfl
    simp only [reachCommand, bind_ok] at h'
    obtain ⟨w', hw', q', hq', _, _, h1⟩ := h'
    rw [hw] at hw'
    cases hw'
    rw [hq] at hq'
    cases hq'
    split at h1
    · simp only [pure_ok, Prod.mk.injEq] at h1
      rw [← h1.2]; simp [pcmd]
    · split at h1
      · simp only [pure_ok, Prod.mk.injEq] at h1
        rw [← h1.2]; simp [pcmd]
      · simp only [pure_ok, Prod.mk.injEq] at h1
        rw [← h1.2]; simp
  · have h' : byeCommand ctx e = .ok (ctx1, l) := by rw [← h]; unfold translateNamed; rw [ht]; rfl
    simp only [byeCommand, bind_ok, pure_ok, Prod.mk.injEq] at h'
    obtain ⟨w', hw', q', hq', rfl, rfl⟩ := h'
    rw [hw] at hw'
    cases hw'
    rw [hq] at hq'
    cases hq'
    simp [pcmd]

theorem generate_subs {ctx ctx1 : Ctx} {e : Event} {l : List Cmd} (h : generate ctx e = .ok (ctx1, l)) {q : Fin 4}
    (hq : MoveOf q e) : ∀ c ∈ l, c.sub = .num (q.val : Int) := by
  unfold generate at h
  simp only [bind_ok, Prod.exists] at h
  obtain ⟨a, b, h1, h⟩ := h
  have hd : ∀ {letters : String} {n : Nat}, (letters = "TUVW" ∨ letters = "DEFG") →
      Numbered letters e.tag (letters.toList.getD q.val ' ') n → ∀ c ∈ l, c.sub = .num (q.val : Int) := by
    intro letters n hl hn
    split at h
    · rename_i hb
      have : translateNamed ctx e = .ok (ctx, []) := translateNamed_other (numbered_not_named hn)
      rw [this] at h1
      cases h1
      exact (hb rfl).elim
    · simp only [bind_ok, Prod.exists] at h
      obtain ⟨c, d, h2, h⟩ := h
      split at h
      · simp only [pure_ok, Prod.mk.injEq] at h; rw [← h.2]; exact draw_subs h2 hn hl
      · exact discard_subs h hn hl
  rcases hq with ⟨n, hn⟩ | ⟨n, hn⟩ | ⟨ht, w, hw, hq⟩
  · exact hd (.inl rfl) hn
  · exact hd (.inr rfl) hn
  · split at h
    · simp only [pure_ok, Prod.mk.injEq] at h; rw [← h.2]; exact named_subs h1 ht hw hq
    · simp only [bind_ok, Prod.exists] at h
      obtain ⟨c, d, h2, h⟩ := h
      have no : ∀ letters c n, ¬ Numbered letters e.tag c n := by
        intro letters c n hn
        have := numbered_not_named hn
        rcases ht with ht | ht | ht
        · exact this "N" (by simp) ht
        · exact this "REACH" (by simp) ht
        · exact this "BYE" (by simp) ht
      have e1 : tileChange DRAW_INDICATOR e = none := by
        have : wholeNumber DRAW_INDICATOR e.tag = none := wholeNumber_none (no "TUVW")
        unfold tileChange; rw [this]; rfl
      have e2 : tileChange DISCARD_INDICATOR e = none := by
        have : wholeNumber DISCARD_INDICATOR e.tag = none := wholeNumber_none (no "DEFG")
        unfold tileChange; rw [this]; rfl
      unfold drawCommand at h2
      rw [e1] at h2
      cases h2
      unfold discardCommand at h
      rw [e2] at h
      split at h
      · rename_i hx; exact (hx rfl).elim
      · cases h; simp

theorem about_sub {k : Sub × View} {l : List Cmd} (h : ∀ c ∈ l, c.sub ≠ k.1) : about k l = [] := by
  unfold about
  rw [List.filter_eq_nil_iff]
  intro c hc
  have := h c hc
  simp only [decide_eq_true_eq]
  intro e
  exact this (by rw [← e]; rfl)

end Verif.Proofs
