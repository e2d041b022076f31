import Verif.Props.Header

/-!
# C84: an element for a player who comes back
-/

namespace Verif.Props
open Verif.Py Verif.Model Verif.Spec Verif.Proofs

theorem rejoin_post (ts : Option Int) (s : IState) (l : List Cmd) (h : ∀ c ∈ l, c.update = .replace ∨ c.update = .assertEqualOrSet) :
    ∃ s' out, postprocess ts s l = .ok (s', out) := by
  induction l generalizing s with
  | nil => exact ⟨s, [], rfl⟩
  | cons c l ih =>
    obtain ⟨s', out, h1⟩ := ih (s.set (c.sub, c.prop) c.value) (fun x hx => h x (List.mem_cons_of_mem _ hx))
    refine ⟨s', { c with state := c.value, timestamp := ts } :: out, ?_⟩
    rcases h c List.mem_cons_self with hc | hc <;>
      simp only [postprocess, interpret, newValue, hc, bind, Except.bind, pure, Except.pure, h1]

theorem rejoin_players {e : Event} {p : Nat} (hp : p < 4) (ctx : Ctx) (hd : e.attrib.lookup "dan".toList = none)
    (hr : e.attrib.lookup "rate".toList = none) (hs : e.attrib.lookup "sx".toList = none) (dan rate : List Num)
    (h1 : numberList (getListAttr "dan".toList e) = .ok dan) (h2 : numberList (getListAttr "rate".toList e) = .ok rate) :
    ∃ l, unPlayer e dan rate (splitOn ',' (getListAttr "sx".toList e)) p ctx = .ok (ctx, l) ∧
      (∀ c ∈ l, c.update = .replace ∨ c.update = .assertEqualOrSet) ∧
      (∀ name, e.attrib.lookup ("n".toList ++ natDigits p) = some name → name.all isSpace = false → l ≠ []) := by
  unfold unPlayer
  cases hn : e.attrib.lookup ("n".toList ++ natDigits p) with
  | none => exact ⟨[], rfl, by simp, by simp⟩
  | some name =>
    dsimp only
    by_cases hsp : name.all isSpace = true
    · rw [if_pos hsp]
      exact ⟨[], rfl, by simp, by rintro _ ⟨⟩ h; rw [hsp] at h; cases h⟩
    · rw [if_neg hsp]
      have e1 : dan = [.int (-127), .int (-127), .int (-127), .int (-127)] := by
        have : numberList "-127,-127,-127,-127".toList = .ok [.int (-127), .int (-127), .int (-127), .int (-127)] := by decide +kernel
        simp only [getListAttr, hd] at h1
        rw [this, Except.ok.injEq] at h1
        exact h1.symm
      have e2 : rate = [.int (-127), .int (-127), .int (-127), .int (-127)] := by
        have : numberList "-127,-127,-127,-127".toList = .ok [.int (-127), .int (-127), .int (-127), .int (-127)] := by decide +kernel
        simp only [getListAttr, hr] at h2
        rw [this, Except.ok.injEq] at h2
        exact h2.symm
      have e3 : splitOn ',' (getListAttr "sx".toList e) = ["-127".toList, "-127".toList, "-127".toList, "-127".toList] := by
        simp only [getListAttr, hs]
        decide +kernel
      rw [e1, e2, e3]
      have hx : ∀ {α : Type} (x : α) (p : Nat), p < 4 → pyIdx [x, x, x, x] p = .ok x := by
        intro α x p hp
        have : p = 0 ∨ p = 1 ∨ p = 2 ∨ p = 3 := by omega
        rcases this with rfl | rfl | rfl | rfl <;> rfl
      simp only [hx _ p hp, levelCmds, rateCmds, hd, hr, bind, Except.bind, pure, Except.pure]
      refine ⟨_, rfl, ?_, by simp⟩
      simp [pcmd]

/-- **C84.** A player who has lost the connection comes back with an element `UN` that has a name and neither levels nor rates nor
    sexes. It is always accepted, also in strict mode: the player is connected afterwards and has the name. -/
theorem C84_reconnects (strict : Bool) (ctx : Ctx) (t : TEvent) (ht : t.ev.tag = "UN".toList)
    (hd : t.ev.attrib.lookup "dan".toList = none) (hr : t.ev.attrib.lookup "rate".toList = none)
    (hs : t.ev.attrib.lookup "sx".toList = none) (p : Nat) (hp : p < 4) (name : Str)
    (hn : t.ev.attrib.lookup ("n".toList ++ natDigits p) = some name) (hsp : name.all isSpace = false) :
    ∃ ctx' out, callTranslator strict ctx t = .ok (ctx', out) ∧ ctx'.vals.get (ofPlayer p "disconnected") = .bool false ∧
      ctx'.vals.get (ofPlayer p "name") = .str (unquote name) := by
  have hnum : numberList "-127,-127,-127,-127".toList = .ok [.int (-127), .int (-127), .int (-127), .int (-127)] := by decide +kernel
  have h1 : numberList (getListAttr "dan".toList t.ev) = .ok [.int (-127), .int (-127), .int (-127), .int (-127)] := by
    simp only [getListAttr, hd, hnum]
  have h2 : numberList (getListAttr "rate".toList t.ev) = .ok [.int (-127), .int (-127), .int (-127), .int (-127)] := by
    simp only [getListAttr, hr, hnum]
  have each := fun q (hq : q < 4) => rejoin_players (e := t.ev) hq ctx hd hr hs _ _ h1 h2
  obtain ⟨l0, a0, b0, c0⟩ := each 0 (by decide)
  obtain ⟨l1, a1, b1, c1⟩ := each 1 (by decide)
  obtain ⟨l2, a2, b2, c2⟩ := each 2 (by decide)
  obtain ⟨l3, a3, b3, c3⟩ := each 3 (by decide)
  have hu : translateNamed ctx t.ev = .ok (ctx, l0 ++ (l1 ++ (l2 ++ (l3 ++ [])))) := by
    have : translateNamed ctx t.ev = unCommand ctx t.ev := by unfold translateNamed; rw [ht]; rfl
    rw [this]
    unfold unCommand
    rw [h1, h2, show List.range 4 = [0, 1, 2, 3] from rfl]
    simp only [forPlayers, a0, a1, a2, a3, bind, Except.bind, pure, Except.pure]
  have hne : l0 ++ (l1 ++ (l2 ++ (l3 ++ []))) ≠ [] := by
    have : p = 0 ∨ p = 1 ∨ p = 2 ∨ p = 3 := by omega
    rcases this with rfl | rfl | rfl | rfl
    · have := c0 name hn hsp; simp [this]
    · have := c1 name hn hsp; simp [this]
    · have := c2 name hn hsp; simp [this]
    · have := c3 name hn hsp; simp [this]
  have hg := gen_of_named hu hne
  obtain ⟨s', out, hpost⟩ := rejoin_post (some t.timestamp) ctx.vals (l0 ++ (l1 ++ (l2 ++ (l3 ++ [])))) (by
    intro c hc
    simp only [List.append_nil, List.mem_append] at hc
    rcases hc with hc | hc | hc | hc
    · exact b0 c hc
    · exact b1 c hc
    · exact b2 c hc
    · exact b3 c hc)
  have hcall : callTranslator strict ctx t = .ok ({ ctx with vals := s' }, out) := by
    unfold callTranslator
    rw [hg]
    simp only [bind, Except.bind, pure, Except.pure, hpost]
    rw [if_pos hne]
  refine ⟨_, out, hcall, ?_, ((C84_player strict ctx _ t out hcall ht p hp).2 name hn hsp).1⟩
  obtain ⟨dan, rate, m, _, _, hm, ha⟩ := un_about hp hcall ht
  obtain ⟨level, r, sx, levels, k1, k2, k3, k4, rfl⟩ := un_enters hm hn hsp
  have pdis : "disconnected" ∈ propertyNames .player := by decide +kernel
  have := ha "disconnected"
  rw [about_append, about_append, level_about k4 pdis (by decide), rate_about pdis (by decide), List.append_nil,
    List.append_nil, about_pcmd_self, about_pcmd_ne (by decide +kernel) pdis (by decide), about_nil, apply_one, new_replace] at this
  exact (Except.ok.inj this).symm

/-- player 2 comes back -/
example : ∃ ctx' out, callTranslator true {} ⟨0, ⟨"UN".toList, [("n2".toList, "%41%42".toList)]⟩⟩ = .ok (ctx', out) ∧
    ctx'.vals.get (ofPlayer 2 "disconnected") = .bool false ∧ ctx'.vals.get (ofPlayer 2 "name") = .str (unquote "%41%42".toList) :=
  C84_reconnects true {} _ rfl rfl rfl rfl 2 (by decide) "%41%42".toList (by decide +kernel) (by decide +kernel)

end Verif.Props
