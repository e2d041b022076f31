import Verif.Proofs.Effects2
import Verif.Props.Translate

/-!
C81: an event changes only what it is about.
-/
namespace Verif.Props
open Verif.Py Verif.Model Verif.Spec Verif.Proofs

/-- **C81.** Translating an event changes no property but those its kind is about, of any player, and gives no other
    commands. -/
theorem C81_only (strict : Bool) (ctx ctx' : Ctx) (t : TEvent) (out : List Cmd)
    (h : callTranslator strict ctx t = .ok (ctx', out)) :
    (∀ (sc : Scope) (name : String), name ∈ propertyNames sc → (sc, name) ∉ mayChange t.ev.tag →
      ∀ s, ctx'.vals.get (s, Verif.Model.view sc name) = ctx.vals.get (s, Verif.Model.view sc name)) ∧
    (∀ c ∈ out, ∃ x ∈ mayChange t.ev.tag, c.prop = Verif.Model.view x.1 x.2) := by
  obtain ⟨ctx1, l, hg, hp, _⟩ := call_inv h
  have hw := generate_within hg
  refine ⟨?_, ?_⟩
  · intro sc name hn hno s
    have := call_get h hg (s, Verif.Model.view sc name)
    rw [about_within hw (mayChange_names _) hn hno s, gen_vals hg] at this
    simp only [applyAll, Except.ok.injEq] at this
    exact this.symm
  · intro c hc
    have := postprocess_keys hp
    have : keyOf c ∈ l.map keyOf := by rw [← this]; exact List.mem_map_of_mem hc
    obtain ⟨c', h1, h2⟩ := List.mem_map.1 this
    obtain ⟨x, hx, e⟩ := hw c' h1
    have : c'.prop = c.prop := congrArg Prod.snd h2
    exact ⟨x, hx, by rw [← this, e]⟩

/-- **C81.** ... so a property keeps its value through any events that are not about it. -/
theorem C81_keeps (strict : Bool) (ctx ctx' : Ctx) (ts : List TEvent) (out : List Cmd)
    (h : translateAll strict ctx ts = .ok (ctx', out)) (sc : Scope) (name : String) (hn : name ∈ propertyNames sc)
    (hno : ∀ t ∈ ts, (sc, name) ∉ mayChange t.ev.tag) (s : Sub) :
    ctx'.vals.get (s, Verif.Model.view sc name) = ctx.vals.get (s, Verif.Model.view sc name) := by
  induction ts generalizing ctx out with
  | nil => simp only [translateAll, Except.ok.injEq, Prod.mk.injEq] at h; rw [h.1]
  | cons t ts ih =>
    simp only [translateAll, bind_ok, pure_ok, Prod.exists, Prod.mk.injEq] at h
    obtain ⟨c1, l1, h1, c2, l2, h2, rfl, _⟩ := h
    rw [ih c1 l2 h2 (fun t ht => hno t (by simp [ht])), (C81_only strict ctx c1 t l1 h1).1 sc name hn (hno t (by simp)) s]

/-- **C81.** A draw, discard, call, reach or disconnection of one player changes only properties of that player, and all its
    commands are about that player. -/
theorem C81_mover (strict : Bool) (ctx ctx' : Ctx) (t : TEvent) (out : List Cmd)
    (h : callTranslator strict ctx t = .ok (ctx', out)) (q : Fin 4) (hq : MoveOf q t.ev) :
    (∀ s v, s ≠ .num (q.val : Int) → ctx'.vals.get (s, v) = ctx.vals.get (s, v)) ∧
    (∀ c ∈ out, c.sub = .num (q.val : Int)) := by
  obtain ⟨ctx1, l, hg, hp, _⟩ := call_inv h
  have hs := generate_subs hg hq
  refine ⟨?_, ?_⟩
  · intro s v hne
    have := call_get h hg (s, v)
    rw [about_sub (fun c hc e => hne (by rw [← hs c hc, e])), gen_vals hg] at this
    simp only [applyAll, Except.ok.injEq] at this
    exact this.symm
  · intro c hc
    have : keyOf c ∈ l.map keyOf := by rw [← postprocess_keys hp]; exact List.mem_map_of_mem hc
    obtain ⟨c', h1, h2⟩ := List.mem_map.1 this
    have : c'.sub = c.sub := congrArg Prod.fst h2
    rw [← this]
    exact hs c' h1

/-- **C81.** A win changes no hand but the winner's. -/
theorem C81_win_hand (strict : Bool) (ctx ctx' : Ctx) (t : TEvent) (out : List Cmd)
    (h : callTranslator strict ctx t = .ok (ctx', out)) (ht : t.ev.tag = "AGARI".toList) (w : Str) (q : Int)
    (hw : t.ev.get "who".toList = .ok w) (hq : pyInt w = .ok q) (p : Nat) (hp : (p : Int) ≠ q) :
    ctx'.vals.get (ofPlayer p "hand") = ctx.vals.get (ofPlayer p "hand") := by
  obtain ⟨ctx1, l, hg, _, _⟩ := call_inv h
  have hab : about (ofPlayer p "hand") l = [] := by
    have hg' := hg
    unfold generate at hg'
    simp only [bind_ok, Prod.exists] at hg'
    obtain ⟨a, b, h1, h2⟩ := hg'
    have h1' : agariCommand ctx t.ev = .ok (a, b) := by rw [← h1]; unfold translateNamed; rw [ht]; rfl
    simp only [agariCommand, bind_ok, pure_ok, Prod.mk.injEq] at h1'
    obtain ⟨w', hw', q', hq', _, _, _, _, _, _, _, _, _, _, _, _, _, _, _, _, rest, hr, rfl, rfl⟩ := h1'
    rw [hw] at hw'
    cases hw'
    rw [hq] at hq'
    cases hq'
    rw [if_pos (by simp)] at h2
    simp only [pure_ok, Prod.mk.injEq] at h2
    rw [← h2.2]
    have hrest : Within endEffects rest := gameFinish_within (by decide) hr
    have h3 := about_within hrest (by decide) (sc := .player) (a := "hand") (by decide) (by decide) (.num (p : Int))
    have h4 : ∀ v, keyOf (pcmd .gameFinish q "hand" .assertEqualOrSet v) ≠ ofPlayer p "hand" := by
      intro v e
      have := congrArg Prod.fst e
      simp only [keyOf, pcmd, ofPlayer, Sub.num.injEq] at this
      exact hp this.symm
    unfold about at h3 ⊢
    rw [List.filter_append]
    rw [show (Sub.num (p : Int), Verif.Model.view Scope.player "hand") = ofPlayer p "hand" from rfl] at h3
    rw [h3, List.append_nil, List.filter_eq_nil_iff]
    intro c hc
    simp only [List.mem_cons, List.not_mem_nil, or_false] at hc
    simp only [decide_eq_true_eq]
    rcases hc with rfl | rfl
    · exact h4 _
    · intro e
      have := congrArg Prod.snd e
      simp only [keyOf, gcmd, ofPlayer] at this
      exact absurd (view_inj (s := .game) (s' := .player) (a := "nobody_win") (b := "hand") (by decide) (by decide) this).1 (by decide)
  have := call_get h hg (ofPlayer p "hand")
  rw [hab, gen_vals hg] at this
  simp only [applyAll, Except.ok.injEq] at this
  exact this.symm

-- a deal and some play: names and connections stay, whatever they are
example : ∃ c o, translateAll true sampleCtx (sampleEvents (sampleDeal :: samplePlay)) = .ok (c, o) ∧
    ∀ p, c.vals.get (ofPlayer p "name") = sampleCtx.vals.get (ofPlayer p "name") := by
  obtain ⟨c, o, h⟩ := sample_translates
  refine ⟨c, o, h, fun p => C81_keeps true sampleCtx c _ o h .player "name" (by decide) ?_ _⟩
  decide +kernel

-- moves of single players
example : MoveOf 1 (Move.draw 1 7).event ∧ MoveOf 2 (Move.discard 2 130).event ∧ MoveOf 3 (Move.meld 3 5).event :=
  ⟨.inl ⟨7, numbered_natDigits (by decide) 7⟩, .inr (.inl ⟨130, numbered_natDigits (by decide) 130⟩),
    .inr (.inr ⟨.inl rfl, _, rfl, rfl⟩)⟩

end Verif.Props
