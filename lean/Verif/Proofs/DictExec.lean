import Verif.Proofs.DictStore

/-! The executor with `TransferDict` objects. -/
namespace Verif.Proofs
open Verif.Py Verif.Model Verif.Spec

/-- the same exception, or related results -/
def Sim {α β : Type} (R : α → β → Prop) : Except PyErr α → Except PyErr β → Prop
  | .error e, .error e' => e = e'
  | .ok a, .ok b => R a b
  | _, _ => False

theorem Sim.bind {α β γ δ : Type} {R : α → β → Prop} {S : γ → δ → Prop} {x : Except PyErr α} {y : Except PyErr β} (h : Sim R x y)
    {f : α → Except PyErr γ} {g : β → Except PyErr δ} (hf : ∀ a b, R a b → Sim S (f a) (g b)) : Sim S (x >>= f) (y >>= g) := by
  cases x with
  | error e =>
    cases y with
    | error e' => exact h
    | ok b => exact h.elim
  | ok a =>
    cases y with
    | error e' => exact h.elim
    | ok b => exact hf a b h

theorem Sim.refl {α : Type} (x : Except PyErr α) : Sim (fun a b => a = b) x x := by cases x <;> rfl

theorem Sim.error {α β : Type} {R : α → β → Prop} {x : Except PyErr α} {e : PyErr} (h : Sim R x (Except.error e : Except PyErr β)) : x = .error e := by
  cases x with
  | error e' =>
    have : e' = e := h
    rw [this]
  | ok a => exact h.elim

theorem Sim.ok {α β : Type} {R : α → β → Prop} {x : Except PyErr α} {b : β} (h : Sim R x (.ok b)) : ∃ a, x = .ok a ∧ R a b := by
  cases x with
  | error e' => exact h.elim
  | ok a => exact ⟨a, rfl, h⟩

/-- an object stands for this dictionary inside others -/
def Stands (h : DStore) (r : Nat) (d : TD) : Prop := DictIs h r d.kids d.parents

theorem stands_item {h : DStore} {r : Nat} {d : TD} (hd : Stands h r d) (k : Key) :
    (d.kids.lookup k = none ∧ dictItem r k h = none) ∨ (∃ v, d.kids.lookup k = some (.leaf v) ∧ dictItem r k h = some (.val v)) ∨
    (∃ kids r', d.kids.lookup k = some (.node kids) ∧ dictItem r k h = some (.ref r')) := by
  have ho : ∃ parent, ObjIs h r parent d.kids := by
    cases hp : d.parents with
    | nil => rw [Stands, hp] at hd; exact ⟨_, hd⟩
    | cons x ps => rw [Stands, hp] at hd; obtain ⟨p, h1, _⟩ := hd; exact ⟨_, h1⟩
  obtain ⟨parent, o, o1, o2, o3⟩ := ho
  rw [dictItem, o1]
  rcases kidsAre_lookup k _ o3 with e | ⟨t, s, e1, e2, e3⟩
  · exact .inl e
  · cases t with
    | leaf v => rw [SlotIs] at e3; subst e3; exact .inr (.inl ⟨v, e1, e2⟩)
    | node kids =>
      rw [SlotIs] at e3
      obtain ⟨r', _, e, _⟩ := e3
      subst e
      exact .inr (.inr ⟨kids, r', e1, e2⟩)

theorem dictChild_sim {h : DStore} {r : Nat} {d : TD} (hd : Stands h r d) (k : Key) : Sim (Stands h) (dictChild r k h) (d.child k) := by
  rcases stands_item hd k with ⟨e1, e2⟩ | ⟨v, e1, e2⟩ | ⟨kids, r', e1, e2⟩
  · rw [dictChild, TD.child, e1, e2]; exact rfl
  · rw [dictChild, TD.child, e1, e2]; exact rfl
  · obtain ⟨c, c1, c2⟩ := dictIs_child hd e2
    rw [dictChild, e2, c1]
    exact c2

theorem dictGet_eq {h : DStore} {r : Nat} {d : TD} (hd : Stands h r d) (k : Key) : dictGet r k h = d.get k := by
  rcases stands_item hd k with ⟨e1, e2⟩ | ⟨v, e1, e2⟩ | ⟨kids, r', e1, e2⟩ <;> rw [dictGet, TD.get, e1, e2]

theorem dictHas_eq {h : DStore} {r : Nat} {d : TD} (hd : Stands h r d) (k : Key) : (dictItem r k h).isSome = d.has k := by
  rcases stands_item hd k with ⟨e1, e2⟩ | ⟨v, e1, e2⟩ | ⟨kids, r', e1, e2⟩ <;> rw [TD.has, e1, e2] <;> rfl

theorem stateValue_sim {h : DStore} {r : Nat} {d : TD} (hd : Stands h r d) (c : Cmd) : Sim (Stands h) (stateValueRun r c h) (stateValue d c) := by
  rw [stateValueRun, stateValue]
  cases c.prop.scope with
  | player =>
    exact (dictChild_sim hd _).bind (fun q c' hq => (Sim.refl (playerId c.sub)).bind (fun p p' e => by subst e; exact dictChild_sim hq _))
  | game => exact (dictChild_sim hd _).bind (fun q c' hq => dictChild_sim hq _)
  | record => exact (dictChild_sim hd _).bind (fun q c' hq => dictChild_sim hq _)

theorem update_sim {h : DStore} {r : Nat} {d : TD} (hd : Stands h r d) (strict : Bool) (c : Cmd) :
    Sim (fun x d' => ∃ vw, Stands h x.1 vw ∧ d' = vw.set (.prop c.prop) (.leaf x.2)) (updateRun strict c r h) (executeUpdate strict c d) := by
  rw [updateRun, executeUpdate]
  refine (stateValue_sim hd c).bind (fun q vw hq => ?_)
  rw [dictGet_eq hq]
  refine (Sim.refl _).bind (fun old old' e => ?_)
  subst e
  refine (Sim.refl _).bind (fun new new' e => ?_)
  subst e
  rw [dictHas_eq hq]
  by_cases hc : c.update = .assertEqualOrSet ∧ vw.has (.prop c.prop) = true
  · rw [if_pos hc, if_pos hc]
    refine (Sim.refl _).bind (fun b b' e => ?_)
    subst e
    by_cases hb : (strict && !b) = true
    · rw [if_pos hb, if_pos hb]; exact rfl
    · rw [if_neg hb, if_neg hb]; exact ⟨vw, hq, rfl⟩
  · rw [if_neg hc, if_neg hc]; exact ⟨vw, hq, rfl⟩

theorem executeRunFrom_ok (strict : Bool) : ∀ (cs : List Cmd) {h : DStore} {r : Nat} {kids : List (Key × Tree)}, ObjIs h r none kids →
    ∃ ys h', Returns (fun fuel up => executeRunFrom fuel up strict r cs h) (ys, (executeFrom strict ⟨kids, []⟩ cs).2, h') ∧ h <+: h' ∧
      ys.length = (executeFrom strict ⟨kids, []⟩ cs).1.length ∧
      ∀ (k : Nat) d, (executeFrom strict ⟨kids, []⟩ cs).1[k]? = some d → ∃ y : Nat × DStore, ys[k]? = some y ∧ ObjIs y.2 y.1 none d.kids ∧ y.2 <+: h'
  | [], h, r, kids, _ => ⟨[], h, ⟨0, fun _ _ _ _ => rfl⟩, List.prefix_refl _, rfl, fun k d hk => by simp [executeFrom] at hk⟩
  | c :: cs, h, r, kids, ho => by
    have hu := update_sim (d := ⟨kids, []⟩) ho strict c
    cases e1 : executeUpdate strict c ⟨kids, []⟩ with
    | error e =>
      rw [e1] at hu
      have hr := hu.error
      simp only [executeFrom, e1]
      refine ⟨[], h, ⟨0, fun _ _ _ _ => ?_⟩, List.prefix_refl _, rfl, fun k d hk => by simp at hk⟩
      simp only [executeRunFrom, hr]
    | ok d1 =>
      rw [e1] at hu
      obtain ⟨⟨q, new⟩, hr, vw, hq, hd1⟩ := hu.ok
      simp only at hq hd1
      obtain ⟨r1, h1, ⟨n1, s1⟩, p1, o1⟩ := set_returns hq (a := .plain (.leaf new)) (t := .leaf new) rfl (.prop c.prop)
      have hp : d1 = ⟨d1.kids, []⟩ := by
        have := rebuild_parents (putKey vw.kids (.prop c.prop) (.leaf new)) vw.parents
        rw [hd1, ← this]
        rfl
      rw [← hd1] at o1
      have ht : Sim (Stands h1) (do dictChild (← dictChild r1 (.text "global".toList) h1) (.text "time".toList) h1)
          (do d1.child (.text "global".toList) >>= fun g => g.child (.text "time".toList)) := by
        have : Stands h1 r1 d1 := by rw [hp]; exact o1
        exact (dictChild_sim this _).bind (fun q c' hq => dictChild_sim hq _)
      cases e2 : (d1.child (.text "global".toList) >>= fun g => g.child (.text "time".toList)) with
      | error e =>
        rw [e2] at ht
        have hs : stamped d1 c = .error e := by
          rw [stamped]
          cases e3 : d1.child (.text "global".toList) with
          | error e' => rw [e3] at e2; exact e2
          | ok g =>
            rw [e3] at e2
            have e2' : g.child (.text "time".toList) = .error e := e2
            show (g.child (.text "time".toList) >>= fun t => pure (t.set (.text "timestamp".toList) (.leaf (stamp c.timestamp)))) = .error e
            rw [e2']
            rfl
        have hr2 := ht.error
        simp only [executeFrom, e1, hs]
        refine ⟨[], h1, ⟨n1, fun f u a b => ?_⟩, p1, rfl, fun k d hk => by simp at hk⟩
        have := s1 f u a b
        simp only at this
        simp only [executeRunFrom, hr, this, hr2]
      | ok tm =>
        rw [e2] at ht
        obtain ⟨time, hr2, ht2⟩ := ht.ok
        have hs : stamped d1 c = .ok (tm.set (.text "timestamp".toList) (.leaf (stamp c.timestamp))) := by
          rw [stamped]
          cases e3 : d1.child (.text "global".toList) with
          | error e' => rw [e3] at e2; cases e2
          | ok g =>
            rw [e3] at e2
            have e2' : g.child (.text "time".toList) = .ok tm := e2
            show (g.child (.text "time".toList) >>= fun t => pure (t.set (.text "timestamp".toList) (.leaf (stamp c.timestamp)))) = _
            rw [e2']
            rfl
        obtain ⟨y, h2, ⟨n2, s2⟩, p2, o2⟩ := set_returns ht2 (a := .plain (.leaf (stamp c.timestamp))) (t := .leaf (stamp c.timestamp)) rfl (.text "timestamp".toList)
        obtain ⟨ys, h3, ⟨n3, s3⟩, p3, l3, k3⟩ := executeRunFrom_ok strict cs (ObjIs.mono p2 o1)
        rw [← hp] at s3 l3 k3
        simp only [executeFrom, e1, hs]
        refine ⟨(y, h2) :: ys, h3, ⟨max n1 (max n2 n3), fun f u a b => ?_⟩, p1.trans (p2.trans p3), by simp [l3], ?_⟩
        · have t1 := s1 f u (by omega) (by omega)
          have t2 := s2 f u (by omega) (by omega)
          have t3 := s3 f u (by omega) (by omega)
          simp only at t1 t2 t3
          simp only [executeRunFrom, hr, t1, hr2, t2, t3]
        · intro k d hk
          cases k with
          | zero =>
            simp only [List.getElem?_cons_zero, Option.some.injEq] at hk
            subst hk
            exact ⟨(y, h2), rfl, o2, p3⟩
          | succ k =>
            rw [List.getElem?_cons_succ] at hk ⊢
            exact k3 k d hk

end Verif.Proofs
