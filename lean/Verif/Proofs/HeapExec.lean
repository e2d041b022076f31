import Verif.Proofs.Heap

/-! Lemmas on the executor with list objects (C101). -/
namespace Verif.Proofs.Heap
open Verif.Model Verif.Spec Verif.Py

mutual
theorem tree_mono {h k : Heap} (e : Extends h k) : ∀ {x t}, HoldTree h x t → HoldTree k x t
  | _, _, .leaf a => .leaf (holds_mono e a)
  | _, _, .node a => .node (kids_mono e a)
theorem kids_mono {h k : Heap} (e : Extends h k) : ∀ {x t}, HoldKids h x t → HoldKids k x t
  | _, _, .nil => .nil
  | _, _, .cons a b => .cons (tree_mono e a) (kids_mono e b)
end

theorem td_mono {h k : Heap} (e : Extends h k) {a d} (p : HoldTD h a d) : HoldTD k a d :=
  ⟨kids_mono e p.1, forall_mono (fun _ _ ⟨x, y⟩ => ⟨kids_mono e x, y⟩) p.2⟩

/-- two results agree -/
def Agree {α β : Type} (R : α → β → Prop) : Except PyErr α → Except PyErr β → Prop
  | .error x, .error y => x = y
  | .ok a, .ok b => R a b
  | _, _ => False

theorem agree_bind {α β γ δ : Type} {R : α → β → Prop} {S : γ → δ → Prop} {x : Except PyErr α} {y : Except PyErr β}
    {f : α → Except PyErr γ} {g : β → Except PyErr δ} (a : Agree R x y) (n : ∀ p q, R p q → Agree S (f p) (g q)) :
    Agree S (x >>= f) (y >>= g) := by
  cases x <;> cases y <;> first | exact a | exact a.elim | exact n _ _ a

theorem agree_same {α : Type} (x : Except PyErr α) : Agree (fun a b => a = b) x x := by cases x <;> rfl

theorem kids_lookup {h : Heap} {ks ls} (a : HoldKids h ks ls) (k : Key) :
    (ks.lookup k = none ∧ ls.lookup k = none) ∨ ∃ x t, ks.lookup k = some x ∧ ls.lookup k = some t ∧ HoldTree h x t := by
  induction ks generalizing ls with
  | nil => cases a; exact .inl ⟨rfl, rfl⟩
  | cons x ks ih =>
    cases a with
    | cons p q =>
      rename_i k' x t ls
      by_cases e : k = k'
      · subst e; exact .inr ⟨x, t, by simp, by simp, p⟩
      · have : (k == k') = false := by simpa using e
        simp only [List.lookup_cons, this]
        exact ih q

theorem kids_put {h : Heap} {ks ls} (a : HoldKids h ks ls) (k : Key) {x t} (b : HoldTree h x t) :
    HoldKids h (putKey ks k x) (putKey ls k t) := by
  induction ks generalizing ls with
  | nil => cases a; exact .cons b .nil
  | cons y ks ih =>
    cases a with
    | cons p q =>
      rename_i k' y u ls
      unfold putKey
      by_cases e : k' = k
      · simp only [e, if_true]; exact .cons b q
      · simp only [e, if_false]; exact .cons p (ih q)

theorem td_child {h : Heap} {a d} (p : HoldTD h a d) (k : Key) : Agree (HoldTD h) (a.child k) (d.child k) := by
  unfold HTD.child TD.child
  rcases kids_lookup p.1 k with ⟨e1, e2⟩ | ⟨x, t, e1, e2, ht⟩
  · rw [e1, e2]; rfl
  · rw [e1, e2]
    cases ht with
    | leaf _ => rfl
    | node q => exact ⟨q, .cons ⟨p.1, rfl⟩ p.2⟩

theorem td_has {h : Heap} {a d} (p : HoldTD h a d) (k : Key) : a.has k = d.has k := by
  unfold HTD.has TD.has
  rcases kids_lookup p.1 k with ⟨e1, e2⟩ | ⟨x, t, e1, e2, ht⟩ <;> rw [e1, e2] <;> rfl

theorem td_get {h : Heap} {a d} (p : HoldTD h a d) (k : Key) : Agree (Holds h) (a.get k) (d.get k) := by
  unfold HTD.get TD.get
  rcases kids_lookup p.1 k with ⟨e1, e2⟩ | ⟨x, t, e1, e2, ht⟩
  · rw [e1, e2]; exact .atom (fun l e => by cases e)
  · rw [e1, e2]
    cases ht with
    | leaf q => exact q
    | node q => rfl

theorem td_rebuild {h : Heap} {ps qs} (b : List.Forall₂ (fun (p : List (Key × HTree) × Key) (q : List (Key × Tree) × Key) => HoldKids h p.1 q.1 ∧ p.2 = q.2) ps qs) :
    ∀ {ks ls}, HoldKids h ks ls → HoldTD h (HTD.rebuild ks ps) (TD.rebuild ls qs) := by
  induction b with
  | nil => intro ks ls a; exact ⟨a, .nil⟩
  | cons p _ ih =>
    intro ks ls a
    rename_i x y _ _ _
    obtain ⟨up, k⟩ := x
    obtain ⟨vp, l⟩ := y
    obtain ⟨p, rfl⟩ : HoldKids h up vp ∧ k = l := p
    exact ih (kids_put p _ (.node a))

theorem td_set {h : Heap} {a d} (p : HoldTD h a d) (k : Key) {x t} (b : HoldTree h x t) : HoldTD h (a.set k x) (d.set k t) :=
  td_rebuild p.2 (kids_put p.1 k b)

theorem stateValue_agree {h : Heap} {a d} (p : HoldTD h a d) {x : HCmd} {c : Cmd} (e : SameCmd h x c) :
    Agree (HoldTD h) (hStateValue a x) (stateValue d c) := by
  unfold hStateValue stateValue
  rw [e.1, e.2.2.1]
  cases c.prop.scope with
  | player =>
    exact agree_bind (td_child p _) (fun _ _ q => agree_bind (agree_same _) (fun _ _ r => by subst r; exact td_child q _))
  | game => exact agree_bind (td_child p _) (fun _ _ q => td_child q _)
  | record => exact agree_bind (td_child p _) (fun _ _ q => td_child q _)

theorem stamped_agree {h : Heap} {a d} (p : HoldTD h a d) {x : HCmd} {c : Cmd} (e : SameCmd h x c) :
    Agree (HoldTD h) (hStamped a x) (stamped d c) := by
  unfold hStamped stamped
  rw [e.2.2.2.1]
  refine agree_bind (td_child p _) (fun _ _ q => agree_bind (td_child q _) (fun _ _ r => td_set r _ (.leaf (.atom ?_))))
  intro l e
  unfold stamp at e
  split at e <;> cases e

theorem update_agree (strict : Bool) {h : Heap} (b : Built h) {a d} (p : HoldTD h a d) {x : HCmd} {c : Cmd} (e : SameCmd h x c) :
    Agree (fun r t => Built r.1 ∧ Extends h r.1 ∧ HoldTD r.1 r.2 t) (hExecuteUpdate strict h x a) (executeUpdate strict c d) := by
  unfold hExecuteUpdate executeUpdate
  refine agree_bind (stateValue_agree p e) (fun vw vw' q => ?_)
  rw [e.1]
  refine agree_bind (td_get q _) (fun old old' o => ?_)
  refine agree_bind (R := fun r v => Built r.1 ∧ Extends h r.1 ∧ Holds r.1 r.2 v) ?_ (fun r v => ?_)
  · have := good_newValue b e o
    revert this
    cases h.newValue x old <;> cases newValue c old' <;> exact id
  · obtain ⟨k, new⟩ := r
    rintro ⟨bk, ek, hv⟩
    have fin : HoldTD k (vw.set (.prop c.prop) (.leaf new)) (vw'.set (.prop c.prop) (.leaf v)) := td_set (td_mono ek q) _ (.leaf hv)
    dsimp only
    rw [e.2.1, td_has q, read_full bk hv, read_full bk (holds_mono ek o)]
    by_cases hc : c.update = .assertEqualOrSet ∧ vw'.has (.prop c.prop) = true
    · simp only [hc, and_self, if_true]
      refine agree_bind (agree_same _) (fun i j hij => ?_)
      subst hij
      by_cases hs : (strict && !i) = true
      · simp only [hs, if_true]; rfl
      · simp only [hs]; exact ⟨bk, ek, fin⟩
    · simp only [hc, if_false]; exact ⟨bk, ek, fin⟩

theorem execute_holds (strict : Bool) {as : List HCmd} : ∀ {h : Heap} {a : HTD} {d : TD} {cs : List Cmd}, Built h →
    List.Forall₂ (SameCmd h) as cs → HoldTD h a d →
    Extends h (hExecute strict h a as).1 ∧ Built (hExecute strict h a as).1 ∧
    List.Forall₂ (HoldTD (hExecute strict h a as).1) (hExecute strict h a as).2.1 (executeFrom strict d cs).1 ∧
    (hExecute strict h a as).2.2 = (executeFrom strict d cs).2 := by
  induction as with
  | nil => intro h a d cs b e _; cases e; exact ⟨Extends.refl h, b, .nil, rfl⟩
  | cons x as ih =>
    intro h a d cs b e hs
    cases e with
    | cons p q =>
      rename_i c cs
      have key := update_agree strict b hs p
      rw [hExecute, executeFrom]
      cases e1 : hExecuteUpdate strict h x a with
      | error y =>
        cases e2 : executeUpdate strict c d with
        | error z => rw [e1, e2] at key; cases key; exact ⟨Extends.refl h, b, .nil, rfl⟩
        | ok z => rw [e1, e2] at key; exact key.elim
      | ok ky =>
        obtain ⟨k, y⟩ := ky
        cases e2 : executeUpdate strict c d with
        | error z => rw [e1, e2] at key; exact key.elim
        | ok z =>
          rw [e1, e2] at key
          obtain ⟨bk, ek, hv⟩ := key
          have key2 := stamped_agree hv (sameCmd_mono ek p)
          dsimp only
          cases e3 : hStamped y x with
          | error u =>
            cases e4 : stamped z c with
            | error w => rw [e3, e4] at key2; cases key2; exact ⟨ek, bk, .nil, rfl⟩
            | ok w => rw [e3, e4] at key2; exact key2.elim
          | ok u =>
            cases e4 : stamped z c with
            | error w => rw [e3, e4] at key2; exact key2.elim
            | ok w =>
              rw [e3, e4] at key2
              obtain ⟨r1, r2, r3, r4⟩ := ih bk (forall_mono (fun _ _ => sameCmd_mono ek) q) hv
              exact ⟨ek.trans r1, r2, .cons (td_mono r1 key2) r3, r4⟩

theorem initial_holds (h : Heap) : HoldTD h hInitialTree initialTree := by
  refine ⟨?_, .nil⟩
  exact .cons (.node (.cons (.node .nil) .nil)) (.cons (.node (.cons (.node .nil) .nil)) (.cons (.node (.cons (.node .nil)
    (.cons (.node .nil) (.cons (.node .nil) (.cons (.node .nil) .nil))))) (.cons (.node (.cons (.node .nil) .nil)) .nil)))

end Verif.Proofs.Heap
