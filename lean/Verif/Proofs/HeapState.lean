import Verif.Proofs.HeapExec

/-! Lemmas on the states of a game with set and list objects (C101). -/
namespace Verif.Proofs.Heap
open Verif.Model Verif.Spec Verif.Py

/-- the objects of `b` are in `c` as they are -/
def Kept (b c : Boxes) : Prop := ∀ (r : Nat) x, b[r]? = some x → c[r]? = some x

theorem Kept.refl (b : Boxes) : Kept b b := fun _ _ e => e
theorem Kept.trans {a b c : Boxes} (x : Kept a b) (y : Kept b c) : Kept a c := fun r i e => y r i (x r i e)
theorem kept_new (b : Boxes) (x : Box) : Kept b (b ++ [x]) := by
  intro r i e
  rw [List.getElem?_append_left (List.getElem?_eq_some_iff.mp e).1]; exact e
theorem new_at (b : Boxes) (x : Box) : (b ++ [x])[b.length]? = some x := by simp
theorem kept_set {b c : Boxes} (k : Kept b c) (x : Box) : Kept b (c.set b.length x) := by
  intro r i e
  have := (List.getElem?_eq_some_iff.mp e).1
  rw [List.getElem?_set_ne (by omega)]
  exact k r i e

mutual
theorem shown_kept {b c : Boxes} (k : Kept b c) : ∀ {x s}, Shown b x s → Shown c x s
  | _, _, .hand e => .hand (k _ _ e)
  | _, _, .melds e => .melds (k _ _ e)
  | _, _, .discards e => .discards (k _ _ e)
  | _, _, .dora e => .dora (k _ _ e)
  | _, _, .invisible e => .invisible (k _ _ e)
  | _, _, .coll a => .coll (shownAll_kept k a)
theorem shownAll_kept {b c : Boxes} (k : Kept b c) : ∀ {x s}, ShownAll b x s → ShownAll c x s
  | _, _, .nil => .nil
  | _, _, .cons a d => .cons (shown_kept k a) (shownAll_kept k d)
end

theorem at_eq {b : Boxes} {r x} (e : b[r]? = some x) : b.at r = x := by
  unfold Boxes.at; rw [List.getD_eq_getElem?_getD, e]; rfl

/-- a new state or the old one -/
def Next (b : Boxes) (x : OState) (s : GState) (r : Boxes × OState) (t : Option GState) : Prop :=
  Kept b r.1 ∧ match t with
    | some t => Shown r.1 r.2 t
    | none => r.2 = x ∧ Shown r.1 x s

theorem agree_ite {α β : Type} {R : α → β → Prop} {p : Prop} [Decidable p] {x x' : Except PyErr α} {y y' : Except PyErr β}
    (a : p → Agree R x y) (b : ¬p → Agree R x' y') : Agree R (if p then x else x') (if p then y else y') := by
  by_cases h : p
  · simp only [h, if_true]; exact a h
  · simp only [h, if_false]; exact b h

theorem agree_map {α β γ : Type} {R : α → β → Prop} {x : Except PyErr α} {y : Except PyErr γ} {f : γ → β}
    (a : Agree (fun p q => R p (f q)) x y) : Agree R x (do pure (f (← y))) := by
  cases x <;> cases y <;> exact a

theorem hand_next {b : Boxes} {p r l} (h : b[r]? = some (.ints l)) (e : Event) :
    Agree (fun q t => Next b (.hand p r) (.hand p l) q (t.map (GState.hand p))) (oHand b p r e) (handScan p l e) := by
  have new : ∀ m, Next b (.hand p r) (.hand p l) (b ++ [.ints m], .hand p b.length) (some (.hand p m)) :=
    fun m => ⟨kept_new _ _, .hand (new_at _ _)⟩
  unfold oHand handScan
  rw [at_eq h]
  refine agree_ite (fun _ => ?_) (fun _ => ?_)
  · refine agree_bind (agree_same _) (fun _ _ q => ?_)
    subst q
    refine agree_bind (agree_same _) (fun _ _ q => ?_)
    subst q
    exact new _
  · cases playerDraw p e with
    | some t => exact new _
    | none =>
      cases playerDiscard p e with
      | some t => exact new _
      | none =>
        refine agree_bind (agree_same _) (fun _ _ q => ?_)
        subst q
        refine agree_ite (fun _ => ?_) (fun _ => ?_)
        · refine agree_bind (agree_same _) (fun _ _ q => ?_)
          subst q
          exact new _
        · exact ⟨Kept.refl b, rfl, .hand h⟩

theorem meld_next {b : Boxes} {p r l} (h : b[r]? = some (.melds l)) (e : Event) :
    Agree (fun q t => Next b (.melds p r) (.melds p l) q (t.map (GState.melds p))) (oMeld b p r e) (meldScan p l e) := by
  have new : ∀ m, Next b (.melds p r) (.melds p l) (b ++ [.melds m], .melds p b.length) (some (.melds p m)) :=
    fun m => ⟨kept_new _ _, .melds (new_at _ _)⟩
  unfold oMeld meldScan
  rw [at_eq h]
  refine agree_bind (agree_same _) (fun _ _ q => ?_)
  subst q
  refine agree_ite (fun _ => ?_) (fun _ => agree_ite (fun _ => new _) (fun _ => ⟨Kept.refl b, rfl, .melds h⟩))
  refine agree_bind (agree_same _) (fun _ _ q => ?_)
  subst q
  refine agree_ite (fun _ => ?_) (fun _ => new _)
  refine agree_bind (agree_same _) (fun _ _ q => ?_)
  subst q
  exact new _

theorem discard_next {b : Boxes} {p r l} (h : b[r]? = some (.ints l)) (e : Event) :
    Agree (fun q t => Next b (.discards p r) (.discards p l) q (t.map (GState.discards p))) (oDiscard b p r e) (discardScan p l e) := by
  have new : ∀ m, Next b (.discards p r) (.discards p l) (b ++ [.ints m], .discards p b.length) (some (.discards p m)) :=
    fun m => ⟨kept_new _ _, .discards (new_at _ _)⟩
  unfold oDiscard discardScan
  rw [at_eq h]
  cases playerDiscard p e with
  | some t => exact new _
  | none => exact agree_ite (fun _ => new _) (fun _ => ⟨Kept.refl b, rfl, .discards h⟩)

theorem dora_next {b : Boxes} {r l} (h : b[r]? = some (.ints l)) (e : Event) :
    Agree (fun q t => Kept b q.1 ∧ match t with | some m => q.1[q.2]? = some (.ints m) | none => q = (b, r)) (oDora b r e) (doraScan l e) := by
  unfold oDora doraScan
  rw [at_eq h]
  refine agree_ite (fun _ => ?_) (fun _ => agree_ite (fun _ => ?_) (fun _ => ⟨Kept.refl b, rfl⟩))
  · refine agree_bind (agree_same _) (fun _ _ q => ?_)
    subst q
    refine agree_bind (agree_same _) (fun _ _ q => ?_)
    subst q
    refine agree_bind (agree_same _) (fun _ _ q => ?_)
    subst q
    exact ⟨kept_new _ _, new_at _ _⟩
  · refine agree_bind (agree_same _) (fun _ _ q => ?_)
    subst q
    refine agree_bind (agree_same _) (fun _ _ q => ?_)
    subst q
    exact ⟨kept_new _ _, new_at _ _⟩

theorem newDora_value (b : Boxes) (e : Event) :
    Agree (fun q m => Kept b q.1 ∧ q.1[q.2]? = some (.ints m)) (oNewDora b e) (doraScanValue e) := by
  have := dora_next (new_at b (.ints [])) e
  unfold oNewDora doraScanValue
  cases e1 : oDora (b ++ [.ints []]) b.length e with
  | error x =>
    cases e2 : doraScan [] e with
    | error y => rw [e1, e2] at this; exact this
    | ok y => rw [e1, e2] at this; exact this.elim
  | ok x =>
    cases e2 : doraScan [] e with
    | error y => rw [e1, e2] at this; exact this.elim
    | ok y =>
      rw [e1, e2] at this
      obtain ⟨k, t⟩ := this
      cases y with
      | some m => exact ⟨(kept_new _ _).trans k, t⟩
      | none => subst t; exact ⟨kept_new _ _, new_at _ _⟩

theorem invisible_next {b : Boxes} {f r l} (h : b[r]? = some (.elems l)) (e : Event) :
    Agree (fun q t => Next b (.invisible f r) (.invisible f l) q (t.map (GState.invisible f))) (oInvisible b f r e) (invisibleScan f l e) := by
  have new : ∀ m, Next b (.invisible f r) (.invisible f l) (b ++ [.elems m], .invisible f b.length) (some (.invisible f m)) :=
    fun m => ⟨kept_new _ _, .invisible (new_at _ _)⟩
  unfold oInvisible invisibleScan
  refine agree_ite (fun _ => ?_) (fun _ => ?_)
  · refine agree_bind (newDora_value _ e) ?_
    rintro ⟨b1, d⟩ m ⟨k, hd⟩
    have hb := k _ _ (new_at b (.elems (initialInvisible f)))
    dsimp only
    rw [at_eq hb, at_eq hd]
    exact ⟨kept_set ((kept_new _ _).trans k) _, .invisible (List.getElem?_set_self (List.getElem?_eq_some_iff.mp hb).1)⟩
  · dsimp only
    rw [at_eq h]
    refine agree_ite (fun _ => new _) (fun _ => agree_ite (fun _ => ?_) (fun _ => agree_ite (fun _ => ?_) (fun _ => ⟨Kept.refl b, rfl, .invisible h⟩)))
    · refine agree_bind (agree_same _) (fun _ _ q => ?_)
      subst q
      exact new _
    · refine agree_bind (newDora_value _ e) ?_
      rintro ⟨b1, d⟩ m ⟨k, hd⟩
      dsimp only
      rw [at_eq (k _ _ h), at_eq hd]
      exact ⟨k.trans (kept_new _ _), .invisible (new_at _ _)⟩

mutual
theorem scan_next (e : Event) : ∀ {b : Boxes} {x s}, Shown b x s → Agree (Next b x s) (oScan b e x) (GState.scan? e s)
  | b, _, _, .hand h => by
    rw [oScan, GState.scan?]; exact agree_map (hand_next h e)
  | b, _, _, .melds h => by
    rw [oScan, GState.scan?]; exact agree_map (meld_next h e)
  | b, _, _, .discards h => by
    rw [oScan, GState.scan?]; exact agree_map (discard_next h e)
  | b, _, _, .dora (r := r) (l := l) h => by
    rw [oScan, GState.scan?]
    refine agree_bind (dora_next h e) ?_
    rintro ⟨b1, d⟩ m ⟨k, t⟩
    cases m with
    | none => cases t; exact ⟨Kept.refl b, rfl, .dora h⟩
    | some m => exact ⟨k, .dora t⟩
  | b, _, _, .invisible h => by
    rw [oScan, GState.scan?]; exact agree_map (invisible_next h e)
  | b, _, _, .coll a => by
    rw [oScan, GState.scan?]
    refine agree_bind (scanAll_next e a) ?_
    rintro ⟨b1, ts⟩ m ⟨k, t⟩
    exact ⟨k, .coll t⟩
theorem scanAll_next (e : Event) : ∀ {b : Boxes} {xs ss}, ShownAll b xs ss →
    Agree (fun r ts => Kept b r.1 ∧ ShownAll r.1 r.2 ts) (oScanAll b e xs) (GState.scanAll e ss)
  | b, _, _, .nil => by
    rw [oScanAll, GState.scanAll]; exact ⟨Kept.refl b, .nil⟩
  | b, _, _, .cons a q => by
    rw [oScanAll, GState.scanAll]
    have h1 := scan_next e a
    refine agree_bind h1 ?_
    rintro ⟨b1, t⟩ m ⟨k, hm⟩
    have h2 := scanAll_next (b := b1) e (shownAll_kept k q)
    refine agree_bind h2 ?_
    rintro ⟨b2, ts⟩ ms ⟨k2, hms⟩
    refine ⟨k.trans k2, .cons ?_ hms⟩
    cases m with
    | none => obtain ⟨rfl, hm⟩ := hm; exact shown_kept k2 hm
    | some m => exact shown_kept k2 hm
end

theorem scan_shown (e : Event) {b : Boxes} {x s} (h : Shown b x s) :
    Agree (fun r t => Kept b r.1 ∧ Shown r.1 r.2 t) (oScan b e x) (s.scan e) := by
  unfold GState.scan
  refine agree_map ?_
  have := scan_next e h
  revert this
  cases oScan b e x <;> cases GState.scan? e s <;> intro this <;> try exact this
  rename_i r t
  obtain ⟨k, t2⟩ := this
  cases t with
  | none => obtain ⟨t2, t3⟩ := t2; refine ⟨k, ?_⟩; rw [t2]; exact t3
  | some t => exact ⟨k, t2⟩

theorem withEvents_shown {es : List Event} : ∀ {b : Boxes} {x s}, Shown b x s →
    Kept b (oWithEvents b x es).1 ∧ List.Forall₂ (Shown (oWithEvents b x es).1) (oWithEvents b x es).2.1 (stateRun s es).1 ∧
    (oWithEvents b x es).2.2 = (stateRun s es).2 := by
  induction es with
  | nil => intro b x s _; exact ⟨Kept.refl b, .nil, rfl⟩
  | cons e es ih =>
    intro b x s h
    have key := scan_shown e h
    rw [oWithEvents, stateRun]
    cases e1 : oScan b e x with
    | error y =>
      cases e2 : s.scan e with
      | error z => rw [e1, e2] at key; cases key; exact ⟨Kept.refl b, .nil, rfl⟩
      | ok z => rw [e1, e2] at key; exact key.elim
    | ok ky =>
      cases e2 : s.scan e with
      | error z => rw [e1, e2] at key; exact key.elim
      | ok z =>
        rw [e1, e2] at key
        obtain ⟨k, t⟩ := key
        obtain ⟨r1, r2, r3⟩ := ih t
        exact ⟨k.trans r1, .cons (shown_kept r1 t) r2, r3⟩

end Verif.Proofs.Heap
