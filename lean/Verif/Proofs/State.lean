import Verif.Model.State
import Verif.Proofs.Str

namespace Verif.Proofs
open Verif.Py Verif.Model

mutual
/-- a state with its contents forgotten -/
def shape : GState → GState
  | .hand p _ => .hand p []
  | .melds p _ => .melds p []
  | .discards p _ => .discards p []
  | .dora _ => .dora []
  | .invisible f _ => .invisible f []
  | .coll ns ss => .coll ns (shapes ss)
def shapes : List GState → List GState
  | [] => []
  | s :: ss => shape s :: shapes ss
end

theorem handScan_isSome (p : Fin 4) (l l' : List Int) (e : Event) :
    (handScan p l e).map Option.isSome = (handScan p l' e).map Option.isSome := by
  unfold handScan
  simp only [bind, Except.bind, pure, Except.pure]
  repeat' split
  all_goals rfl

theorem invisibleScan_isSome (f : Bool) (l l' : List InvElem) (e : Event) :
    (invisibleScan f l e).map Option.isSome = (invisibleScan f l' e).map Option.isSome := by
  unfold invisibleScan
  simp only [bind, Except.bind, pure, Except.pure]
  repeat' split
  all_goals rfl

mutual
theorem isKey_shape (e : Event) : ∀ s : GState, s.isKey e = (shape s).isKey e
  | .hand p l => by
    have h := handScan_isSome p l [] e
    simp only [GState.isKey, shape, GState.scan?, bind, Except.bind, pure, Except.pure]
    cases h1 : handScan p l e <;> cases h2 : handScan p [] e <;> simp_all [Except.map]
  | .melds p l => rfl
  | .discards p l => rfl
  | .dora l => rfl
  | .invisible f l => by
    have h := invisibleScan_isSome f l [] e
    simp only [GState.isKey, shape, GState.scan?, bind, Except.bind, pure, Except.pure]
    cases h1 : invisibleScan f l e <;> cases h2 : invisibleScan f [] e <;> simp_all [Except.map]
  | .coll ns ss => by simp only [GState.isKey, shape]; exact anyKey_shape e ss
theorem anyKey_shape (e : Event) : ∀ ss : List GState, GState.anyKey e ss = GState.anyKey e (shapes ss)
  | [] => rfl
  | s :: ss => by
    simp only [GState.anyKey, shapes]
    rw [isKey_shape e s, anyKey_shape e ss]
end

mutual
theorem scan_of_not_key (e : Event) : ∀ s : GState, s.isKey e = .ok false → s.scan e = .ok s
  | .hand p l => by
    simp only [GState.isKey, GState.scan, GState.scan?, bind, Except.bind, pure, Except.pure]
    cases h1 : handScan p l e with
    | error x => simp
    | ok r => cases r <;> simp
  | .invisible p l => by
    simp only [GState.isKey, GState.scan, GState.scan?, bind, Except.bind, pure, Except.pure]
    cases h1 : invisibleScan p l e with
    | error x => simp
    | ok r => cases r <;> simp
  | .melds p l => by
    simp only [GState.isKey, GState.scan, GState.scan?, meldScan, bind, Except.bind, pure, Except.pure]
    cases h : playerOpenHand p e with
    | error x => simp
    | ok b =>
      cases b
      · intro hk
        simp only [Bool.false_eq_true, if_false, Except.ok.injEq] at hk
        simp [hk]
      · simp
  | .discards p l => by
    simp only [GState.isKey, GState.scan, GState.scan?, discardScan, bind, Except.bind, pure, Except.pure]
    cases h : playerDiscard p e with
    | some t => simp
    | none => intro hk; simp at hk; simp [hk]
  | .dora l => by
    simp only [GState.isKey, GState.scan, GState.scan?, doraScan, bind, Except.bind, pure, Except.pure]
    intro hk; simp at hk; simp [hk]
  | .coll ns ss => by
    intro hk
    simp only [GState.isKey] at hk
    have := scanAll_of_not_key e ss hk
    simp only [GState.scan, GState.scan?, this, bind, Except.bind, pure, Except.pure, Option.getD_some]
theorem scanAll_of_not_key (e : Event) : ∀ ss : List GState, GState.anyKey e ss = .ok false → GState.scanAll e ss = .ok ss
  | [] => by intro _; rfl
  | s :: ss => by
    intro hk
    simp only [GState.anyKey, bind, Except.bind] at hk
    cases h : s.isKey e with
    | error x => rw [h] at hk; cases hk
    | ok b =>
      cases b
      · rw [h] at hk
        simp only [Bool.false_eq_true, if_false] at hk
        have h1 := scan_of_not_key e s h
        have h2 := scanAll_of_not_key e ss hk
        simp only [GState.scan, bind, Except.bind, pure, Except.pure] at h1
        cases h3 : s.scan? e with
        | error x => rw [h3] at h1; cases h1
        | ok r =>
          rw [h3] at h1
          simp only [Except.ok.injEq] at h1
          simp only [GState.scanAll, h3, h2, h1, bind, Except.bind, pure, Except.pure]
      · rw [h] at hk; cases hk
end

mutual
theorem scan_of_key_error (e : Event) (x : PyErr) : ∀ s : GState, s.isKey e = .error x → s.scan? e = .error x
  | .hand p l => by
    simp only [GState.isKey, GState.scan?, bind, Except.bind, pure, Except.pure]
    cases h1 : handScan p l e with
    | error x => simp
    | ok r => cases r <;> simp
  | .invisible p l => by
    simp only [GState.isKey, GState.scan?, bind, Except.bind, pure, Except.pure]
    cases h1 : invisibleScan p l e with
    | error x => simp
    | ok r => cases r <;> simp
  | .melds p l => by
    simp only [GState.isKey, GState.scan?, meldScan, bind, Except.bind, pure, Except.pure]
    cases h : playerOpenHand p e with
    | error x => simp
    | ok b => cases b <;> simp
  | .discards p l => by simp [GState.isKey, pure, Except.pure]
  | .dora l => by simp [GState.isKey, pure, Except.pure]
  | .coll ns ss => by
    intro hk
    simp only [GState.isKey] at hk
    have := scanAll_of_key_error e x ss hk
    simp only [GState.scan?, this, bind, Except.bind]
theorem scanAll_of_key_error (e : Event) (x : PyErr) : ∀ ss : List GState, GState.anyKey e ss = .error x →
    GState.scanAll e ss = .error x
  | [] => by intro h; cases h
  | s :: ss => by
    intro hk
    simp only [GState.anyKey, bind, Except.bind] at hk
    cases h : s.isKey e with
    | error y =>
      rw [h] at hk; cases hk
      have := scan_of_key_error e _ s h
      simp only [GState.scanAll, this, bind, Except.bind]
    | ok b =>
      cases b
      · rw [h] at hk
        simp only [Bool.false_eq_true, if_false] at hk
        have h1 := scan_of_not_key e s h
        have h2 := scanAll_of_key_error e x ss hk
        simp only [GState.scan, bind, Except.bind, pure, Except.pure] at h1
        cases h3 : s.scan? e with
        | error x => rw [h3] at h1; cases h1
        | ok r => simp only [GState.scanAll, h3, h2, bind, Except.bind]
      · rw [h] at hk; cases hk
end

mutual
theorem shape_scan? (e : Event) : ∀ (s : GState) (r : Option GState), s.scan? e = .ok r → shape (r.getD s) = shape s
  | .hand p l, r => by
    simp only [GState.scan?, bind, Except.bind, pure, Except.pure]
    cases h1 : handScan p l e with
    | error x => simp
    | ok q => intro h; cases h; cases q <;> rfl
  | .melds p l, r => by
    simp only [GState.scan?, bind, Except.bind, pure, Except.pure]
    cases h1 : meldScan p l e with
    | error x => simp
    | ok q => intro h; cases h; cases q <;> rfl
  | .discards p l, r => by
    simp only [GState.scan?, bind, Except.bind, pure, Except.pure]
    cases h1 : discardScan p l e with
    | error x => simp
    | ok q => intro h; cases h; cases q <;> rfl
  | .dora l, r => by
    simp only [GState.scan?, bind, Except.bind, pure, Except.pure]
    cases h1 : doraScan l e with
    | error x => simp
    | ok q => intro h; cases h; cases q <;> rfl
  | .invisible p l, r => by
    simp only [GState.scan?, bind, Except.bind, pure, Except.pure]
    cases h1 : invisibleScan p l e with
    | error x => simp
    | ok q => intro h; cases h; cases q <;> rfl
  | .coll ns ss, r => by
    simp only [GState.scan?, bind, Except.bind, pure, Except.pure]
    cases h1 : GState.scanAll e ss with
    | error x => simp
    | ok q =>
      intro h; cases h
      simp only [Option.getD_some, shape]
      rw [shapes_scanAll e ss q h1]
theorem shapes_scanAll (e : Event) : ∀ (ss rs : List GState), GState.scanAll e ss = .ok rs → shapes rs = shapes ss
  | [], rs => by intro h; cases h; rfl
  | s :: ss, rs => by
    intro h
    simp only [GState.scanAll, bind, Except.bind, pure, Except.pure] at h
    cases h1 : s.scan? e with
    | error x => rw [h1] at h; cases h
    | ok r =>
      rw [h1] at h
      simp only at h
      cases h2 : GState.scanAll e ss with
      | error x => rw [h2] at h; cases h
      | ok q =>
        rw [h2] at h
        cases h
        simp only [shapes]
        rw [shape_scan? e s r h1, shapes_scanAll e ss q h2]
end

theorem shape_scan {e : Event} {s s' : GState} (h : s.scan e = .ok s') : shape s' = shape s := by
  unfold GState.scan at h
  cases h1 : s.scan? e with
  | error x => rw [h1] at h; cases h
  | ok r =>
    rw [h1] at h
    simp only [bind, Except.bind, pure, Except.pure, Except.ok.injEq] at h
    rw [← h]
    exact shape_scan? e s r h1

/-- scanning every event -/
def scanEvents (s : GState) (es : List Event) : Except PyErr GState := es.foldlM GState.scan s

theorem keyLoop_eq (self : GState) (es : List Event) (st : GState) (h : shape st = shape self) :
    keyLoop self st es = scanEvents st es := by
  induction es generalizing st with
  | nil => rfl
  | cons e es ih =>
    have hk : self.isKey e = st.isKey e := by rw [isKey_shape e self, isKey_shape e st, h]
    unfold scanEvents
    simp only [keyLoop, List.foldlM_cons, bind, Except.bind, hk]
    cases h1 : st.isKey e with
    | error x =>
      have := scan_of_key_error e x st h1
      simp only [GState.scan, this, bind, Except.bind]
    | ok b =>
      cases b
      · rw [scan_of_not_key e st h1]
        simp only [Bool.false_eq_true, if_false]
        exact ih st h
      · simp only [if_true]
        cases h2 : st.scan e with
        | error x => rfl
        | ok s' =>
          simp only
          exact ih s' ((shape_scan h2).trans h)

end Verif.Proofs
