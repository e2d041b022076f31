import Verif.Proofs.CheckerLoop
import Verif.Spec.Report
import Verif.Props.State

/-! From the loop over the events to the list of discards. -/
namespace Verif.Proofs
open Verif.Py Verif.Model Verif.Spec Verif.Props

/-- the discard of `p`, if the move is one -/
def ownDiscard (p : Fin 4) : Move → Option Nat
  | .discard q t => if q = p then some t else none
  | _ => none

/-- the points, collected in one pass -/
def pointsFrom (p : Fin 4) : List Move → List Move → List (List Move × Nat)
  | _, [] => []
  | pre, m :: ms =>
    match ownDiscard p m with
    | some t => (pre, t) :: pointsFrom p (pre ++ [m]) ms
    | none => pointsFrom p (pre ++ [m]) ms

theorem points_eq (p : Fin 4) (ms pre : List Move) :
    (List.range ms.length).filterMap (fun (i : Nat) => (ms[i]?.bind (ownDiscard p)).map (fun t => (pre ++ ms.take i, t))) =
      pointsFrom p pre ms := by
  induction ms generalizing pre with
  | nil => rfl
  | cons m ms ih =>
    rw [List.length_cons, List.range_succ_eq_map, List.filterMap_cons, List.filterMap_map]
    have hrest : (List.range ms.length).filterMap ((fun (i : Nat) => ((m :: ms)[i]?.bind (ownDiscard p)).map
        (fun t => (pre ++ (m :: ms).take i, t))) ∘ Nat.succ) = pointsFrom p (pre ++ [m]) ms := by
      rw [← ih (pre ++ [m])]
      congr 1
      funext i
      simp [Function.comp, List.getElem?_cons_succ]
    rw [hrest]
    simp only [List.getElem?_cons_zero, Option.bind_some, List.take_zero, List.append_nil]
    cases h : ownDiscard p m <;> simp [pointsFrom, h]

theorem discardPoints_eq (p : Fin 4) (ms : List Move) : discardPoints p ms = pointsFrom p [] ms := by
  rw [← points_eq]
  unfold discardPoints
  congr 1
  funext i
  cases h : ms[i]? with
  | none => rfl
  | some m => cases m <;> simp [ownDiscard] <;> split <;> rfl

theorem ownDiscard_event (p : Fin 4) {m : Move} (hm : LegalMove m) :
    playerDiscard p m.event = (ownDiscard p m).map (fun t : Nat => (t : Int)) := by
  rw [playerDiscard_move p hm]
  cases m <;> simp [ownDiscard]

/-- the states at the start -/
def startStates (p : Fin 4) (four : Bool) : CheckStates := ⟨.hand p [], .invisible four (initialInvisible four), .melds p []⟩

theorem reportAt_eq {iter : List Int → List Int} {p : Fin 4} {four : Bool} {pre : List Move} {s : CheckStates}
    (h : (startStates p four).pass (pre.map Move.event) = .ok s) (t : Nat) :
    reportAt iter p four (pre, t) = (do
      let r ← inGenerator (discardReasoning iter p (Move.discard p t).event (handValue s.hand) (invisibleValue s.invisible)
        (meldsValue s.melds))
      pure { r with somebodyRichii := pre.any (fun m => decide (m.event.tag = "REACH".toList)) }) := by
  obtain ⟨h1, h2, h3⟩ := (pass_ok_iff _ _ _).1 h
  unfold reportAt
  simp only [startStates] at h1 h2 h3
  simp only [h1, h2, h3, bind, Except.bind]

theorem loop1_points (iter : List Int → List Int) (p : Fin 4) (four : Bool) (ms : List Move) :
    ∀ (pre : List Move) (s : CheckStates), (∀ m ∈ ms, LegalMove m) →
      (startStates p four).pass (pre.map Move.event) = .ok s → AllPass s (ms.map Move.event) →
      loop1 iter p (pre.any (fun m => decide (m.event.tag = "REACH".toList))) s (ms.map Move.event) =
        (pointsFrom p pre ms).mapM (reportAt iter p four) := by
  induction ms with
  | nil => intro pre s _ _ _; rfl
  | cons m ms ih =>
    intro pre s hm hs hp
    rw [List.map_cons] at hp ⊢
    obtain ⟨s1, hs1⟩ := hp.head
    have hs' : (startStates p four).pass ((pre ++ [m]).map Move.event) = .ok s1 := by
      rw [List.map_append]
      exact (pass_append hs s1).2 hs1
    have ih1 := ih (pre ++ [m]) s1 (fun x hx => hm x (by simp [hx])) hs' (hp.tail hs1)
    have hany : (pre ++ [m]).any (fun m => decide (m.event.tag = "REACH".toList)) =
        (pre.any (fun m => decide (m.event.tag = "REACH".toList)) || isRichii m.event) := by
      rw [List.any_append]; simp [isRichii]
    rw [hany] at ih1
    have hdisc := ownDiscard_event p (hm m (by simp))
    simp only [loop1, yield1, pointsFrom, hs1]
    cases ho : ownDiscard p m with
    | none =>
      rw [ho] at hdisc
      simp only [hdisc, Option.map_none, Option.isSome_none, Bool.false_eq_true, if_false, bind, pure, Except.pure]
      simp only [Except.bind, List.nil_append]
      rw [ih1]
      generalize (pointsFrom p (pre ++ [m]) ms).mapM (reportAt iter p four) = x
      cases x <;> rfl
    | some t =>
      rw [ho] at hdisc
      have hm' : m = .discard p t := by
        cases m <;> simp [ownDiscard] at ho
        obtain ⟨h1, h2⟩ := ho
        rw [h1, h2]
      have hrich : isRichii m.event = false := by
        rw [hm']
        have : ∀ q : Fin 4, discardLetter q ≠ 'R' := by decide
        unfold isRichii Move.event
        simp only [decide_eq_false_iff_not]
        intro h
        have := this p
        simp only [String.toList] at h
        injection h with h _
        exact this h
      simp only [hdisc, Option.map_some, Option.isSome_some, if_true, List.mapM_cons]
      rw [hrich, Bool.or_false] at ih1
      rw [reportAt_eq hs, hrich, Bool.or_false, ← hm']
      simp only [bind, Except.bind, pure, Except.pure]
      generalize inGenerator (discardReasoning iter p m.event (handValue s.hand) (invisibleValue s.invisible)
        (meldsValue s.melds)) = x
      cases x with
      | error e => rfl
      | ok r =>
        simp only
        rw [ih1]
        generalize (pointsFrom p (pre ++ [m]) ms).mapM (reportAt iter p four) = y
        cases y <;> rfl

theorem pass_states {p : Fin 4} {four : Bool} {ms : List Move} {a b c : GState}
    (h1 : (GState.hand p []).passedEvents (ms.map Move.event) = .ok a)
    (h2 : (GState.invisible four (initialInvisible four)).passedEvents (ms.map Move.event) = .ok b)
    (h3 : (GState.melds p []).passedEvents (ms.map Move.event) = .ok c) :
    (startStates p four).pass (ms.map Move.event) = .ok ⟨a, b, c⟩ := (pass_ok_iff _ _ _).2 ⟨h1, h2, h3⟩

theorem allPass_game (p : Fin 4) (four : Bool) (seed : List Int) (hands : Fin 4 → List Int) (more : List (Str × Str))
    (ms : List Move) (hm : ∀ m ∈ Move.deal seed hands more :: ms, LegalFor p m) (hd : ∀ m ∈ ms, m.isDeal = false) :
    AllPass (startStates p four) ((Move.deal seed hands more :: ms).map Move.event) := by
  intro pre post h
  cases pre with
  | nil => exact ⟨startStates p four, by rw [pass_ok_iff]; exact ⟨rfl, rfl, rfl⟩⟩
  | cons e pre =>
    obtain ⟨l1, l2, h1, h2, h3⟩ := List.map_eq_append_iff.1 h
    cases l1 with
    | nil => cases h2
    | cons x l1 =>
      simp only [List.cons_append] at h1
      injection h1 with h1 h1'
      subst h1
      have hm1 : ∀ m ∈ Move.deal seed hands more :: l1, LegalFor p m := by
        intro m hm'
        apply hm
        simp only [List.mem_cons] at hm' ⊢
        rcases hm' with rfl | hm'
        · exact Or.inl rfl
        · right; rw [h1']; simp [hm']
      have hd1 : ∀ m ∈ l1, m.isDeal = false := fun m hm' => hd m (by rw [h1']; simp [hm'])
      obtain ⟨a, a1, _⟩ := C32_hand p [] List.nodup_nil _ hm1
      obtain ⟨b, b1, _⟩ := C33_invisible four (initialInvisible four) seed hands more l1 (fun m hm => (hm1 m hm).1) hd1
      have c1 := C34_melds p [] seed hands more l1 (fun m hm => (hm1 m hm).1) hd1
      rw [← h2]
      exact ⟨_, pass_states a1 b1 c1⟩

end Verif.Proofs
