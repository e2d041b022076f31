import Verif.Proofs.StateFold2

/-! A check that a concrete sequence of moves is consistent for a player. -/
namespace Verif.Proofs
open Verif.Py Verif.Model Verif.Spec

theorem held_snoc (p : Fin 4) (t : Int) (ms : List Move) (m : Move) :
    Held p t (ms ++ [m]) ↔ Gains p t m ∨ (Held p t ms ∧ ¬ Loses p t m) := by
  constructor
  · rintro ⟨pre, x, post, he, hg, hl⟩
    rcases List.eq_nil_or_concat post with rfl | ⟨post', y, rfl⟩
    · have := List.append_inj_right' he (by simp)
      simp only [List.cons.injEq, and_true] at this
      subst this
      exact Or.inl hg
    · rw [List.concat_eq_append, show pre ++ x :: (post' ++ [y]) = (pre ++ x :: post') ++ [y] by simp] at he
      have h1 := List.append_inj_left' he (by simp)
      have h2 := List.append_inj_right' he (by simp)
      simp only [List.cons.injEq, and_true] at h2
      subst h2
      exact Or.inr ⟨⟨pre, x, post', h1, hg, fun z hz => hl z (by simp [hz])⟩, hl m (by simp)⟩
  · rintro (hg | ⟨⟨pre, x, post, he, hg, hl⟩, hn⟩)
    · exact ⟨ms, m, [], by simp, hg, by simp⟩
    · refine ⟨pre, x, post ++ [m], by rw [he]; simp, hg, ?_⟩
      intro y hy
      rcases List.mem_append.1 hy with h | h
      · exact hl y h
      · simp at h; subst h; exact hn

/-- own tiles of a meld code -/
def ownT (q : Fin 4) (c : Nat) : List Int := match meldOf q.val c with | .ok x => x.selfTiles | .error _ => []

theorem ownT_iff (q : Fin 4) (c : Nat) (t : Int) : IsOwnTile q c t ↔ t ∈ ownT q c := by
  unfold IsOwnTile ownT
  cases meldOf q.val c with
  | ok x => simp
  | error e => simp

def heldAfter (p : Fin 4) (l : List Int) : Move → List Int
  | .deal _ h _ => h p
  | .draw q n => if q = p then (n : Int) :: l else l
  | .discard q n => if q = p then l.filter (fun y => decide (y ≠ n)) else l
  | .meld q c => if q = p then l.filter (fun y => decide (y ∉ ownT q c)) else l
  | _ => l

theorem heldAfter_iff (p : Fin 4) (l : List Int) (m : Move) (t : Int) :
    t ∈ heldAfter p l m ↔ Gains p t m ∨ (t ∈ l ∧ ¬ Loses p t m) := by
  cases m with
  | deal s h more =>
    simp only [heldAfter, Gains, Loses]
    by_cases ht : t ∈ h p <;> simp [ht]
  | draw q n =>
    simp only [heldAfter, Gains, Loses]
    by_cases hq : q = p
    · rw [if_pos hq]; grind
    · rw [if_neg hq]; grind
  | discard q n =>
    simp only [heldAfter, Gains, Loses]
    by_cases hq : q = p
    · rw [if_pos hq, List.mem_filter, decide_eq_true_eq]; grind
    · rw [if_neg hq]; grind
  | meld q c =>
    simp only [heldAfter, Gains, Loses, ownT_iff]
    by_cases hq : q = p
    · simp [hq]
    · simp [hq]
  | dora n => simp [heldAfter, Gains, Loses]
  | other e => simp [heldAfter, Gains, Loses]

def okMove (p : Fin 4) (l : List Int) : Move → Bool
  | .draw q n => !(decide (q = p) && decide ((n : Int) ∈ l))
  | .discard q n => !decide (q = p) || decide ((n : Int) ∈ l)
  | .meld q c => !decide (q = p) || (ownT q c).all (fun t => decide (t ∈ l))
  | _ => true

def checkConsistent (p : Fin 4) : List Int → List Move → Bool
  | _, [] => true
  | l, m :: ms => okMove p l m && checkConsistent p (heldAfter p l m) ms

theorem consistent_of_check (p : Fin 4) (ms : List Move) (h : checkConsistent p [] ms = true) : Consistent p ms := by
  have gen : ∀ (ms : List Move) (pre : List Move) (l : List Int), (∀ t, t ∈ l ↔ Held p t pre) →
      checkConsistent p l ms = true → ∀ a m b, ms = a ++ m :: b →
      (∀ n : Nat, m = .draw p n → ¬ Held p n (pre ++ a)) ∧ (∀ n : Nat, m = .discard p n → Held p n (pre ++ a)) ∧
      (∀ c t, m = .meld p c → IsOwnTile p c t → Held p t (pre ++ a)) := by
    intro ms
    induction ms with
    | nil => intro pre l _ _ a m b he; simp at he
    | cons x ms ih =>
      intro pre l hl hc a m b he
      simp only [checkConsistent, Bool.and_eq_true] at hc
      obtain ⟨h1, h2⟩ := hc
      cases a with
      | nil =>
        simp only [List.nil_append, List.cons.injEq] at he
        obtain ⟨rfl, rfl⟩ := he
        rw [List.append_nil]
        refine ⟨?_, ?_, ?_⟩
        · rintro n rfl hh
          simp only [okMove, Bool.not_eq_true', decide_true, Bool.true_and, decide_eq_false_iff_not] at h1
          exact h1 ((hl _).2 hh)
        · rintro n rfl
          simp only [okMove, decide_true, Bool.not_true, Bool.false_or, decide_eq_true_eq] at h1
          exact (hl _).1 h1
        · rintro c t rfl ho
          simp only [okMove, decide_true, Bool.not_true, Bool.false_or, List.all_eq_true, decide_eq_true_eq] at h1
          exact (hl _).1 (h1 t ((ownT_iff _ _ _).1 ho))
      | cons y a =>
        simp only [List.cons_append, List.cons.injEq] at he
        obtain ⟨rfl, rfl⟩ := he
        have := ih (pre ++ [x]) (heldAfter p l x) (fun t => by rw [heldAfter_iff, held_snoc, hl]) h2 a m b rfl
        simpa using this
  intro pre m post he
  have := gen ms [] [] (fun t => by simp [Held]) h pre m post he
  simpa using this

end Verif.Proofs
