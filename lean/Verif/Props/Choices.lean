import Verif.Proofs.Moves
import Verif.Proofs.NumberText
import Verif.Spec.Values

/-!
# C98: which events a player has chosen

The predicates of `TenhouPlayer` (`mahjong/record/player.py:35-64`).
-/

namespace Verif.Props
open Verif.Py Verif.Model Verif.Spec Verif.Proofs

theorem triggered_other {e : Event} {tag : Str} (p : Fin 4) (h : e.tag ≠ tag) : triggeredBy e p tag = .ok false := by
  unfold triggeredBy
  rw [if_neg h]
  rfl

theorem triggered_who {e : Event} {tag : Str} (p : Fin 4) (h : e.tag = tag) (w : Str) (k : Int) (hw : e.get "who".toList = .ok w)
    (hk : pyInt w = .ok k) : triggeredBy e p tag = .ok (decide (k = p.val)) := by
  unfold triggeredBy
  rw [if_pos h, hw]
  simp only [bind, Except.bind, hk, pure, Except.pure]

/-- the element names a player, in any spelling -/
def NamesSomebody (e : Event) : Prop := ∃ w k, e.get "who".toList = .ok w ∧ IntText w k

/-- the tag of a move that is neither a win nor a reach -/
theorem named_tag {m : Move} (hm : LegalMove m) {tag : Str} (ht : tag = "AGARI".toList ∨ tag = "REACH".toList)
    (h : m.event.tag = tag) : ∃ e, m = .other e := by
  cases m with
  | other e => exact ⟨e, rfl⟩
  | deal => rcases ht with rfl | rfl <;> exact absurd (show "INIT".toList = _ from h) (by decide +kernel)
  | meld => rcases ht with rfl | rfl <;> exact absurd (show "N".toList = _ from h) (by decide +kernel)
  | dora => rcases ht with rfl | rfl <;> exact absurd (show "DORA".toList = _ from h) (by decide +kernel)
  | draw q t =>
    have h' : some (drawLetter q) = tag.head? := congrArg List.head? (show drawLetter q :: natDigits t = tag from h)
    have hl : ∀ q : Fin 4, some (drawLetter q) ≠ "AGARI".toList.head? ∧ some (drawLetter q) ≠ "REACH".toList.head? := by decide +kernel
    rcases ht with rfl | rfl
    · exact absurd h' (hl q).1
    · exact absurd h' (hl q).2
  | discard q t =>
    have h' : some (discardLetter q) = tag.head? := congrArg List.head? (show discardLetter q :: natDigits t = tag from h)
    have hl : ∀ q : Fin 4, some (discardLetter q) ≠ "AGARI".toList.head? ∧ some (discardLetter q) ≠ "REACH".toList.head? := by decide +kernel
    rcases ht with rfl | rfl
    · exact absurd h' (hl q).1
    · exact absurd h' (hl q).2

/-- **C98.** A player draws, discards and calls in the player's own draws, discards and calls, and in no other event. -/
theorem C98_moves (p : Fin 4) (m : Move) (hm : LegalMove m) :
    (∀ t : Int, playerDraw p m.event = some t ↔ ∃ n : Nat, m = .draw p n ∧ t = n) ∧
    (∀ t : Int, playerDiscard p m.event = some t ↔ ∃ n : Nat, m = .discard p n ∧ t = n) ∧
    ∃ b, playerOpenHand p m.event = .ok b ∧ (b = true ↔ ∃ c, m = .meld p c) := by
  rw [playerDraw_move p hm, playerDiscard_move p hm, playerOpenHand_move p hm]
  refine ⟨?_, ?_, _, rfl, ?_⟩
  · intro t
    cases m with
    | draw q n =>
      by_cases h : q = p
      · subst h; simp [eq_comm]
      · simp [h]
    | _ => simp
  · intro t
    cases m with
    | discard q n =>
      by_cases h : q = p
      · subst h; simp [eq_comm]
      · simp [h]
    | _ => simp
  · cases m <;> simp

/-- **C98.** Of the events that name a player, reaches and wins, those are the player's own that name this player. -/
theorem C98_named (p : Fin 4) (m : Move) (hm : LegalMove m)
    (hw : ∀ e, m = .other e → e.tag = "AGARI".toList ∨ e.tag = "REACH".toList → NamesSomebody e) :
    (∃ b, playerReach p m.event = .ok b ∧
      (b = true ↔ ∃ e, m = .other e ∧ e.tag = "REACH".toList ∧ Who p.val e)) ∧
    ∃ b, playerWin p m.event = .ok b ∧
      (b = true ↔ ∃ e, m = .other e ∧ e.tag = "AGARI".toList ∧ Who p.val e) := by
  have key : ∀ tag : Str, (tag = "AGARI".toList ∨ tag = "REACH".toList) → ∃ b, triggeredBy m.event p tag = .ok b ∧
      (b = true ↔ ∃ e, m = .other e ∧ e.tag = tag ∧ Who p.val e) := by
    intro tag ht
    by_cases h : m.event.tag = tag
    · obtain ⟨e, rfl⟩ := named_tag hm ht h
      obtain ⟨w, k, hw', hk⟩ := hw e rfl (by rw [show e.tag = tag from h]; exact ht)
      have hk := (pyInt_iff w k).2 hk
      refine ⟨_, triggered_who p h w k hw' hk, ?_⟩
      rw [decide_eq_true_eq]
      constructor
      · rintro rfl; exact ⟨e, rfl, h, w, hw', hk⟩
      · rintro ⟨e', he, _, w', hp, hp'⟩
        cases he
        rw [hw', Except.ok.injEq] at hp
        subst hp
        rw [hk, Except.ok.injEq] at hp'
        exact hp'
    · refine ⟨false, triggered_other p h, ?_⟩
      constructor
      · intro h; cases h
      · rintro ⟨e, rfl, he, _⟩; exact absurd he h
  exact ⟨key _ (.inr rfl), key _ (.inl rfl)⟩

/-- **C98.** The player's choices are the player's discards, calls and wins; draws and reaches are none. -/
theorem C98_choice (p : Fin 4) (m : Move) (hm : LegalMove m)
    (hw : ∀ e, m = .other e → e.tag = "AGARI".toList → NamesSomebody e) :
    ∃ b, playerChoice p m.event = .ok b ∧
      (b = true ↔ (∃ t, m = .discard p t) ∨ (∃ c, m = .meld p c) ∨
        ∃ e, m = .other e ∧ e.tag = "AGARI".toList ∧ Who p.val e) := by
  obtain ⟨_, h2, o, h3, h4⟩ := C98_moves p m hm
  have hwin : ∃ b, playerWin p m.event = .ok b ∧
      (b = true ↔ ∃ e, m = .other e ∧ e.tag = "AGARI".toList ∧ Who p.val e) := by
    by_cases ht : m.event.tag = "AGARI".toList
    · obtain ⟨e, rfl⟩ := named_tag hm (.inl rfl) ht
      refine (C98_named p _ hm ?_).2
      intro e' he _
      exact hw e' he (by cases he; exact ht)
    · refine ⟨false, triggered_other p ht, ?_⟩
      constructor
      · intro h; cases h
      · rintro ⟨e, rfl, he, _⟩; exact absurd he ht
  obtain ⟨w, w1, w2⟩ := hwin
  unfold playerChoice
  cases hd : playerDiscard p m.event with
  | some t =>
    obtain ⟨n, rfl, _⟩ := (h2 t).1 hd
    exact ⟨true, rfl, by simp⟩
  | none =>
    have hnd : ¬ ∃ t, m = .discard p t := by
      rintro ⟨t, rfl⟩
      have := (h2 t).2 ⟨t, rfl, rfl⟩
      rw [hd] at this
      cases this
    simp only [Option.isSome_none, Bool.false_eq_true, if_false, h3, bind, Except.bind]
    cases o with
    | true => exact ⟨true, rfl, by simp [h4.1 rfl]⟩
    | false =>
      have hnm : ¬ ∃ c, m = .meld p c := fun h => by simpa using h4.2 h
      simp only [Bool.false_eq_true, if_false, w1]
      exact ⟨w, rfl, by rw [w2]; simp [hnd, hnm]⟩

/-- instances: a discard, a call and a win of player 1, and a draw -/
example : (playerChoice 1 (Move.discard 1 53).event).toOption = some true ∧ (playerChoice 1 (Move.meld 1 1024).event).toOption = some true ∧
    (playerChoice 1 ⟨"AGARI".toList, [("who".toList, "1".toList)]⟩).toOption = some true ∧
    (playerChoice 1 (Move.draw 1 53).event).toOption = some false ∧ LegalMove (.draw 1 53) := by
  refine ⟨by decide +kernel, by decide +kernel, by decide +kernel, by decide +kernel, trivial⟩

/-- **C98.** A reach, a call or a win that names nobody raises `KeyError`, and one whose name of a player is no number `ValueError`. -/
theorem C98_nobody (p : Fin 4) (e : Event) (x : PyErr)
    (hx : (e.attrib.lookup "who".toList = none ∧ x = .keyError) ∨
      ∃ w, e.attrib.lookup "who".toList = some w ∧ (∀ k, ¬ IntText w k) ∧ x = .valueError) :
    (e.tag = "REACH".toList → playerReach p e = .error x) ∧ (e.tag = "N".toList → playerOpenHand p e = .error x) ∧
    (e.tag = "AGARI".toList → playerWin p e = .error x ∧ playerChoice p e = .error x) := by
  have key : ∀ tag, e.tag = tag → triggeredBy e p tag = .error x := by
    intro tag ht
    unfold triggeredBy
    rw [if_pos ht]
    rcases hx with ⟨h, rfl⟩ | ⟨w, h, hk, rfl⟩
    · simp only [Event.get, h, bind, Except.bind]
    · simp only [Event.get, h, bind, Except.bind, (int_refused w).2 hk]
  refine ⟨key _, key _, fun ht => ⟨key _ ht, ?_⟩⟩
  unfold playerChoice
  have hd : playerDiscard p e = none := by
    unfold playerDiscard
    rw [ht]
    clear key
    revert p
    decide +kernel
  rw [hd]
  simp only [Option.isSome_none, Bool.false_eq_true, if_false, playerOpenHand, bind, Except.bind]
  rw [triggered_other p (by rw [ht]; decide +kernel)]
  exact key _ ht

/-- a win that names nobody is an exception -/
example : (match playerChoice 1 ⟨"AGARI".toList, []⟩ with | .error e => some e | .ok _ => none) = some .keyError := by decide +kernel

example : (⟨"AGARI".toList, []⟩ : Event).attrib.lookup "who".toList = none ∧ ∀ k, ¬ IntText "one".toList k :=
  ⟨rfl, (int_refused _).1 (by decide +kernel)⟩

example : NamesSomebody ⟨"AGARI".toList, [("who".toList, " 1".toList)]⟩ := ⟨_, 1, rfl, (pyInt_iff _ _).1 (by decide +kernel)⟩

end Verif.Props
