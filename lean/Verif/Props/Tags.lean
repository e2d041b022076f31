import Verif.Proofs.Effects2
import Verif.Proofs.Paifu
import Verif.Proofs.TranslateScore2
import Verif.Props.Describe

/-!
C80: which elements of a record count as draws and discards.
-/
namespace Verif.Props
open Verif.Py Verif.Model Verif.Spec Verif.Proofs

/-- **C80.** The tile a draw or a discard is about: an element is a draw (a discard) of tile `n` exactly if its tag is one
    of the four letters and the number `n`. -/
theorem C80_values (e : Event) (n : Int) :
    (drawValue e = some n ↔ ∃ (k : Nat) (c : Char), n = k ∧ Numbered "TUVW" e.tag c k) ∧
    (discardValue e = some n ↔ ∃ (k : Nat) (c : Char), n = k ∧ Numbered "DEFG" e.tag c k) := by
  have key : ∀ letters : String, (wholeNumber letters.toList e.tag).map (fun r => r.2) = some n ↔
      ∃ (k : Nat) (c : Char), n = k ∧ Numbered letters e.tag c k := by
    intro letters
    rw [Option.map_eq_some_iff]
    constructor
    · rintro ⟨⟨c, m⟩, h, rfl⟩
      obtain ⟨k, a, b⟩ := (wholeNumber_iff letters e.tag c m).1 h
      exact ⟨k, c, a, b⟩
    · rintro ⟨k, c, a, b⟩
      exact ⟨(c, n), (wholeNumber_iff letters e.tag c n).2 ⟨k, a, b⟩, rfl⟩
  exact ⟨key "TUVW", key "DEFG"⟩

/-- **C80.** For a player's own hand an element is a draw (a discard) of tile `n` exactly if its tag begins with the player's
    letter and the number `n`. -/
theorem C80_hand (p : Fin 4) (e : Event) (n : Int) :
    (playerDraw p e = some n ↔ ∃ k : Nat, n = k ∧ Begins ("TUVW".toList.getD p.val ' ') e.tag k) ∧
    (playerDiscard p e = some n ↔ ∃ k : Nat, n = k ∧ Begins ("DEFG".toList.getD p.val ' ') e.tag k) :=
  ⟨prefixNumber_iff _ _ _, prefixNumber_iff _ _ _⟩

/-- **C80.** How the number is written makes no difference: every reader treats an element whose tag is the letter `c` and
    the number `n`, with zeros in front, attributes or a newline, like the plain element. -/
theorem C80_same (letters : String) (hl : letters = "TUVW" ∨ letters = "DEFG") (e : Event) (c : Char) (n : Nat)
    (h : Numbered letters e.tag c n) :
    (∀ i, (TEvent.make i e).toOption.isSome = (TEvent.make i ⟨c :: natDigits n, []⟩).toOption.isSome) ∧
    (∀ iter, baseText iter e = baseText iter ⟨c :: natDigits n, []⟩) ∧
    (∀ iter, eventRows iter e = eventRows iter ⟨c :: natDigits n, []⟩) ∧
    (∀ strict ctx i, callTranslator strict ctx ⟨i, e⟩ = callTranslator strict ctx ⟨i, ⟨c :: natDigits n, []⟩⟩) := by
  have h' : Numbered letters (c :: natDigits n) c n := numbered_natDigits h.1 n
  have w : ∀ l' : String, (l' = "TUVW" ∨ l' = "DEFG") →
      wholeNumber l'.toList e.tag = wholeNumber l'.toList (c :: natDigits n) := by
    intro l' hl'
    by_cases e' : l' = letters
    · subst e'
      rw [(wholeNumber_iff _ _ c n).2 ⟨n, rfl, h⟩, (wholeNumber_iff _ _ c n).2 ⟨n, rfl, h'⟩]
    · have hc : c ∉ l'.toList := by
        have := h.1
        rcases hl with rfl | rfl <;> rcases hl' with rfl | rfl
        · exact (e' rfl).elim
        · simp at this ⊢; rcases this with rfl | rfl | rfl | rfl <;> decide
        · simp at this ⊢; rcases this with rfl | rfl | rfl | rfl <;> decide
        · exact (e' rfl).elim
      obtain ⟨d, r, e1, _⟩ := numbered_second h
      rw [e1]
      simp [wholeNumber, hc]
  have w1 : wholeNumber DRAW_INDICATOR e.tag = wholeNumber DRAW_INDICATOR (c :: natDigits n) := w "TUVW" (.inl rfl)
  have w2 : wholeNumber DISCARD_INDICATOR e.tag = wholeNumber DISCARD_INDICATOR (c :: natDigits n) := w "DEFG" (.inr rfl)
  have n1 := numbered_not_named h
  have n2 := numbered_not_named h'
  refine ⟨?_, ?_, ?_, ?_⟩
  · intro i
    unfold TEvent.make
    rw [w1, w2]
    cases wholeNumber DRAW_INDICATOR (c :: natDigits n) with
    | none =>
      cases wholeNumber DISCARD_INDICATOR (c :: natDigits n) with
      | none => rfl
      | some r => simp only [bind, Except.bind, pure, Except.pure]; cases discard (tileFromTenhou r.2) <;> rfl
    | some r =>
      cases wholeNumber DISCARD_INDICATOR (c :: natDigits n) with
      | none => simp only [bind, Except.bind, pure, Except.pure]; cases discard (tileFromTenhou r.2) <;> rfl
      | some r' =>
        simp only [bind, Except.bind, pure, Except.pure]
        cases discard (tileFromTenhou r.2) <;> cases discard (tileFromTenhou r'.2) <;> rfl
  · intro iter
    have o1 : ∀ e' : Event, (∀ s ∈ ["INIT", "N", "GO", "TAIKYOKU", "UN", "DORA", "REACH", "AGARI", "SHUFFLE", "BYE", "RYUUKYOKU"],
        e'.tag ≠ s.toList) → otherText iter e' = .ok "UNPARSED".toList := by
      intro e' hn
      unfold otherText
      rw [show isOpenHand e' = false from decide_eq_false (hn _ (by simp)),
        show isRichii e' = false from decide_eq_false (hn _ (by simp)),
        show isDora e' = false from decide_eq_false (hn _ (by simp)),
        show isSomebodyWin e' = false from decide_eq_false (hn _ (by simp)),
        show isNobodyWin e' = false from decide_eq_false (hn _ (by simp))]
      rfl
    unfold baseText
    rw [o1 e n1, o1 ⟨c :: natDigits n, []⟩ n2]
    unfold rowTileChange
    rw [w1, w2]
  · intro iter
    have o1 : ∀ e' : Event, (∀ s ∈ ["INIT", "N", "GO", "TAIKYOKU", "UN", "DORA", "REACH", "AGARI", "SHUFFLE", "BYE", "RYUUKYOKU"],
        e'.tag ≠ s.toList) → lateRows e' = .ok [] := by
      intro e' hn
      unfold lateRows
      rw [show isDora e' = false from decide_eq_false (hn _ (by simp)),
        show isSomebodyWin e' = false from decide_eq_false (hn _ (by simp)),
        show isNobodyWin e' = false from decide_eq_false (hn _ (by simp))]
      rfl
    unfold eventRows
    rw [if_neg (n1 "INIT" (by simp)), if_neg (n2 "INIT" (by simp)), o1 e n1, o1 ⟨c :: natDigits n, []⟩ n2,
      show isOpenHand e = false from decide_eq_false (n1 "N" (by simp)),
      show isOpenHand ⟨c :: natDigits n, []⟩ = false from decide_eq_false (n2 "N" (by simp)),
      show isRichii e = false from decide_eq_false (n1 "REACH" (by simp)),
      show isRichii ⟨c :: natDigits n, []⟩ = false from decide_eq_false (n2 "REACH" (by simp))]
    unfold rowTileChange
    rw [w1, w2]
    rfl
  · intro strict ctx i
    unfold callTranslator generate
    rw [translateNamed_other n1, translateNamed_other (e := ⟨c :: natDigits n, []⟩) n2]
    unfold drawCommand discardCommand tileChange
    simp only [w1, w2]

/-- **C80.** An element that is neither a draw nor a discard in this sense and has no other tag the readers know changes
    nothing anywhere: it is described as unknown, has no rows and gives no commands (in strict mode: a ValueError). -/
theorem C80_others (e : Event) (h1 : ∀ c n, ¬ Numbered "TUVW" e.tag c n) (h2 : ∀ c n, ¬ Numbered "DEFG" e.tag c n)
    (hn : ∀ s ∈ ["INIT", "N", "GO", "TAIKYOKU", "UN", "DORA", "REACH", "AGARI", "SHUFFLE", "BYE", "RYUUKYOKU"],
      e.tag ≠ s.toList) :
    (∀ i, TEvent.make i e = .ok ⟨i, e⟩) ∧ (∀ iter, baseText iter e = .ok "UNPARSED".toList) ∧
    (∀ iter, eventRows iter e = .ok []) ∧
    (∀ ctx i, callTranslator false ctx ⟨i, e⟩ = .ok (ctx, [])) ∧
    (∀ ctx i, callTranslator true ctx ⟨i, e⟩ = .error .valueError) := by
  have w1 : wholeNumber DRAW_INDICATOR e.tag = none := wholeNumber_none h1
  have w2 : wholeNumber DISCARD_INDICATOR e.tag = none := wholeNumber_none h2
  refine ⟨?_, ?_, ?_, ?_, ?_⟩
  · intro i
    unfold TEvent.make
    rw [w1, w2]; rfl
  · intro iter
    refine C77_unparsed iter e h1 h2 ?_
    simp only [List.mem_cons, List.not_mem_nil, or_false, not_or]
    exact ⟨hn "N" (by simp), hn "REACH" (by simp), hn "DORA" (by simp), hn "AGARI" (by simp), hn "RYUUKYOKU" (by simp)⟩
  · intro iter
    unfold eventRows lateRows
    rw [if_neg (hn "INIT" (by simp)), rowTileChange_quiet w1, rowTileChange_quiet w2,
      show isOpenHand e = false from decide_eq_false (hn "N" (by simp)),
      show isRichii e = false from decide_eq_false (hn "REACH" (by simp)),
      show isDora e = false from decide_eq_false (hn _ (by simp)),
      show isSomebodyWin e = false from decide_eq_false (hn _ (by simp)),
      show isNobodyWin e = false from decide_eq_false (hn _ (by simp))]
    rfl
  · intro ctx i
    unfold callTranslator generate
    rw [translateNamed_other hn]
    unfold drawCommand discardCommand tileChange
    simp only [w1, w2]; rfl
  · intro ctx i
    unfold callTranslator generate
    rw [translateNamed_other hn]
    unfold drawCommand discardCommand tileChange
    simp only [w1, w2]; rfl

theorem begins_of_numbered {letters : String} {tag : Str} {c : Char} {n : Nat} (h : Numbered letters tag c n) :
    Begins c tag n := by
  obtain ⟨_, ds, hd, e, h⟩ := h
  rcases h with rfl | rfl
  · exact ⟨ds, [], hd, e, by simp, by simp⟩
  · exact ⟨ds, ['\n'], hd, e, rfl, by intro d r e; cases e; decide⟩

/-- **C80.** The two readings differ: what all readers take for a draw or discard, the hand of its player does too, but the
    hand also moves at tags with something behind the number, where nothing else does. -/
theorem C80_disagree :
    (∀ (e : Event) (p : Fin 4) (n : Nat), Numbered "TUVW" e.tag ("TUVW".toList.getD p.val ' ') n →
      playerDraw p e = some (n : Int)) ∧
    (∀ (e : Event) (p : Fin 4) (n : Nat), Numbered "DEFG" e.tag ("DEFG".toList.getD p.val ' ') n →
      playerDiscard p e = some (n : Int)) ∧
    (∀ (p : Fin 4) (n : Nat) (a : List (Str × Str)),
      playerDiscard p ⟨"DEFG".toList.getD p.val ' ' :: natDigits n ++ "x".toList, a⟩ = some (n : Int) ∧
      discardValue ⟨"DEFG".toList.getD p.val ' ' :: natDigits n ++ "x".toList, a⟩ = none ∧
      ∀ ctx i, callTranslator false ctx ⟨i, ⟨"DEFG".toList.getD p.val ' ' :: natDigits n ++ "x".toList, a⟩⟩ = .ok (ctx, [])) := by
  refine ⟨fun e p n h => (C80_hand p e n).1.2 ⟨n, rfl, begins_of_numbered h⟩,
    fun e p n h => (C80_hand p e n).2.2 ⟨n, rfl, begins_of_numbered h⟩, ?_⟩
  intro p n a
  obtain ⟨hd, hv⟩ := decimal_natDigits n
  have hno : ∀ letters c k, ¬ Numbered letters ("DEFG".toList.getD p.val ' ' :: natDigits n ++ "x".toList) c k := by
    intro letters c k h
    obtain ⟨_, ds, ⟨_, hd'⟩, _, h⟩ := h
    rcases h with h | h
    · simp only [List.cons_append, List.cons.injEq] at h
      have : 'x' ∈ ds := by rw [← h.2]; simp
      exact absurd (hd' _ this) (by decide)
    · exact absurd (List.append_inj' h rfl).2 (by decide)
  refine ⟨(C80_hand p _ n).2.2 ⟨n, rfl, natDigits n, "x".toList, hd, hv, rfl, by intro d r e; cases e; decide⟩, ?_, ?_⟩
  · cases h : discardValue ⟨"DEFG".toList.getD p.val ' ' :: natDigits n ++ "x".toList, a⟩ with
    | none => rfl
    | some m =>
      obtain ⟨k, c, _, h⟩ := (C80_values _ m).2.1 h
      exact (hno _ _ _ h).elim
  · intro ctx i
    refine (C80_others _ (hno _) (hno _) ?_).2.2.2.1 ctx i
    intro s hs e
    have : ∀ s ∈ ["INIT", "N", "GO", "TAIKYOKU", "UN", "DORA", "REACH", "AGARI", "SHUFFLE", "BYE", "RYUUKYOKU"],
        'x' ∉ s.toList := by decide
    refine this s hs ?_
    simp only at e
    rw [← e]
    simp

-- a draw written with zeros and a newline
example : Numbered "TUVW" "U007\n".toList 'U' 7 ∧ drawValue ⟨"U007\n".toList, []⟩ = some 7 := by
  refine ⟨⟨by decide, "007".toList, ⟨by decide, by decide⟩, by decide, .inr rfl⟩, by decide⟩
-- the tag of no move
example : (∀ c n, ¬ Numbered "TUVW" "DORAS".toList c n) := by
  intro c n h
  obtain ⟨d, r, e, h1, h2⟩ := numbered_second h
  cases e
  revert h1 h2; decide

end Verif.Props
