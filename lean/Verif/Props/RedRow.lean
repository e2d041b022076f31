import Verif.Props.Pages

/-! A hand with a red five, as in the statements about pages: three kans, 4s, the red 5s, 6s, 6m and 2z. -/
namespace Verif.Props
open Verif.Py Verif.Model Verif.Spec Verif.Spec.Html Verif.Proofs

def redMoves : List Move :=
  [.draw 1 88, .meld 1 1024, .dora 108, .draw 1 86, .meld 1 2048, .draw 1 94, .meld 1 3072, .draw 1 112, .discard 1 112, .draw 2 60, .discard 2 60]

def redPlay : Play :=
  ⟨[0, 0, 0, 2, 3, 132], pageHands, [("oya".toList, "1".toList), ("ten".toList, "250,250,250,250".toList)], redMoves⟩

theorem red_fair : redPlay.Fair 1 := by
  have hmeld : ∀ c ∈ [1024, 2048, 3072], ∃ m, meldOf (1 : Fin 4).val c = .ok m := by
    have key : ∀ c ∈ [1024, 2048, 3072], (meldOf (1 : Fin 4).val c).toOption.isSome = true := by decide +kernel
    intro c hc
    have := key c hc
    cases hm : meldOf (1 : Fin 4).val c with
    | error x => rw [hm] at this; cases this
    | ok m => exact ⟨m, rfl⟩
  refine ⟨?_, ?_, ?_, ?_, ?_, ?_⟩
  · intro m hm
    rcases List.mem_cons.1 hm with rfl | hm
    · show _ ≠ []
      simp [redPlay]
    · simp only [redPlay, redMoves, List.mem_cons, List.not_mem_nil, or_false] at hm
      rcases hm with rfl | rfl | rfl | rfl | rfl | rfl | rfl | rfl | rfl | rfl | rfl <;> first | trivial | exact hmeld _ (by decide)
  · intro m hm
    simp only [redPlay, redMoves, List.mem_cons, List.not_mem_nil, or_false] at hm
    rcases hm with rfl | rfl | rfl | rfl | rfl | rfl | rfl | rfl | rfl | rfl | rfl <;> rfl
  · refine ⟨by decide, by decide, ?_⟩
    unfold IsTileNumber
    decide
  · intro n hn
    simp only [redPlay, redMoves, List.mem_cons, List.not_mem_nil, or_false] at hn
    rcases hn with h | h | h | h | h | h | h | h | h | h | h <;> first | (cases h; decide) | cases h
  · apply consistent_of_check
    decide +kernel
  · apply inTurn_of_check
    decide +kernel

theorem red_hand (n : Int) : n ∈ [20, 88, 86, 94, 112] ↔ Held 1 n (redPlay.deal :: redMoves.take 8) := by
  obtain ⟨l, l1, l2, l3⟩ := C32_after_deal 1 [] List.nodup_nil redPlay.seed pageHands redPlay.more (redMoves.take 8)
    (fun m hm => fair_legalFor red_fair m (by
      rcases List.mem_cons.1 hm with h | h
      · rw [h]; exact List.mem_cons_self ..
      · exact List.mem_cons_of_mem _ (List.mem_of_mem_take h)))
  have hv : ((GState.hand 1 []).passedEvents ((redPlay.deal :: redMoves.take 8).map Move.event)).toOption.map handValue =
      some [20, 88, 86, 94, 112] := by decide +kernel
  rw [show (GState.hand 1 []).passedEvents ((redPlay.deal :: redMoves.take 8).map Move.event) = _ from l1] at hv
  simp only [Except.toOption, Option.map_some, handValue, Option.some.injEq] at hv
  subst hv
  exact l3 n

theorem red_analysis : (analyse id [20, 88, 86, 94, 112] [] (finalMelds (meldsOf 1 (redMoves.take 8)))).toOption.map
    (fun a => a.merged.map (fun x => (x.discard.view, x.useful.map Tile.view))) =
    some [((.z, 2), [(.m, 6)]), ((.m, 6), [(.z, 2)])] := by decide +kernel

/-- the red five is held, and no five of bamboos is useful: the discards to compare are 2z and 6m, and the other one is useful -/
example : RedHeld 1 (redPlay.deal :: redMoves.take 8) (.s, 5) ∧ NoRedUseful 1 (redPlay.deal :: redMoves.take 8) ∧
    AllCompared 1 (redPlay.deal :: redMoves.take 8) := by
  have hopen : 1 ≤ meldCount (finalMelds (meldsOf 1 (redMoves.take 8))) := by decide +kernel
  have hk := handKinds_eq (p := 1) (game := redPlay.deal :: redMoves.take 8) (by decide) red_hand
  refine ⟨⟨88, (red_hand 88).1 (by decide), .inr (.inr ⟨rfl, rfl⟩)⟩, ?_, .inl hopen⟩
  intro e he k hkeep u hu hred
  have hr := red_analysis
  cases ha : analyse id [20, 88, 86, 94, 112] [] (finalMelds (meldsOf 1 (redMoves.take 8))) with
  | error x => rw [ha] at hr; cases hr
  | ok a =>
    rw [ha] at hr
    simp only [Except.toOption, Option.map_some, Option.some.injEq] at hr
    obtain ⟨nn, q1, q2, q3⟩ := open_right (fun l => List.Perm.refl l) (by decide) hopen ha
    rw [hk] at q1 q2 q3
    have hen : e = nn := by
      obtain ⟨⟨w, hw, a1⟩, a2⟩ := he
      obtain ⟨⟨w', hw', b1⟩, b2⟩ := q1
      have := a2 w' hw' nn b1
      have := b2 w hw e a1
      omega
    subst hen
    obtain ⟨x, hx, rfl⟩ := List.mem_map.1 (q3 k hkeep)
    have hxu := ((q2.2 x hx).2.2.2 u).2 hu
    have hin : (x.discard.view, x.useful.map Tile.view) ∈ [(((.z, 2) : Kind), [((.m, 6) : Kind)]), ((.m, 6), [(.z, 2)])] := by
      rw [← hr]
      exact List.mem_map.2 ⟨x, hx, rfl⟩
    have hu' : u = (.m, 6) ∨ u = (.z, 2) := by
      simp only [List.mem_cons, List.not_mem_nil, or_false, Prod.mk.injEq] at hin
      rcases hin with ⟨_, h⟩ | ⟨_, h⟩ <;> rw [h] at hxu <;> simp only [List.mem_cons, List.not_mem_nil, or_false] at hxu
      · exact .inl hxu
      · exact .inr hxu
    obtain ⟨n, _, hn⟩ := hred
    rcases hu' with rfl | rfl <;> rcases hn with ⟨_, h⟩ | ⟨_, h⟩ | ⟨_, h⟩ <;> cases h

/-- the same hand as an instance of `C55_report` and `C62_open`: the red 5s is in the hand, the useful kinds shown are 6m and 2z -/
example : RedIn [20, 88, 86, 94, 112] (.s, 5) ∧
    (discardReasoning id 1 (Move.discard 1 112).event [20, 88, 86, 94, 112] allNumbers (finalMelds (meldsOf 1 (redMoves.take 8)))).toOption.map
      (fun r => (r.wrongRate, r.yourChoice.count, r.expected)) =
    some (0, 3, [⟨["2z".toList], 0, ["6m".toList], 3⟩, ⟨["6m".toList], 0, ["2z".toList], 3⟩]) :=
  ⟨⟨88, by decide, .inr (.inr ⟨rfl, rfl⟩)⟩, by decide +kernel⟩

end Verif.Props
