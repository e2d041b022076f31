import Verif.Spec.BuilderShared
import Verif.Proofs.Builder

namespace Verif.Proofs
open Verif.Py Verif.Model Verif.Spec

variable {β : Type}

theorem closeOwn_length (who : Nat) (blocks : List (Nat × KwDict β)) (h : ∃ b ∈ blocks, b.1 = who) :
    (closeOwn who blocks).length + 1 = blocks.length := by
  obtain ⟨b, hb, hw⟩ := h
  unfold closeOwn
  have hm : b ∈ blocks.reverse := List.mem_reverse.2 hb
  have := List.length_eraseP_of_mem (p := fun b : Nat × KwDict β => b.1 == who) hm (by simpa using hw)
  have hp : 0 < blocks.length := List.length_pos_of_mem hb
  rw [List.length_reverse, this, List.length_reverse]
  omega

theorem closeOwn_last (who : Nat) (kw : KwDict β) (rest : List (Nat × KwDict β)) :
    closeOwn who (rest ++ [(who, kw)]) = rest := by
  simp [closeOwn]

/-- the stack is the old stack and as many entries as there are open blocks -/
theorem shared_depth (base : List (KwDict β)) :
    ∀ (steps : List (BStep β)) (blocks : List (Nat × KwDict β)) (above : List (KwDict β)) (seen : List (KwDict β)) (x : Bool),
      above.length = blocks.length → OwnBlocks blocks steps →
      ∃ above', (sharedRun ⟨base ++ above, seen, x⟩ steps).stack = base ++ above' ∧
        above'.length = (openAfterAll blocks steps).length
  | [], blocks, above, _, _, hl, _ => ⟨above, rfl, hl⟩
  | .enter who kw :: steps, blocks, above, seen, x, hl, h => by
    have := shared_depth base steps (blocks ++ [(who, kw)]) (above ++ [kw]) seen false (by simp [hl]) h.2
    simpa [sharedRun, sharedStep, openAfterAll, openAfter, stackPush] using this
  | .leave who :: steps, blocks, above, seen, x, hl, h => by
    have hlen := closeOwn_length who blocks (h.1 who rfl)
    have hne : above ≠ [] := by
      intro hc
      rw [hc] at hl
      simp at hl
      omega
    have := shared_depth base steps (closeOwn who blocks) above.dropLast seen false (by simp [hl]; omega) h.2
    simpa [sharedRun, sharedStep, openAfterAll, openAfter, stackPop, List.dropLast_append_of_ne_nil hne] using this
  | .call who kw :: steps, blocks, above, seen, x, hl, h => by
    have := shared_depth base steps blocks above (seen ++ [mergedDict (base ++ above ++ [kw])]) false hl h.2
    simpa [sharedRun, sharedStep, openAfterAll, openAfter, builderCall, stackPush, stackPop] using this

theorem underBlocks_stack (base : List (KwDict β)) (blocks : List (Nat × KwDict β)) (hk : ∀ b ∈ blocks, KwOk b.2) :
    (fun k => (mergedDict (base ++ blocks.map Prod.snd)).lookup k) =
      underBlocks (fun k => (mergedDict base).lookup k) blocks := by
  induction blocks generalizing base with
  | nil => simp [underBlocks]
  | cons b blocks ih =>
    have h1 := ih (base ++ [b.2]) (fun c hc => hk c (List.mem_cons_of_mem _ hc))
    have h2 := mergedDict_push base b.2 (hk b List.mem_cons_self)
    unfold stackPush at h2
    rw [h2] at h1
    simpa [underBlocks] using h1

theorem shared_nested (base : List (KwDict β)) :
    ∀ (steps : List (BStep β)) (blocks : List (Nat × KwDict β)) (seen : List (KwDict β)) (x : Bool),
      (∀ b ∈ blocks, KwOk b.2) → StepsOk steps → Nested blocks steps →
      (sharedRun ⟨base ++ blocks.map Prod.snd, seen, x⟩ steps).seen.map (fun d => fun k => d.lookup k) =
        seen.map (fun d => fun k => d.lookup k) ++ expected (fun k => (mergedDict base).lookup k) blocks steps
  | [], _, seen, _, _, _, _ => by simp [sharedRun, expected]
  | .enter who kw :: steps, blocks, seen, x, hb, hs, h => by
    have hkw : KwOk kw := hs _ List.mem_cons_self
    have := shared_nested base steps (blocks ++ [(who, kw)]) seen false
      (by
        intro b hm
        rcases List.mem_append.1 hm with hm | hm
        · exact hb b hm
        · rw [List.mem_singleton.1 hm]; exact hkw)
      (fun s hm => hs s (List.mem_cons_of_mem _ hm)) h.2
    simpa [sharedRun, sharedStep, openAfter, stackPush, expected] using this
  | .leave who :: steps, blocks, seen, x, hb, hs, h => by
    obtain ⟨rest, kw, rfl⟩ := h.1 who rfl
    have hn := h.2
    simp only [openAfter, closeOwn_last] at hn
    have := shared_nested base steps rest seen false
      (fun b hm => hb b (List.mem_append_left _ hm)) (fun s hm => hs s (List.mem_cons_of_mem _ hm)) hn
    simp only [expected, openAfter, closeOwn_last, List.nil_append]
    rw [← this]
    simp [sharedRun, sharedStep, stackPop, ← List.append_assoc]
  | .call who kw :: steps, blocks, seen, x, hb, hs, h => by
    have hkw : KwOk kw := hs _ List.mem_cons_self
    have := shared_nested base steps blocks (seen ++ [mergedDict (stackPush (base ++ blocks.map Prod.snd) kw)]) false
      hb (fun s hm => hs s (List.mem_cons_of_mem _ hm)) h.2
    have hm := mergedDict_push (base ++ blocks.map Prod.snd) kw hkw
    rw [underBlocks_stack base blocks hb] at hm
    simp only [List.map_append, List.map_cons, List.map_nil, hm] at this
    simp only [expected, openAfter]
    rw [← List.append_assoc, ← this]
    simp [sharedRun, sharedStep, builderCall, stackPush, stackPop]

end Verif.Proofs
