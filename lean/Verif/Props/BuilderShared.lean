import Verif.Proofs.BuilderShared

namespace Verif.Props
open Verif.Py Verif.Model Verif.Spec Verif.Proofs

/-- **C110.** Whatever the schedule of the generators that share a builder, once all of them have left all their blocks
    the builder is as it was before. -/
theorem C110_clean {β : Type} (stack : List (KwDict β)) (steps : List (BStep β)) (hown : OwnBlocks [] steps)
    (hleft : openAfterAll [] steps = []) :
    (sharedRun ⟨stack, [], false⟩ steps).stack = stack := by
  obtain ⟨above, h1, h2⟩ := shared_depth stack steps [] [] [] false rfl hown
  rw [hleft] at h2
  rw [List.append_nil] at h1
  rw [h1, List.length_eq_zero_iff.1 h2, List.append_nil]

/-- **C110.** As long as the blocks of different generators nest, every constructor call is given its own keywords over
    those of the open blocks. -/
theorem C110_nested {β : Type} (stack : List (KwDict β)) (steps : List (BStep β)) (hok : StepsOk steps)
    (hnest : Nested [] steps) :
    (sharedRun ⟨stack, [], false⟩ steps).seen.map (fun d => fun k => d.lookup k) =
      expected (fun k => (mergedDict stack).lookup k) [] steps := by
  have := shared_nested stack steps [] [] false (fun _ h => by cases h) hok hnest
  simpa using this

/-- **C110.** When they cross, the call gets the keywords of the block that has been left instead of those of the block
    that is open: generator 0 enters `a`, generator 1 enters `b`, 0 leaves, 1 calls. -/
theorem C110_crossed {β : Type} (stack : List (KwDict β)) (a b kw : KwDict β) (ha : KwOk a) (hb : KwOk b) (hkw : KwOk kw)
    (k : Str) (hk : kw.lookup k = none) (u v : β) (hau : a.lookup k = some u) (hbv : b.lookup k = some v) :
    let steps : List (BStep β) := [.enter 0 a, .enter 1 b, .leave 0, .call 1 kw, .leave 1]
    OwnBlocks [] steps ∧ StepsOk steps ∧
      (sharedRun ⟨stack, [], false⟩ steps).seen.map (fun d => d.lookup k) = [some u] ∧
      (expected (fun k => (mergedDict stack).lookup k) [] steps).map (fun e => e k) = [some v] := by
  intro steps
  refine ⟨?_, ?_, ?_, ?_⟩
  · simp [steps, OwnBlocks, openAfter, closeOwn]
  · intro s hs
    simp only [steps, List.mem_cons, List.not_mem_nil, or_false] at hs
    rcases hs with rfl | rfl | rfl | rfl | rfl <;> simp_all
  · have h1 := congrFun (mergedDict_push (stackPush stack a) kw hkw) k
    have h2 := congrFun (mergedDict_push stack a ha) k
    simp only [override, hk, hau] at h1 h2
    have : (sharedRun ⟨stack, [], false⟩ steps).seen = [mergedDict (stackPush (stackPush stack a) kw)] := by
      simp [steps, sharedRun, sharedStep, builderCall, stackPush, stackPop, List.dropLast_append_of_ne_nil]
    rw [this]
    simp [h1, h2]
  · simp [steps, expected, openAfter, closeOwn, underBlocks, override, hk, hbv]

/-- two generators, first nested, then crossed: the builder is clean in the end both times -/
example :
    let k := "k".toList
    let nested : List (BStep Nat) :=
      [.enter 0 [(k, 1)], .call 0 [], .enter 1 [(k, 2)], .call 0 [], .leave 1, .call 1 [], .leave 0]
    let crossed : List (BStep Nat) := [.enter 0 [(k, 1)], .enter 1 [(k, 2)], .leave 0, .call 1 [], .leave 1]
    Nested [] nested ∧ StepsOk nested ∧ OwnBlocks [] crossed ∧ openAfterAll [] crossed = [] ∧
      (sharedRun ⟨[], [], false⟩ nested).seen.map (fun d => d.lookup k) = [some 1, some 2, some 1] ∧
      (sharedRun ⟨[], [], false⟩ crossed).seen.map (fun d => d.lookup k) = [some 1] := by
  refine ⟨?_, ?_, ?_, ?_, by decide +kernel, by decide +kernel⟩
  · simp only [Nested, openAfter]
    refine ⟨by simp, by simp, by simp, by simp, ?_, by simp, ?_, trivial⟩
    · rintro who ⟨⟩
      exact ⟨_, _, rfl⟩
    · rintro who ⟨⟩
      exact ⟨[], _, by simp [closeOwn]; rfl⟩
  · intro s hs
    simp only [List.mem_cons, List.not_mem_nil, or_false] at hs
    rcases hs with rfl | rfl | rfl | rfl | rfl | rfl | rfl <;> simp [KwOk]
  · simp [OwnBlocks, openAfter, closeOwn]
  · simp [openAfterAll, openAfter, closeOwn]

end Verif.Props
