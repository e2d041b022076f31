import Verif.Model.BuilderShared
import Verif.Spec.Translate

/-! What several generators holding one builder may expect: the open blocks, each with its owner, oldest first. -/
namespace Verif.Spec
open Verif.Py Verif.Model

variable {β : Type}

/-- `who`'s innermost block is closed, the blocks of the others stay -/
def closeOwn (who : Nat) (blocks : List (Nat × KwDict β)) : List (Nat × KwDict β) :=
  (blocks.reverse.eraseP (fun b => b.1 == who)).reverse

/-- the open blocks after a step -/
def openAfter (blocks : List (Nat × KwDict β)) : BStep β → List (Nat × KwDict β)
  | .enter who kw => blocks ++ [(who, kw)]
  | .leave who => closeOwn who blocks
  | .call _ _ => blocks

/-- the open blocks after a schedule -/
def openAfterAll (blocks : List (Nat × KwDict β)) (steps : List (BStep β)) : List (Nat × KwDict β) :=
  steps.foldl openAfter blocks

/-- A generator leaves only blocks it has entered. -/
def OwnBlocks : List (Nat × KwDict β) → List (BStep β) → Prop
  | _, [] => True
  | blocks, s :: steps =>
    (∀ who, s = .leave who → ∃ b ∈ blocks, b.1 = who) ∧ OwnBlocks (openAfter blocks s) steps

/-- The generators take turns at whole blocks: who leaves a block has entered the youngest open one. -/
def Nested : List (Nat × KwDict β) → List (BStep β) → Prop
  | _, [] => True
  | blocks, s :: steps =>
    (∀ who, s = .leave who → ∃ rest kw, blocks = rest ++ [(who, kw)]) ∧ Nested (openAfter blocks s) steps

/-- the keywords of the steps are dictionaries -/
def StepsOk (steps : List (BStep β)) : Prop :=
  ∀ s ∈ steps, match s with | .enter _ kw => KwOk kw | .call _ kw => KwOk kw | .leave _ => True

/-- what the open blocks add to `env`, younger ones over older ones -/
def underBlocks (env : Str → Option β) (blocks : List (Nat × KwDict β)) : Str → Option β :=
  blocks.foldl (fun e b => override e b.2) env

/-- the keywords each constructor call should be given: its own, over those of the blocks that are open -/
def expected (env : Str → Option β) : List (Nat × KwDict β) → List (BStep β) → List (Str → Option β)
  | _, [] => []
  | blocks, s :: steps =>
    (match s with | .call _ kw => [override (underBlocks env blocks) kw] | _ => []) ++
      expected env (openAfter blocks s) steps

end Verif.Spec
