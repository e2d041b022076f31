import Verif.Model.Builder

namespace Verif.Model
open Verif.Py

/-- What one of several generators that hold the same builder does between two of its `yield`s
    (`mahjong/record/utils/builder.py:39-44`; blocks stay open over a `yield`, as in
    `mahjong/record/universe/tenhou/event_definition.py:51-80`).  `who` says which generator does it; the code does not look at it. -/
inductive BStep (β : Type) where
  /-- `who` enters `with cmd.when(**kwargs)` -/
  | enter (who : Nat) (kwargs : KwDict β)
  /-- `who` leaves its innermost block -/
  | leave (who : Nat)
  /-- `who` calls `cmd(**kwargs)` -/
  | call (who : Nat) (kwargs : KwDict β)

/-- one step on the shared `stack_dicts` and the keywords the constructor has been given
    (`ContextStacker.__enter__`, `__exit__`, `Builder.__call__`, `mahjong/record/utils/builder.py:25-29,42-44`).
    Simplified: the constructor does not raise. -/
def sharedStep (r : BRun β) : BStep β → BRun β
  | .enter _ kwargs => ⟨stackPush r.stack kwargs, r.seen, false⟩
  | .leave _ => ⟨stackPop r.stack, r.seen, false⟩
  | .call _ kwargs => builderCall (fun _ => false) r kwargs

/-- a schedule of steps (`mahjong/record/utils/builder.py:25-44`) -/
def sharedRun (r : BRun β) (steps : List (BStep β)) : BRun β := steps.foldl sharedStep r

end Verif.Model
