import Verif.Model.Command

/-!
`mahjong/record/utils/builder.py`: keyword arguments collected by nested `with` blocks.

A program is what a caller can do with one `Builder`: call it, raise, or run a `with cmd.when(...)` block.
-/
namespace Verif.Model
open Verif.Py

variable {β : Type}

/-- keyword arguments: a dictionary (`mahjong/record/utils/builder.py:6-13,39`) -/
abbrev KwDict (β : Type) := List (Str × β)

/-- `d.update(e)` (`mahjong/record/utils/builder.py:12`) -/
def dictUpdate (d e : KwDict β) : KwDict β := e.foldl (fun d kv => putKey d kv.1 kv.2) d

/-- `StackedDict.merged_dict` (`mahjong/record/utils/builder.py:8-13`); the list is `stack_dicts`, bottom first. -/
def mergedDict (stack : List (KwDict β)) : KwDict β := stack.foldl dictUpdate []

/-- `ContextStacker.__enter__`, `__exit__` (`mahjong/record/utils/builder.py:25-29`) on `stack_dicts`. -/
def stackPush (stack : List (KwDict β)) (item : KwDict β) : List (KwDict β) := stack ++ [item]
/-- `self.stack.pop()` (`mahjong/record/utils/builder.py:29`) -/
def stackPop (stack : List (KwDict β)) : List (KwDict β) := stack.dropLast

/-- What a caller does with a builder (`mahjong/record/utils/builder.py:39-44`). -/
inductive BProg (β : Type) where
  /-- `cmd(**kwargs)` -/
  | call (kwargs : KwDict β)
  /-- an exception -/
  | raise
  /-- `with cmd.when(**kwargs): body` -/
  | block (kwargs : KwDict β) (body : List (BProg β))
  /-- `try: body except: pass` -/
  | guard (body : List (BProg β))

/-- State of a run: `stack_dicts`, the keyword arguments the constructor was called with, in order, and whether an
    exception is on its way out (`mahjong/record/utils/builder.py:4-6,42-44`). -/
structure BRun (β : Type) where
  stack : List (KwDict β)
  seen : List (KwDict β)
  raised : Bool

/-- `Builder.__call__` (`mahjong/record/utils/builder.py:42-44`): a block around the constructor call.  A
    constructor that raises (`bad`) leaves through the same `__exit__`. -/
def builderCall (bad : (Str → Option β) → Bool) (r : BRun β) (kwargs : KwDict β) : BRun β :=
  let inner := stackPush r.stack kwargs
  let m := mergedDict inner
  ⟨stackPop inner, r.seen ++ [m], bad (fun k => m.lookup k)⟩

mutual
/-- one statement; `__exit__` runs on every way out and does not swallow the exception (`mahjong/record/utils/builder.py:28-29,39-40`). -/
def runB (bad : (Str → Option β) → Bool) (r : BRun β) : BProg β → BRun β
  | .call kwargs => builderCall bad r kwargs
  | .raise => { r with raised := true }
  | .block kwargs body =>
    let r' := runBs bad { r with stack := stackPush r.stack kwargs } body
    { r' with stack := stackPop r'.stack }
  | .guard body => { runBs bad r body with raised := false }
/-- statements one after the other, up to an exception (`mahjong/record/utils/builder.py:25-29`) -/
def runBs (bad : (Str → Option β) → Bool) (r : BRun β) : List (BProg β) → BRun β
  | [] => r
  | p :: ps =>
    let r' := runB bad r p
    if r'.raised then r' else runBs bad r' ps
end

end Verif.Model
