import Verif.Py.Base

/-!
`StageGroupby` (`mahjong/record/stage.py`): an iterator of (stages, group) pairs where every group is a
generator that shares the underlying iterator with its parent.  Modelled as a state machine so that the
outer `next` and the `next` of any group can be interleaved.
-/
namespace Verif.Model

section
variable {α κ : Type} [DecidableEq κ]

/-- `self.tgtkey`: an `UnknownKey` holding a key (`none` is the initial `object()` sentinel, equal to no key),
    or the list of stages still accepted (`mahjong/record/stage.py:12-17,28,39-40`). -/
inductive Tgt (κ : Type) where
  | unknown (v : Option κ)
  | stages (l : List κ)
  deriving DecidableEq, Repr

/-- The fields of a `StageGroupby` (`mahjong/record/stage.py:21-28`).  `it` is what the iterator has left;
    `cur` is `(self.currkey, self.currvalue)`, `none` before the first element; `id` stands for the `object()`
    identity renewed by every `__next__`. -/
structure SG (α κ : Type) where
  it : List α
  cur : Option (κ × α)
  tgt : Tgt κ
  id : Nat
  deriving DecidableEq, Repr

/-- `__init__` (`mahjong/record/stage.py:21-28`). -/
def SG.start (input : List α) : SG α κ := ⟨input, none, .unknown none, 0⟩

/-- `self.currkey` (`mahjong/record/stage.py:27,38`) -/
def SG.currKey (s : SG α κ) : Option κ := s.cur.map (·.1)

/-- the loop of `_stage_accepted` on a list of stages (`mahjong/record/stage.py:46-51`): drops stages from the
    shared list until the current key is met. -/
def acceptLoop (key : Option κ) : List κ → Bool × List κ
  | [] => (false, [])
  | s :: l => if key = some s then (true, s :: l) else acceptLoop key l

/-- `_stage_accepted` (`mahjong/record/stage.py:43-51`): the answer and the target after the call. -/
def stageAccepted (key : Option κ) : Tgt κ → Bool × Tgt κ
  | .unknown v => (decide (v = key), .unknown v)
  | .stages l => ((acceptLoop key l).1, .stages (acceptLoop key l).2)

/-- the skipping loop of `__next__` (`mahjong/record/stage.py:36-38`); the flag says whether it ended normally
    (`false`: `StopIteration`). -/
def skipLoop (key : α → κ) (cur : Option (κ × α)) (tgt : Tgt κ) (id : Nat) : List α → Bool × SG α κ
  | [] =>
    let (ok, t) := stageAccepted (cur.map (·.1)) tgt
    (!ok, ⟨[], cur, t, id⟩)
  | x :: xs =>
    let (ok, t) := stageAccepted (cur.map (·.1)) tgt
    if ok then skipLoop key (some (key x, x)) t id xs
    else (true, ⟨x :: xs, cur, t, id⟩)

/-- `self.stages[self.stages.index(self.currkey):]` or an `UnknownKey` (`mahjong/record/stage.py:39-40`). -/
def newTgt (stages : List κ) (k : Option κ) : Tgt κ :=
  match k with
  | some k => if k ∈ stages then .stages (stages.drop (stages.idxOf k)) else .unknown (some k)
  | none => .unknown none

/-- `__next__` (`mahjong/record/stage.py:33-41`): `none` is `StopIteration`; otherwise the copy of the target
    and the identity of the new group. -/
def SG.next (stages : List κ) (key : α → κ) (s : SG α κ) : Option (Tgt κ × Nat) × SG α κ :=
  let (ok, s1) := skipLoop key s.cur s.tgt (s.id + 1) s.it
  if ok then
    let t := newTgt stages s1.currKey
    (some (t, s1.id), { s1 with tgt := t })
  else (none, s1)

/-- Where a group generator is: not started, suspended at its `yield`, finished (`mahjong/record/stage.py:53-60`). -/
inductive Phase where
  | fresh | suspended | done
  deriving DecidableEq, Repr

/-- A group generator.  Only the newest group can have `self.id is id`, and its `tgtkey` is the very list in
    `self.tgtkey`, so the target need not be stored (`mahjong/record/stage.py:41,53-60`). -/
structure Gen where
  id : Nat
  phase : Phase
  deriving DecidableEq, Repr

/-- the loop test and `yield` of `_grouper` (`mahjong/record/stage.py:54-55`). -/
def SG.check (s : SG α κ) (g : Gen) : Option α × SG α κ × Gen :=
  if s.id = g.id then
    match stageAccepted s.currKey s.tgt with
    | (true, t) => (s.cur.map (·.2), { s with tgt := t }, { g with phase := .suspended })
    | (false, t) => (none, { s with tgt := t }, { g with phase := .done })
  else (none, s, { g with phase := .done })

/-- `next` of a group (`mahjong/record/stage.py:53-60`); `none` is `StopIteration`.  When resumed it advances the
    shared iterator before it looks at its identity. -/
def SG.groupNext (key : α → κ) (s : SG α κ) (g : Gen) : Option α × SG α κ × Gen :=
  match g.phase with
  | .done => (none, s, g)
  | .fresh => s.check g
  | .suspended =>
    match s.it with
    | [] => (none, s, { g with phase := .done })
    | x :: xs => SG.check { s with it := xs, cur := some (key x, x) } g

/-- A consumer that calls `next` on the group `n` times and keeps what it gets
    (a caller of `mahjong/record/stage.py:53-60`). -/
def SG.readN (key : α → κ) : Nat → SG α κ → Gen → List α × SG α κ × Gen
  | 0, s, g => ([], s, g)
  | n + 1, s, g =>
    match s.groupNext key g with
    | (none, s1, g1) => SG.readN key n s1 g1
    | (some a, s1, g1) => let (l, s2, g2) := SG.readN key n s1 g1; (a :: l, s2, g2)

/-- A consumer with a schedule: for every number it asks for the next group and reads from it so many times
    (a caller of `mahjong/record/stage.py:33-41`). -/
def SG.consume (stages : List κ) (key : α → κ) : List Nat → SG α κ → List (Tgt κ × List α)
  | [], _ => []
  | n :: ns, s =>
    match s.next stages key with
    | (none, _) => []
    | (some (t, id), s1) =>
      let (l, s2, _) := s1.readN key n ⟨id, .fresh⟩
      (t, l) :: SG.consume stages key ns s2

/-- `[list(g) for _, g in StageGroupby(...)]`: as many reads and groups as there are elements reach the end
    (one more read of each group sees its `StopIteration`) (`mahjong/record/reader.py:139`). -/
def groupLists (stages : List κ) (key : α → κ) (input : List α) : List (List α) :=
  (SG.consume stages key (List.replicate (input.length + 1) (input.length + 1)) (SG.start input)).map (·.2)

end
end Verif.Model
