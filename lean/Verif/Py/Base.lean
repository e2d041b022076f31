/-!
Python exceptions as values, and list/tuple indexing.
-/
namespace Verif.Model

/-- Python exceptions raised by the modelled code (no single place in /repo; raised explicitly e.g. at `mahjong/record/universe/interpreter.py:35`). -/
inductive PyErr where
  | valueError | typeError | keyError | indexError | assertionError | runtimeError | stopIteration
  | zeroDivision | attributeError | overflowError | notImplementedError | structError
  deriving DecidableEq, Repr

end Verif.Model

deriving instance DecidableEq for Except

namespace Verif.Py
open Verif.Model (PyErr)

/-- `l[i]` for a Python list, tuple or string: negative indices count from the end
    (used e.g. in `mahjong/record/category.py:62-69`). -/
def pyIdx {α : Type} (l : List α) (i : Int) : Except PyErr α :=
  if 0 ≤ i then
    match l[i.toNat]? with
    | some a => .ok a
    | none => .error .indexError
  else if -(l.length : Int) ≤ i then
    match l[(i + l.length).toNat]? with
    | some a => .ok a
    | none => .error .indexError
  else .error .indexError

/-- CPython `bisect.bisect_right(a, x, lo, hi)` on integers; `hi - lo` strictly decreases
    (used in `mahjong/record/category.py:58`). -/
def bisectRightLoop (a : List Int) (x : Int) (lo hi : Nat) : Nat :=
  if _h : lo < hi then
    let mid := (lo + hi) / 2
    if (match a[mid]? with | some y => decide (x < y) | none => false) then
      bisectRightLoop a x lo mid
    else bisectRightLoop a x (mid + 1) hi
  else lo
termination_by hi - lo
decreasing_by all_goals omega

/-- `bisect.bisect_right(a, x)` (used in `mahjong/record/category.py:58`). -/
def bisectRight (a : List Int) (x : Int) : Nat := bisectRightLoop a x 0 a.length

end Verif.Py
